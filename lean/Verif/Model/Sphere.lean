import Mathlib.Analysis.SpecialFunctions.Trigonometric.Basic
import Verif.Model.CadGeometry

/-!
# Model: disk and sphere geometries

src/t8_geometry/t8_geometry_implementations/t8_geometry_examples.cxx and the functions on vectors in src/t8_types/t8_vec.hxx.  `double` is `ℝ`, and division by 0
gives 0.
-/

namespace T8.Sphere
open T8 T8.CadGeometry

/-- `t8_norm`, t8_vec.hxx:75. -/
noncomputable def norm (v : Pt) : ℝ := Real.sqrt (dot v v)

/-- `t8_normalize`, t8_vec.hxx:86. -/
noncomputable def normalize (v : Pt) : Pt := fun i => v i / norm v

/-- `t8_rescale`, t8_vec.hxx:259. -/
noncomputable def rescale (v : Pt) (length : ℝ) : Pt := fun i => length * normalize v i

/-- `t8_cross_3D`, t8_vec.hxx:217. -/
def cross (a b : Pt) : Pt := ![a 1 * b 2 - a 2 * b 1, a 2 * b 0 - a 0 * b 2, a 0 * b 1 - a 1 * b 0]

/-- `t8_orthogonal_tripod`, t8_vec.hxx:294. -/
noncomputable def tripod (v1 : Pt) : Pt × Pt :=
  let v2 : Pt := ![v1 1, v1 2, -v1 0]
  let w : Pt := v2 + (-dot v1 v2 / dot v1 v1) • v1
  (normalize w, normalize (cross v1 w))

/-! ### Triangulated surfaces and shells of prisms -/

/-- `t8_geom_evaluate_sphere_tri_prism` for triangles, t8_geometry_examples.cxx:99-115. -/
noncomputable def triSurface (V : Nat → Pt) (r : Pt) : Pt := rescale (tri2 (r 0) (r 1) V) (norm (V 0))

/-- `t8_geom_evaluate_sphere_tri_prism` for prisms, t8_geometry_examples.cxx:99-125. -/
noncomputable def prismShell (V : Nat → Pt) (r : Pt) : Pt :=
  rescale (prismLinear r V) (norm (V 0) + r 2 * (norm (V 3) - norm (V 0)))

/-! ### Surfaces and shells over the faces of a cube -/

/-- The normal of a tree, t8_geometry_examples.cxx:160-161, 217-218. -/
noncomputable def normal (V : Nat → Pt) : Pt := normalize (cross (V 1 - V 0) (V 2 - V 0))

/-- The distance of a tree to the origin, t8_geometry_examples.cxx:164, 221. -/
noncomputable def distance (V : Nat → Pt) : ℝ := |dot (V 0) (normal V)|

/-- The point before the call of `t8_rescale`, t8_geometry_examples.cxx:169-198, 230-269. -/
noncomputable def cubed (V : Nat → Pt) (position : Pt) : Pt :=
  let n := normal V
  let d := distance V
  let t := tripod n
  let anchor := d • n
  let diff := position - anchor
  let a1 := d * Real.tan (1 / 4 * Real.pi * dot t.1 diff / d)
  let a2 := d * Real.tan (1 / 4 * Real.pi * dot t.2 diff / d)
  anchor + a1 • t.1 + a2 • t.2

/-- The linear geometry of quads and triangles. -/
def linear2 (c : Eclass) (V : Nat → Pt) (r : Pt) : Pt := if c = .quad then lerp2 (r 0) (r 1) V else tri2 (r 0) (r 1) V

/-- `t8_geometry_tessellated_spherical_surface::t8_geom_evaluate`, t8_geometry_examples.cxx:145-201, for quads and triangles. -/
noncomputable def tessellated (c : Eclass) (V : Nat → Pt) (r : Pt) : Pt := rescale (cubed V (linear2 c V r)) (distance V * Real.sqrt 3)

/-- `t8_geometry_cubed_spherical_shell::t8_geom_evaluate`, t8_geometry_examples.cxx:203-272; `c` is the class of the bottom: quad for hexahedra and triangle
for prisms. -/
noncomputable def shell (c : Eclass) (V : Nat → Pt) (r : Pt) : Pt :=
  let inner := distance V * Real.sqrt 3
  let thickness := |dot (V (if c = .quad then 4 else 3)) (normal V)| * Real.sqrt 3 - inner
  rescale (cubed V (linear2 c V r)) (inner + r 2 * thickness)

/-! ### Disk -/

/-- `t8_geometry_quadrangulated_disk::t8_geom_evaluate`, t8_geometry_examples.cxx:32-97, for tree `g`. -/
noncomputable def disk (g : Nat) (V : Nat → Pt) (r : Pt) : Pt :=
  let p := lerp2 (r 0) (r 1) V
  if g % 3 = 0 then p
  else
    let n := normalize (V 0)
    let inv := 1 / dot (normalize (V 3)) n
    let radial := if g % 3 = 2 then r 0 else r 1
    let angle (x : ℝ) := Real.tan (1 / 4 * Real.pi * x)
    let s := normalize (if g % 3 = 2 then lerp2 (r 0) (angle (r 1)) V else lerp2 (angle (r 0)) (r 1) V)
    let outRadius := dot p n * inv
    (1 - radial) • p + (radial * outRadius) • s

/-- `r_coord_lookup`, t8_geometry_examples.cxx:301. -/
def rCoord (g : Nat) : Fin 3 := if g % 4 = 1 then 1 else if g % 4 = 2 then 0 else 2

/-- `t8_geometry_cubed_sphere::t8_geom_evaluate`, t8_geometry_examples.cxx:274-341, for tree `g`.  The two other coordinates are the angular ones
(`t_coord_lookup`, `p_coord_lookup`). -/
noncomputable def ball (g : Nat) (V : Nat → Pt) (r : Pt) : Pt :=
  let p := lerp3 r V
  if g % 4 = 0 then p
  else
    let n := normalize (V 0)
    let inv := 1 / dot (normalize (V 7)) n
    let radial := r (rCoord g)
    let corr : Pt := fun j => if j = rCoord g then r j else Real.tan (1 / 4 * Real.pi * r j)
    let s := normalize (lerp3 corr V)
    let outRadius := dot p n * inv
    (1 - radial) • p + (radial * outRadius) • s

end T8.Sphere
