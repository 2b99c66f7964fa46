import Verif.Model.Sphere

/-!
# Model: the coarse meshes of disks and spheres

The vertices of the trees of the meshes in src/t8_cmesh/t8_cmesh_examples.cxx that use the geometries of Model/Sphere.
-/

namespace T8.SphereMesh
open T8 T8.CadGeometry T8.Sphere

/-- `t8_mat_mult_vec`, src/t8_helper_functions/t8_mat.h:106. -/
def mulVec (m : Fin 3 → Pt) (a : Pt) : Pt :=
  ![m 0 0 * a 0 + m 0 1 * a 1 + m 0 2 * a 2, m 1 0 * a 0 + m 1 1 * a 1 + m 1 2 * a 2, m 2 0 * a 0 + m 2 1 * a 1 + m 2 2 * a 2]

/-- `t8_mat_init_xrot`, t8_mat.h:37. -/
noncomputable def xrot (t : ℝ) : Fin 3 → Pt := ![![1, 0, 0], ![0, Real.cos t, -Real.sin t], ![0, Real.sin t, Real.cos t]]

/-- `t8_mat_init_yrot`, t8_mat.h:60. -/
noncomputable def yrot (t : ℝ) : Fin 3 → Pt := ![![Real.cos t, 0, Real.sin t], ![0, 1, 0], ![-Real.sin t, 0, Real.cos t]]

/-- `t8_mat_init_zrot`, t8_mat.h:83. -/
noncomputable def zrot (t : ℝ) : Fin 3 → Pt := ![![Real.cos t, -Real.sin t, 0], ![Real.sin t, Real.cos t, 0], ![0, 0, 1]]

/-- `angles`, t8_cmesh_examples.cxx:3356, 3603; `cube_angles`, 3271. -/
noncomputable def angles : Nat → ℝ
  | 0 => 0
  | 1 => 1 / 2 * Real.pi
  | 2 => 1 / 2 * Real.pi
  | 3 => Real.pi
  | 4 => -(1 / 2) * Real.pi
  | _ => -(1 / 2) * Real.pi

/-- `rot_axis`, t8_cmesh_examples.cxx:3357, 3604; `cube_rot_axis`, 3272. -/
def rotAxis : Nat → Nat
  | 0 => 0
  | 1 => 0
  | 2 => 1
  | 3 => 1
  | 4 => 0
  | _ => 1

/-- The rotation to face `i` of the cube, t8_cmesh_examples.cxx:3364-3373, 3616-3621. -/
noncomputable def cubeRot (i : Nat) : Pt → Pt := mulVec (if rotAxis i = 0 then xrot (angles i) else yrot (angles i))

/-- `vertices`, t8_cmesh_examples.cxx:3354. -/
def quadVertices (r : ℝ) : Nat → Pt
  | 0 => ![-r, -r, r]
  | 1 => ![r, -r, r]
  | 2 => ![-r, r, r]
  | _ => ![r, r, r]

/-- The vertices of tree `i` of `t8_cmesh_new_quadrangulated_spherical_surface`, t8_cmesh_examples.cxx:3330. -/
noncomputable def surfaceTree (radius : ℝ) (i : Nat) : Nat → Pt := fun v => radius • cubeRot i (quadVertices (1 / Real.sqrt 3) v)

/-- `vertices`, t8_cmesh_examples.cxx:3268. -/
def triVertices (r : ℝ) : Nat → Pt
  | 0 => ![-r, -r, r]
  | 1 => ![r, -r, r]
  | _ => ![0, 0, r]

/-- `face_angles`, t8_cmesh_examples.cxx:3270. -/
noncomputable def faceAngles : Nat → ℝ
  | 0 => 0
  | 1 => 1 / 2 * Real.pi
  | 2 => Real.pi
  | _ => 3 / 2 * Real.pi

/-- The vertices of tree `4 i + f` of `t8_cmesh_new_triangulated_spherical_surface_cube`, t8_cmesh_examples.cxx:3241. -/
noncomputable def triTree (radius : ℝ) (i f : Nat) : Nat → Pt := fun v =>
  radius • cubeRot i (mulVec (zrot (faceAngles f)) (triVertices (1 / Real.sqrt 3) v))

/-- `hex_vertices`, t8_cmesh_examples.cxx:3598. -/
def hexVertices (r R : ℝ) (v : Nat) : Pt := if v < 4 then quadVertices r v else quadVertices R (v - 4)

/-- `ref_coords`, t8_cmesh_examples.cxx:3629-3632. -/
noncomputable def tileCoords (n layers i j k : Nat) (v : Nat) : Pt :=
  ![((i : ℝ) + if v % 2 = 1 then 1 else 0) * (1 / n), ((j : ℝ) + if v / 2 % 2 = 1 then 1 else 0) * (1 / n), ((k : ℝ) + if v / 4 = 1 then 1 else 0) * (1 / layers)]

/-- The vertices of the tree of `t8_cmesh_new_cubed_spherical_shell` for the rotation `irot`, the layer `k` and the position `i, j`, t8_cmesh_examples.cxx:3570. -/
noncomputable def shellTree (inner thickness : ℝ) (n layers irot i j k : Nat) : Nat → Pt := fun v =>
  lerp3 (tileCoords n layers i j k v) fun w =>
    (if w < 4 then inner else 1 / 2 * (inner + thickness)) • cubeRot irot (hexVertices (1 / Real.sqrt 3) (2 / Real.sqrt 3) w)

/-- `vertices_mid`, `vertices_top`, `vertices_bot`, t8_cmesh_examples.cxx:2951-2962. -/
noncomputable def diskVertices (inner outer : ℝ) (q : Nat) (v : Nat) : Pt :=
  match q, v with
  | 0, 0 => ![0, 0, 0]
  | 0, 1 => ![6 / 5 * inner, 0, 0]
  | 0, 2 => ![0, 6 / 5 * inner, 0]
  | 0, _ => ![inner, inner, 0]
  | 1, 0 => ![0, 6 / 5 * inner, 0]
  | 1, 1 => ![inner, inner, 0]
  | 1, 2 => ![0, outer, 0]
  | 1, _ => ![outer, outer, 0]
  | _, 0 => ![6 / 5 * inner, 0, 0]
  | _, 1 => ![outer, 0, 0]
  | _, 2 => ![inner, inner, 0]
  | _, _ => ![outer, outer, 0]

/-- The vertices of tree `g` of `t8_cmesh_new_quadrangulated_disk`, t8_cmesh_examples.cxx:2914. -/
noncomputable def diskTree (radius : ℝ) (g : Nat) : Nat → Pt := fun v =>
  radius • mulVec (zrot (-((g / 3 : Nat) : ℝ) * (1 / 2) * Real.pi)) (diskVertices (3 / 5 / Real.sqrt 2) (1 / Real.sqrt 2) (g % 3) v)

/-- `vertices_mid`, `vertices_top`, `vertices_bot`, `vertices_zen`, t8_cmesh_examples.cxx:3727-3758. -/
noncomputable def ballVertices (a b : ℝ) (q : Nat) (v : Nat) : Pt :=
  match q, v with
  | 0, 0 => ![0, 0, 0]
  | 0, 1 => ![6 / 5 * a, 0, 0]
  | 0, 2 => ![0, 6 / 5 * a, 0]
  | 0, 3 => ![a, a, 0]
  | 0, 4 => ![0, 0, 6 / 5 * a]
  | 0, 5 => ![a, 0, a]
  | 0, 6 => ![0, a, a]
  | 0, _ => ![a, a, a]
  | 1, 0 => ![0, 6 / 5 * a, 0]
  | 1, 1 => ![a, a, 0]
  | 1, 2 => ![0, b, 0]
  | 1, 3 => ![b, b, 0]
  | 1, 4 => ![0, a, a]
  | 1, 5 => ![a, a, a]
  | 1, 6 => ![0, b, b]
  | 1, _ => ![b, b, b]
  | 2, 0 => ![6 / 5 * a, 0, 0]
  | 2, 1 => ![b, 0, 0]
  | 2, 2 => ![a, a, 0]
  | 2, 3 => ![b, b, 0]
  | 2, 4 => ![a, 0, a]
  | 2, 5 => ![b, 0, b]
  | 2, 6 => ![a, a, a]
  | 2, _ => ![b, b, b]
  | _, 0 => ![0, 0, 6 / 5 * a]
  | _, 1 => ![a, 0, a]
  | _, 2 => ![0, a, a]
  | _, 3 => ![a, a, a]
  | _, 4 => ![0, 0, b]
  | _, 5 => ![b, 0, b]
  | _, 6 => ![0, b, b]
  | _, _ => ![b, b, b]

/-- The vertices of tree `g` of `t8_cmesh_new_cubed_sphere`, t8_cmesh_examples.cxx:3685. -/
noncomputable def ballTree (radius : ℝ) (g : Nat) : Nat → Pt := fun v =>
  radius • mulVec (yrot (((g / 16 : Nat) : ℝ) * Real.pi))
    (mulVec (zrot (-((g / 4 % 4 : Nat) : ℝ) * (1 / 2) * Real.pi)) (ballVertices (3 / 5 / Real.sqrt 3) (1 / Real.sqrt 3) (g % 4) v))

end T8.SphereMesh
