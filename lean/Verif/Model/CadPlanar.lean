import Verif.Model.CadGeometry

/-!
# Model: quads and triangles with linked CAD curves and surfaces

`t8_geom_evaluate_cad_quad` and `t8_geom_evaluate_cad_tri` (src/t8_geometry/t8_geometry_implementations/t8_geometry_cad.cxx:289-697) with
`t8_geom_get_ref_intersection` and `t8_geom_get_triangle_scaling_factor` (src/t8_geometry/t8_geometry_helpers.c:262-395).

Simplifications: as in Model/CadGeometry.lean, `double` is `ℝ` and the CAD kernel is a parameter.  Here the whole batch of points is an argument: `R i` is
`ref_coords[2 * i], ref_coords[2 * i + 1]`.  `none`: the result is undefined, because the code reads behind an array or asks the CAD kernel for a surface
with a number that is not positive.  A division by 0 gives 0 here; in the code it gives NaN.
-/

namespace T8.CadGeometry
open T8

/-! ### Quads -/

/-- `ref_coords[i]` of one point. -/
def at2 (r : Prm) (i : Nat) : ℝ := if i = 0 then r 0 else r 1

/-- The factor of edge `e`, t8_geometry_cad.cxx:643-648, 676-681. -/
def quadFactor (r : Prm) (e : Nat) : ℝ := if e % 2 = 0 then 1 - at2 r (e / 2) else at2 r (e / 2)

/-- The factor of edge `e` in the branch with a linked face, t8_geometry_cad.cxx:566-571. -/
def quadFaceFactor (r : Prm) (e : Nat) : ℝ := if e % 2 = 1 then 1 - at2 r (e / 2) else at2 r (e / 2)

/-- The body of the loop over the edges if the face is linked, t8_geometry_cad.cxx:518-576: the parameters of the edge are interpolated at the point itself
(`ref_coords[edge_direction + offset_2d]`), the parameters of the face and the factor belong to the first point of the batch. -/
def quadParamStep (G : Cad) (T : Tree) (R : Nat → Prm) (i : Nat) (p : Prm) (e : Nat) : Prm :=
  if 0 < T.edges e then
    let d := 1 - e / 2
    p + quadFaceFactor (R 0) e • (G.toFace (T.edges e) (T.faces 0) (lerp1 (at2 (R i) d) (T.edgeParams e) 0) (T.faceParams 0 0) -
      lerp1 (at2 (R 0) d) (getFaceVertices .quad (T.faceParams 0) e))
  else p

/-- The body of the loop over the edges if the face is not linked, t8_geometry_cad.cxx:604-686.  `temp_parameters[0 + offset_2d]` is behind the array for
all points but the first one. -/
def quadPointStep (G : Cad) (T : Tree) (R : Nat → Prm) (i : Nat) (out : Pt) (e : Nat) : Option Pt :=
  let t := at2 (R i) (1 - e / 2)
  let line := lerp1 t (getFaceVertices .quad T.V e)
  if 0 < T.edges e then some (out + quadFactor (R i) e • (G.curve (T.edges e) (lerp1 t (T.edgeParams e) 0) - line))
  else if 0 < T.edges (e + 4) then
    if i ≠ 0 then none else some (out + quadFactor (R i) e • (G.surf (T.edges (e + 4)) (lerp1 t (T.edgeParams e)) - line))
  else some out

/-- `t8_geom_evaluate_cad_quad`, t8_geometry_cad.cxx:479-697: point `i` of the batch. -/
def evaluateQuad (G : Cad) (T : Tree) (R : Nat → Prm) (i : Nat) : Option Pt :=
  if 0 < T.faces 0 then
    some (G.surf (T.faces 0) ((List.range 4).foldl (quadParamStep G T R i) (lerp2 (R i 0) (R i 1) (T.faceParams 0))))
  else (List.range 4).foldlM (quadPointStep G T R i) (lerp2 (R i 0) (R i 1) T.V)

/-! ### Triangles -/

open Classical in
/-- `t8_geom_get_ref_intersection`, t8_geometry_helpers.c:262-362. -/
noncomputable def refIntersection (e : Nat) (r : Prm) : Prm :=
  let o : Prm := ![cornerRef .triangle e 0, cornerRef .triangle e 1]
  let slope := if o 0 = r 0 then 0 else (o 1 - r 1) / (o 0 - r 0)
  if e = 0 then ![1, slope * 1]
  else if e = 1 then
    if r 0 = o 0 then ![1, 1] else if r 1 = o 1 then ![0, 0] else ![-slope / (1 - slope), -slope / (1 - slope)]
  else if r 0 = o 0 then ![1, 0] else if r 1 = o 1 then ![0, 1] else ![(r 0 * o 1 - r 1 * o 0) / (-(r 1 - o 1)), 0]

/-- `t8_geom_get_triangle_scaling_factor`, t8_geometry_helpers.c:364-390. -/
noncomputable def triScale (e : Nat) (V : Nat → Pt) (q x : Pt) : ℝ :=
  Real.sqrt (dot (V e - x) (V e - x)) / Real.sqrt (dot (V e - q) (V e - q))

/-- `ref_intersection[(i_edge == 0) + offset_2d]`. -/
noncomputable def triCoeff (e : Nat) (r : Prm) : ℝ := if e = 0 then refIntersection e r 1 else refIntersection e r 0

/-- `t8_geom_compute_linear_geometry` of a triangle, t8_geometry_helpers.c:117. -/
def triLinear (r : Prm) (V : Nat → Pt) : Pt := tri2 (r 0) (r 1) V

/-- The body of the loop over the edges if the face is not linked, t8_geometry_cad.cxx:425-474, for one point. -/
noncomputable def triPointStep (G : Cad) (T : Tree) (r : Prm) (out : Pt) (e : Nat) : Pt :=
  if 0 < T.edges e ∨ 0 < T.edges (e + 3) then
    let q := triLinear (refIntersection e r) T.V
    out + triScale e T.V q out • (edgePoint G T 3 e (triCoeff e r) - q)
  else out

/-- The arrays `interpolated_surface_parameters` and `out_coords`. -/
structure TriState where
  params : Nat → Prm
  out : Nat → Pt

/-- One point in the loop over the edges if the face is linked, t8_geometry_cad.cxx:393-411. -/
noncomputable def triParamPoint (G : Cad) (T : Tree) (R : Nat → Prm) (e : Nat) (s : TriState) (i : Nat) : Option TriState :=
  let q := triLinear (refIntersection e (R i)) T.V
  let t := triCoeff e (R i)
  let shift := G.toFace (T.edges e) (T.faces 0) (lerp1 t (T.edgeParams e) 0) (T.faceParams 0 0) -
    lerp1 t (getFaceVertices .triangle (T.faceParams 0) e)
  let p := s.params i + triScale e T.V q (s.out i) • shift
  if 0 < T.edges (e + 3) then
    some ⟨Function.update s.params i p, Function.update s.out i (G.surf (T.edges (e + 3)) p)⟩
  else none

/-- The body of the loop over the edges if the face is linked, t8_geometry_cad.cxx:352-420.  After each edge the first point is set. -/
noncomputable def triParamStep (G : Cad) (T : Tree) (R : Nat → Prm) (n : Nat) (s : TriState) (e : Nat) : Option TriState := do
  let s ← if 0 < T.edges e then (List.range n).foldlM (triParamPoint G T R e) s else some s
  return { s with out := Function.update s.out 0 (G.surf (T.faces 0) (s.params 0)) }

/-- `t8_geom_evaluate_cad_tri`, t8_geometry_cad.cxx:289-477, for a batch of `n` points. -/
noncomputable def evaluateTri (G : Cad) (T : Tree) (R : Nat → Prm) (n : Nat) : Option (Nat → Pt) :=
  let out := fun i => triLinear (R i) T.V
  if 0 < T.faces 0 then
    ((List.range 3).foldlM (triParamStep G T R n) ⟨fun i => tri2 (R i 0) (R i 1) (T.faceParams 0), out⟩).map TriState.out
  else some fun i => (List.range 3).foldl (triPointStep G T (R i)) (out i)

end T8.CadGeometry
