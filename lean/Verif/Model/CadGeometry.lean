import Verif.Model.FaceNeighbor
import Mathlib.Analysis.Real.Sqrt

/-!
# Geometries with linked curves and surfaces

`t8_geometry_cad::t8_geom_evaluate_cad_{tri,quad,tet,hex,prism}`, src/t8_geometry/t8_geometry_implementations/t8_geometry_cad.cxx:290-1380, and the helpers
they use in src/t8_geometry/t8_geometry_helpers.c:236-548.

Simplifications.
* `double` is `ℝ`, `sqrt` is the square root of `ℝ`.
* The CAD kernel is a parameter: `curve k u` is `process_curve (k, u)`, `surface k u v` is `process_surface (k, {u, v})` and
  `toFace k l u p` is what `edge_parameter_to_face_parameters (k, l, u, out, p)` writes to `out`.
* `edges`, `faces`, the vertices and the attributes with the parameters are functions of the index.  Parameters are pairs, of
  which only entry 0 is used for a curve.
* Three-dimensional trees: the loops over the points of a batch use the entries of point `coord` only, so that one point is modelled.  For triangles and quads
  the whole array `ref_coords` is an argument, because the code does not always add the offset of the point.
* `0 / 0` is `0` here (it is NaN in C).  The one place where it matters is stated in the comment of `tetFaceIntersection`.
* Debug assertions are not modelled.
-/

namespace T8.CadGeometry
open T8

/-- Three coordinates. -/
abbrev Pt := Fin 3 → ℝ

/-- The parameters of a curve (entry 0) or a surface (both entries). -/
abbrev Prm := Fin 2 → ℝ

/-- The CAD kernel: `process_curve`, `process_surface` (t8_geometry_cad.cxx, used at 357 ff.) and `t8_cad_handle::edge_parameter_to_face_parameters`
(src/t8_cad/t8_cad_handle.cxx:489; its last argument is the reference parameters). -/
structure Cad where
  /-- `process_curve` -/
  curve : Int → ℝ → Pt
  /-- `process_surface` -/
  surface : Int → ℝ → ℝ → Pt
  /-- `edge_parameter_to_face_parameters` -/
  toFace : Int → Int → ℝ → Prm → Prm

/-- `process_surface` of an array with two parameters. -/
def Cad.surf (G : Cad) (k : Int) (p : Prm) : Pt := G.surface k (p 0) (p 1)

/-- The data of the active tree: `active_tree_vertices`, `edges`, `faces` (t8_geometry_cad.hxx:258) and the attributes
`T8_CMESH_CAD_EDGE_PARAMETERS_ATTRIBUTE_KEY + i` and `T8_CMESH_CAD_FACE_PARAMETERS_ATTRIBUTE_KEY + i`. -/
structure Tree where
  /-- `active_tree_vertices` -/
  V : Nat → Pt
  /-- `edges`: curves in the first half, surfaces in the second half -/
  edges : Nat → Int
  /-- `faces` -/
  faces : Nat → Int
  /-- the parameters at the two vertices of an edge -/
  edgeParams : Nat → Nat → Prm
  /-- the parameters at the vertices of a face -/
  faceParams : Nat → Nat → Prm

/-! ### Tables -/

/-- `t8_edge_vertex_to_tree_vertex`, src/t8_eclass/t8_eclass.h:133. -/
def edgeVertices : Eclass → List (List Nat)
  | .hex => [[0, 1], [2, 3], [4, 5], [6, 7], [0, 2], [1, 3], [4, 6], [5, 7], [0, 4], [1, 5], [2, 6], [3, 7]]
  | .tet => [[0, 1], [0, 2], [0, 3], [1, 2], [1, 3], [2, 3]]
  | .prism => [[1, 2], [0, 2], [0, 1], [4, 5], [3, 5], [3, 4], [1, 4], [2, 5], [0, 3]]
  | _ => []

/-- `t8_edge_to_face`, src/t8_eclass/t8_eclass.h:144. -/
def edgeToFace : Eclass → List (List Nat)
  | .tet => [[2, 3], [1, 3], [1, 2], [0, 3], [0, 2], [0, 1]]
  | .prism => [[0, 3], [1, 3], [2, 3], [0, 4], [1, 4], [2, 4], [0, 2], [0, 1], [1, 2]]
  | _ => []

/-- `t8_face_edge_to_tree_edge`, src/t8_eclass/t8_eclass.h:111. -/
def faceEdges : Eclass → List (List Nat)
  | .hex => [[8, 10, 4, 6], [9, 11, 5, 7], [8, 9, 0, 2], [10, 11, 1, 3], [4, 5, 0, 1], [6, 7, 2, 3]]
  | .tet => [[3, 4, 5], [1, 2, 5], [0, 2, 4], [0, 1, 3]]
  | .prism => [[0, 7, 3, 6], [1, 8, 4, 7], [2, 6, 5, 8], [0, 1, 2], [3, 4, 5]]
  | _ => []

/-- An entry of a table. -/
def entry (t : List (List Nat)) (i j : Nat) : Nat := (t.getD i []).getD j 0

/-- `t8_geom_get_edge_vertices`, t8_geometry_helpers.c:249-260. -/
def getEdgeVertices (c : Eclass) (V : Nat → Pt) (e : Nat) : Nat → Pt := fun i => V (entry (edgeVertices c) e i)

/-- `t8_geom_get_face_vertices`, t8_geometry_helpers.c:236-247. -/
def getFaceVertices {ι : Type} (c : Eclass) (V : Nat → ι → ℝ) (f : Nat) : Nat → ι → ℝ := fun i => V (entry (Neighbor.faceVertices c) f i)

/-- `t8_element_corner_ref_coords`, src/t8_element/t8_element.c:29, for triangles and tetrahedra. -/
def cornerRef : Eclass → Nat → Pt
  | .triangle, v => match v with
    | 0 => ![0, 0, 0]
    | 1 => ![1, 0, 0]
    | _ => ![1, 1, 0]
  | _, v => match v with
    | 0 => ![0, 0, 0]
    | 1 => ![1, 0, 0]
    | 2 => ![1, 0, 1]
    | _ => ![1, 1, 1]

/-! ### Interpolation -/

/-- `t8_geom_linear_interpolation` with one interpolation dimension, t8_geometry_helpers.c:31. -/
def lerp1 {ι : Type} (t : ℝ) (w : Nat → ι → ℝ) : ι → ℝ := fun i => w 0 i * (1 - t) + w 1 i * t

/-- `t8_geom_linear_interpolation` with two interpolation dimensions, t8_geometry_helpers.c:31. -/
def lerp2 {ι : Type} (a b : ℝ) (w : Nat → ι → ℝ) : ι → ℝ := fun i =>
  (w 0 i * (1 - a) + w 1 i * a) * (1 - b) + (w 2 i * (1 - a) + w 3 i * a) * b

/-- `t8_geom_linear_interpolation` with three interpolation dimensions, t8_geometry_helpers.c:31. -/
def lerp3 (r : Pt) (w : Nat → Pt) : Pt := fun i =>
  ((w 0 i * (1 - r 0) + w 1 i * r 0) * (1 - r 1) + (w 2 i * (1 - r 0) + w 3 i * r 0) * r 1) * (1 - r 2) +
    (w 4 i * (1 - r 0) * (1 - r 1) + w 5 i * r 0 * (1 - r 1) + w 6 i * (1 - r 0) * r 1 + w 7 i * r 0 * r 1) * r 2

/-- `t8_geom_triangular_interpolation` with two interpolation dimensions, t8_geometry_helpers.c:66. -/
def tri2 {ι : Type} (a b : ℝ) (w : Nat → ι → ℝ) : ι → ℝ := fun i => (w 1 i - w 0 i) * a + (w 2 i - w 1 i) * b + w 0 i

/-- `t8_geom_triangular_interpolation` with three interpolation dimensions, t8_geometry_helpers.c:66. -/
def tri3 (r : Pt) (w : Nat → Pt) : Pt := fun i =>
  (w 1 i - w 0 i) * r 0 + (w 3 i - w 2 i) * r 1 + (w 2 i - w 1 i) * r 2 + w 0 i

/-- The prism of `t8_geom_compute_linear_geometry`, t8_geometry_helpers.c:101. -/
def prismLinear (r : Pt) (w : Nat → Pt) : Pt := tri2 (r 0) (r 1) fun v => lerp1 (r 2) fun j => if j = 0 then w v else w (v + 3)

/-! ### Linked edges of three-dimensional trees -/

/-- The point `pnt` on the curve or surface of an edge at the interpolation coefficient `t`: t8_geometry_cad.cxx:760-773 (tetrahedra), 965-982 (hexahedra),
1270-1285 (prisms).  `n` is the number of edges. -/
def edgePoint (G : Cad) (T : Tree) (n e : Nat) (t : ℝ) : Pt :=
  if 0 < T.edges e then G.curve (T.edges e) (lerp1 t (T.edgeParams e) 0) else G.surf (T.edges (e + n)) (lerp1 t (T.edgeParams e))

/-- `cur_delta`: t8_geometry_cad.cxx:776-778, 985-987, 1288-1290. -/
def edgeDelta (G : Cad) (T : Tree) (c : Eclass) (n e : Nat) (t : ℝ) : Pt :=
  edgePoint G T n e t - lerp1 t (getEdgeVertices c T.V e)

/-- The loop over the edges, t8_geometry_cad.cxx:720-792, 935-1030, 1227-1310: the displacement of every linked edge is added with its factor. -/
def addEdges (G : Cad) (T : Tree) (c : Eclass) (n : Nat) (coeff factor : Nat → ℝ) (out : Pt) : Pt :=
  (List.range n).foldl
    (fun out e => if 0 < T.edges e ∨ 0 < T.edges (e + n) then out + factor e • edgeDelta G T c n e (coeff e) else out) out

/-- The loop over the faces, t8_geometry_cad.cxx:795-907, 1033-1200, 1312-1396: the displacement of every linked face is added with its factor. -/
def addFaces (T : Tree) (n : Nat) (delta : Nat → Pt) (factor : Nat → ℝ) (out : Pt) : Pt :=
  (List.range n).foldl (fun out f => if 0 < T.faces f then out + factor f • delta f else out) out

/-- The loop over the edges of a face that collects `face_displacement_from_edges`, t8_geometry_cad.cxx:836-872, 1045-1123, 1327-1361: the displacements
`delta k` of those edges that have a curve, with the factor `factor k`. -/
def fromEdges {ι : Type} (T : Tree) (es : List Nat) (factor : Nat → ℝ) (delta : Nat → ι → ℝ) : ι → ℝ :=
  (List.range es.length).foldl (fun s k => if 0 < T.edges (es.getD k 0) then s + factor k • delta k else s) 0

/-! ### Hexahedra -/

/-- `ref_coords[i % 3]`. -/
def at3 (r : Pt) (i : Nat) : ℝ := if i % 3 = 0 then r 0 else if i % 3 = 1 then r 1 else r 2

/-- `scaling_factor` of an edge, t8_geometry_cad.cxx:999-1018. -/
def hexEdgeFactor (r : Pt) (e : Nat) : ℝ :=
  let d := e / 4
  let e' := if e = 5 then 6 else if e = 6 then 5 else e
  if e' % 4 = 0 then (1 - at3 r (d + 1)) * (1 - at3 r (d + 2))
  else if e' % 4 = 1 then at3 r (d + 1) * (1 - at3 r (d + 2))
  else if e' % 4 = 2 then (1 - at3 r (d + 1)) * at3 r (d + 2)
  else at3 r (d + 1) * at3 r (d + 2)

/-- `orthogonal_direction_of_edge_on_face`, t8_geometry_cad.cxx:1060-1071. -/
def orthDirection (s : Nat) : Nat := if s = 1 then 2 else if s = 3 then 0 else if s = 2 then 1 else 0

/-- The factor of edge `k` of face `f`, t8_geometry_cad.cxx:1106-1117. -/
def hexFaceEdgeFactor (r : Pt) (f k : Nat) : ℝ :=
  let o := at3 r (orthDirection (entry (faceEdges .hex) f k / 4 + f / 2))
  if k % 2 = 0 then 1 - o else o

/-- Switch entries 1 and 2 if the normal of the face is in direction y: t8_geometry_cad.cxx:1150-1164. -/
def switch {ι : Type} (f : Nat) (w : Nat → ι → ℝ) : Nat → ι → ℝ := fun i =>
  if f / 2 = 1 then (if i = 1 then w 2 else if i = 2 then w 1 else w i) else w i

/-- The displacement of a linked face of a hexahedron, t8_geometry_cad.cxx:1036-1179. -/
def hexFaceDelta (G : Cad) (T : Tree) (r : Pt) (f : Nat) : Pt :=
  let es := (faceEdges .hex).getD f []
  let w := getFaceVertices .hex T.V f
  let p := T.faceParams f
  let t (k : Nat) : ℝ := at3 r (es.getD k 0 / 4)
  let u (k : Nat) : ℝ := lerp1 (t k) (T.edgeParams (es.getD k 0)) 0
  let shift : Pt := fromEdges T es (hexFaceEdgeFactor r f) fun k =>
    G.curve (T.edges (es.getD k 0)) (u k) - lerp1 (t k) (getFaceVertices .quad w k)
  let shiftParams : Prm := fromEdges T es (hexFaceEdgeFactor r f) fun k =>
    G.toFace (T.edges (es.getD k 0)) (T.faces f) (u k) (p 0) - lerp1 (t k) (getFaceVertices .quad p k)
  let a := at3 r (f / 2 + 1)
  let b := at3 r (f / 2 + 2)
  G.surf (T.faces f) (lerp2 a b (switch f p) + shiftParams) - (lerp2 a b (switch f w) + shift)

/-- The factor of a face of a hexahedron, t8_geometry_cad.cxx:1183-1200. -/
def hexFaceFactor (r : Pt) (f : Nat) : ℝ := if f % 2 = 0 then 1 - at3 r (f / 2) else at3 r (f / 2)

/-- `t8_geom_evaluate_cad_hex`, t8_geometry_cad.cxx:911-1205. -/
def evaluateHex (G : Cad) (T : Tree) (r : Pt) : Pt :=
  let out := lerp3 r T.V
  let out := addEdges G T .hex 12 (fun e => at3 r (e / 4)) (hexEdgeFactor r) out
  addFaces T 6 (hexFaceDelta G T r) (hexFaceFactor r) out

/-! ### Tetrahedra -/

/-- `t8_interpolation_coefficient_tet_edge`, t8_geometry_cad.cxx:56. -/
def tetEdgeCoeff (r : Pt) (e : Nat) : ℝ := at3 r ([0, 0, 0, 2, 2, 1].getD e 0)

/-- `orthogonal_vector`, t8_geometry_helpers.c:403-408. -/
def tetOrth (r : Pt) (e f : Nat) : ℝ :=
  ([[0, 0, r 1, r 2], [0, r 1, 0, r 0 - r 2], [0, r 0 - r 1, r 0 - r 2, 0], [r 1, 0, 0, 1 - r 0], [r 2 - r 1, 0, 1 - r 0, 0],
    [1 - r 2, 1 - r 0, 0, 0]].getD e []).getD f 0

/-- `max_orthogonal_vector`, t8_geometry_helpers.c:409-412. -/
def tetMaxOrth (r : Pt) (e f : Nat) : ℝ :=
  ([[0, 0, r 0, r 0], [0, r 0, 0, r 0], [0, r 0, r 0, 0], [r 2, 0, 0, 1 - r 2], [r 2, 0, 1 - r 2, 0],
    [1 - r 1, 1 - r 1, 0, 0]].getD e []).getD f 0

open Classical in
/-- `t8_geom_get_scaling_factor_of_edge_on_face_tet`, t8_geometry_helpers.c:385-423. -/
noncomputable def tetEdgeOnFace (e f : Nat) (r : Pt) : ℝ :=
  if tetMaxOrth r e f = 0 ∨ tetMaxOrth r e f = 1 then 0 else 1 - tetOrth r e f / tetMaxOrth r e f

/-- The factor of an edge of a tetrahedron, t8_geometry_cad.cxx:782-791. -/
noncomputable def tetEdgeFactor (r : Pt) (e : Nat) : ℝ :=
  let s := tetEdgeOnFace e (entry (edgeToFace .tet) e 0) r * tetEdgeOnFace e (entry (edgeToFace .tet) e 1) r
  s * s

/-- `t8_reference_face_normal_tet`, src/t8_eclass/t8_eclass.h:166. -/
def tetNormal (f : Nat) : Pt := [![-1, 0, 0], ![1, 0, -1], ![0, -1, 1], ![0, 1, 0]].getD f 0

/-- The product of two vectors as the loop sums it up, t8_geometry_helpers.c:455-458. -/
def dot (a b : Pt) : ℝ := a 0 * b 0 + a 1 * b 1 + a 2 * b 2

open Classical in
/-- `t8_geom_get_tet_face_intersection`, t8_geometry_helpers.c:425-473.  If `ref_coords` is the opposite vertex, `t` is not finite in C but not used. -/
noncomputable def tetFaceIntersection (f : Nat) (r : Pt) : Pt :=
  let v := getFaceVertices .tet (cornerRef .tet) f
  let o := cornerRef .tet f
  let vec : Pt := r - o
  let t := dot (v 0 - o) (tetNormal f) / dot vec (tetNormal f)
  if r 0 = o 0 ∧ r 1 = o 1 ∧ r 2 = o 2 then v 0 else o + t • vec

/-- `t8_face_ref_coords_tet`, t8_geometry_cad.cxx:59. -/
def tetFaceCoord (f i : Nat) : Nat := entry [[2, 1], [0, 1], [0, 1], [0, 2]] f i

/-- The displacement of a linked face of a tetrahedron, t8_geometry_cad.cxx:816-884, 903-905. -/
noncomputable def tetFaceDelta (G : Cad) (T : Tree) (r : Pt) (f : Nat) : Pt :=
  let q := tetFaceIntersection f r
  let es := (faceEdges .tet).getD f []
  let shift : Pt := fromEdges T es (fun k => tetEdgeOnFace (es.getD k 0) f q * tetEdgeOnFace (es.getD k 0) f q) fun k =>
    let t := tetEdgeCoeff q (es.getD k 0)
    G.curve (T.edges (es.getD k 0)) (lerp1 t (T.edgeParams (es.getD k 0)) 0) - lerp1 t (getEdgeVertices .tet T.V (es.getD k 0))
  G.surf (T.faces f) (tri2 (at3 q (tetFaceCoord f 0)) (at3 q (tetFaceCoord f 1)) (T.faceParams f)) - (tri3 q T.V + shift)

/-- The factor of a face of a tetrahedron, t8_geometry_cad.cxx:888-905. -/
noncomputable def tetFaceFactor (r : Pt) (f : Nat) : ℝ :=
  let o := cornerRef .tet f
  let q := tetFaceIntersection f r
  let s := Real.sqrt (dot (o - r) (o - r)) / Real.sqrt (dot (o - q) (o - q))
  s * s

/-- `t8_geom_evaluate_cad_tet`, t8_geometry_cad.cxx:699-909. -/
noncomputable def evaluateTet (G : Cad) (T : Tree) (r : Pt) : Pt :=
  let out := tri3 r T.V
  let out := addEdges G T .tet 6 (tetEdgeCoeff r) (tetEdgeFactor r) out
  addFaces T 4 (tetFaceDelta G T r) (tetFaceFactor r) out

/-! ### Prisms -/

/-- `t8_interpolation_coefficient_prism_edge`, t8_geometry_cad.cxx:1213. -/
def prismEdgeCoeff (r : Pt) (e : Nat) : ℝ := at3 r ([1, 0, 0, 1, 0, 0, 2, 2, 2].getD e 0)

/-- `orthogonal_direction`, t8_geometry_helpers.c:491-499. -/
def prismOrth (r : Pt) (e f : Nat) : ℝ :=
  ([[r 2, 0, 0, 1 - r 0, 0], [0, r 2, 0, r 0 - r 1, 0], [0, 0, r 2, r 1, 0], [1 - r 2, 0, 0, 0, 1 - r 0], [0, 1 - r 2, 0, 0, r 0 - r 1],
    [0, 0, 1 - r 2, 0, r 1], [r 1, 0, 1 - r 0, 0, 0], [1 - r 1, 1 - r 0, 0, 0, 0], [0, r 0, r 0, 0, 0]].getD e []).getD f 0

/-- `max_orthogonal_direction`, t8_geometry_helpers.c:500-508. -/
def prismMaxOrth (r : Pt) (e f : Nat) : ℝ :=
  ([[1, 0, 0, 1 - r 1, 0], [0, 1, 0, r 0, 0], [0, 0, 1, r 0, 0], [1, 0, 0, 0, 1 - r 1], [0, 1, 0, 0, r 0], [0, 0, 1, 0, r 0],
    [1, 0, 1, 0, 0], [1, 1, 0, 0, 0], [0, 1, 1, 0, 0]].getD e []).getD f 0

open Classical in
/-- `t8_geom_get_scaling_factor_of_edge_on_face_prism`, t8_geometry_helpers.c:475-525. -/
noncomputable def prismEdgeOnFace (e f : Nat) (r : Pt) : ℝ :=
  if prismMaxOrth r e f = 0 then 0 else 1 - prismOrth r e f / prismMaxOrth r e f

/-- The factor of an edge of a prism, t8_geometry_cad.cxx:1294-1298. -/
noncomputable def prismEdgeFactor (r : Pt) (e : Nat) : ℝ :=
  prismEdgeOnFace e (entry (edgeToFace .prism) e 0) r * prismEdgeOnFace e (entry (edgeToFace .prism) e 1) r

open Classical in
/-- `t8_geom_get_scaling_factor_face_through_volume_prism`, t8_geometry_helpers.c:527-545. -/
noncomputable def prismFaceFactor (r : Pt) (f : Nat) : ℝ :=
  let o : ℝ := [1 - r 0, r 0 - r 1, r 1, r 2, 1 - r 2].getD f 0
  let m : ℝ := [1 - r 1, r 0, r 0, 1, 1].getD f 0
  if m = 0 then 0 else 1 - o / m

/-- `t8_interpolation_coefficients_prism_face`, t8_geometry_cad.cxx:1216. -/
def prismFaceCoord (f i : Nat) : Nat := entry [[1, 2], [0, 2], [0, 2], [0, 1], [0, 1]] f i

/-- The displacement of a linked face of a prism, t8_geometry_cad.cxx:1314-1390. -/
noncomputable def prismFaceDelta (G : Cad) (T : Tree) (r : Pt) (f : Nat) : Pt :=
  let es := (faceEdges .prism).getD f []
  let w := getFaceVertices .prism T.V f
  let shift : Pt := fromEdges T es (fun k => prismEdgeOnFace (es.getD k 0) f r) fun k =>
    let t := prismEdgeCoeff r (es.getD k 0)
    G.curve (T.edges (es.getD k 0)) (lerp1 t (T.edgeParams (es.getD k 0)) 0) - lerp1 t (getEdgeVertices .prism T.V (es.getD k 0))
  let a := at3 r (prismFaceCoord f 0)
  let b := at3 r (prismFaceCoord f 1)
  let x : Pt := if f ≤ 2 then lerp2 a b w else tri2 a b w
  let p : Prm := if f ≤ 2 then lerp2 a b (T.faceParams f) else tri2 a b (T.faceParams f)
  G.surf (T.faces f) p - (x + shift)

/-- `t8_geom_evaluate_cad_prism`, t8_geometry_cad.cxx:1207-1400. -/
noncomputable def evaluatePrism (G : Cad) (T : Tree) (r : Pt) : Pt :=
  let out := prismLinear r T.V
  let out := addEdges G T .prism 9 (prismEdgeCoeff r) (prismEdgeFactor r) out
  addFaces T 5 (prismFaceDelta G T r) (prismFaceFactor r) out

end T8.CadGeometry
