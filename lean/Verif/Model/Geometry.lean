/-
Model of the coordinates of the elements: the reference coordinates in the tree (`element_get_vertex_reference_coords` and
`element_get_reference_coords` of the eight classes), the linear geometry (src/t8_geometry/t8_geometry_helpers.c:32-192) and
the functions of the forest that combine them (src/t8_forest/t8_forest.cxx:403-548).

Simplification: `double` is modelled by the rational numbers, without rounding. The vertex reference coordinates of the
elements are fractions of integers below `2^31` and a power of two, thus exact in `double`; the arithmetic of the
interpolation rounds in the code. The vertices of a tree are a function from their number to three coordinates. Points
have three reference coordinates; in trees of a lower dimension the first ones count (`t8_forest_element_coordinate`
fills the others with 0, the other functions do not use them).
-/
import Verif.Model.FaceNeighbor
import Mathlib.Algebra.Field.Rat
import Mathlib.Data.Fin.VecNotation

namespace T8.Geometry
open Neighbor

/-- A point with three coordinates. -/
abbrev Point := Fin 3 → ℚ

/-! ### Reference coordinates -/

/-- `int` to `double`. -/
def real (x : BitVec 32) : ℚ := (x.toInt : ℚ)

/-- `element_get_vertex_reference_coords`: `t8_default_vertex.cxx:289`, `t8_dline_vertex_ref_coords` (`t8_dline_bits.c:341`),
`t8_default_quad.cxx:684`, `t8_dtri_compute_vertex_ref_coords` (`t8_dtri_bits.c:369`), `t8_default_hex.cxx:571`,
`t8_dprism_vertex_ref_coords` (`t8_dprism_bits.c:539`), `t8_dpyramid_vertex_reference_coords` (`t8_dpyramid_bits.c:1546`). -/
def vertexRefCoords (S : P4ests) : Element → Nat → Point
  | .vertex _, _ => ![0, 0, 0]
  | .line l, v => ![real (Dline.vertexCoord l v) / 2 ^ 30, 0, 0]
  | .quad q, v => ![real (Cube.vertexCoords 30 q v 0) / 2 ^ 30, real (Cube.vertexCoords 30 q v 1) / 2 ^ 30, 0]
  | .triangle t, v =>
    let x : Fin 2 → BitVec 32 := Simplex.integerCoords .tri t v
    ![real (x 0) / 2 ^ 29, real (x 1) / 2 ^ 29, 0]
  | .hex h, v => fun k => real (Cube.vertexCoords S.M h v k) / 2 ^ S.M
  | .tet t, v => fun k => real (Simplex.integerCoords .tet t v k) / 2 ^ 21
  | .prism p, v =>
    let x := Prism.vertexCoords p v
    ![real x.1 / 2 ^ 21, real x.2.1 / 2 ^ 21, real x.2.2 / 2 ^ 21]
  | .pyramid p, v => fun k => real (Pyramid.integerCoords p v k) / 2 ^ 21

/-- `out_coords[i] += v`. -/
def plusAt (x : Point) (i : Nat) (v : ℚ) : Point := fun k => if k.val = i then x k + v else x k

/-- `t8_dtri_compute_reference_coords` for triangles, `t8_dtri_bits.c:386`, one point. -/
def triRefCoords (t : Simplex.Elem 2) (r : Point) : Point :=
  let h : ℚ := real (Simplex.len .tri t.level)
  let x : Point := ![real (t.x 0), real (t.x 1), 0]
  let x := plusAt x t.type (h * r 0)
  let x := plusAt x (1 - t.type) (h * r 1)
  ![x 0 / 2 ^ 29, x 1 / 2 ^ 29, 0]

/-- The same function for tetrahedra. -/
def tetRefCoords (t : Simplex.Elem 3) (r : Point) : Point :=
  let h : ℚ := real (Simplex.len .tet t.level)
  let o0 := t.type / 2
  let o1 := (o0 + (if t.type % 2 = 0 then 1 else 2)) % 3
  let o2 := (o0 + (if t.type % 2 = 0 then 2 else 1)) % 3
  let x : Point := fun k => real (t.x k)
  let x := plusAt x o0 (h * r 0)
  let x := plusAt x o1 (h * r 1)
  let x := plusAt x o2 (h * r 2)
  fun k => x k / 2 ^ 21

/-- `t8_dline_compute_reference_coords`, `t8_dline_bits.c:353`, one point. -/
def lineRefCoord (l : Dline.Line) (r : ℚ) : ℚ := (real l.x + real (Dline.len l.level) * r) / 2 ^ 30

/-- `element_get_reference_coords`, one point: `t8_default_vertex.cxx:299`, lines and triangles as above,
`t8_dquad_compute_reference_coords` (`t8_default_quad_bits.cxx:27`), `t8_dhex_compute_reference_coords` (`t8_dhex_bits.c:27`),
`t8_dprism_compute_reference_coords` (`t8_dprism_bits.c:555`), `t8_dpyramid_compute_reference_coords`
(`t8_dpyramid_bits.c:1558`). -/
def refCoords (S : P4ests) : Element → Point → Point
  | .vertex _, _ => ![0, 0, 0]
  | .line l, r => ![lineRefCoord l (r 0), 0, 0]
  | .quad q, r =>
    let h := real (Standalone.getLen 30 q.level)
    ![(real (q.coords 0) + r 0 * h) / 2 ^ 30, (real (q.coords 1) + r 1 * h) / 2 ^ 30, 0]
  | .triangle t, r => triRefCoords t r
  | .hex e, r => fun k => (real (e.coords k) + r k * real (Standalone.getLen S.M e.level)) / 2 ^ S.M
  | .tet t, r => tetRefCoords t r
  | .prism p, r =>
    let x := triRefCoords p.1 r
    ![x 0, x 1, lineRefCoord p.2 (r 2)]
  | .pyramid p, r =>
    if Pyramid.isPyra p then
      let length := real (Pyramid.len p.level)
      let x : Point := fun k => real (p.tet.x k) + r k * length
      let x : Point :=
        if p.type = 7 then ![x 0 - r 2 * length, x 1 - r 2 * length, x 2 + (1 - 2 * r 2) * length] else x
      fun k => x k / 2 ^ 21
    else tetRefCoords p.tet r

/-- `element_get_shape`, t8_scheme.hxx: the class of the tree, except for the tetrahedra in pyramids (`t8_dpyramid_shape`,
`t8_dpyramid_bits.c:1441`). -/
def shape : Element → Eclass
  | .pyramid p => if Pyramid.isPyra p then .pyramid else .tet
  | e => e.eclass

/-- `t8_element_corner_ref_coords`, src/t8_element/t8_element.cxx:29. -/
def cornerRefTable : Eclass → List Point
  | .vertex => [![0, 0, 0]]
  | .line => [![0, 0, 0], ![1, 0, 0]]
  | .quad => [![0, 0, 0], ![1, 0, 0], ![0, 1, 0], ![1, 1, 0]]
  | .triangle => [![0, 0, 0], ![1, 0, 0], ![1, 1, 0]]
  | .hex => [![0, 0, 0], ![1, 0, 0], ![0, 1, 0], ![1, 1, 0], ![0, 0, 1], ![1, 0, 1], ![0, 1, 1], ![1, 1, 1]]
  | .tet => [![0, 0, 0], ![1, 0, 0], ![1, 0, 1], ![1, 1, 1]]
  | .prism => [![0, 0, 0], ![1, 0, 0], ![1, 1, 0], ![0, 0, 1], ![1, 0, 1], ![1, 1, 1]]
  | .pyramid => [![0, 0, 0], ![1, 0, 0], ![0, 1, 0], ![1, 1, 0], ![1, 1, 1]]

/-- An entry of the table. -/
def cornerRefCoords (c : Eclass) (v : Nat) : Point := (cornerRefTable c).getD v ![0, 0, 0]

/-- `t8_element_centroid_ref_coords`, src/t8_element/t8_element.cxx:41. -/
def centroidRefCoords : Eclass → Point
  | .vertex => ![0, 0, 0]
  | .line => ![1 / 2, 0, 0]
  | .quad => ![1 / 2, 1 / 2, 0]
  | .triangle => ![2 / 3, 1 / 3, 0]
  | .hex => ![1 / 2, 1 / 2, 1 / 2]
  | .tet => ![3 / 4, 1 / 4, 1 / 2]
  | .prism => ![2 / 3, 1 / 3, 1 / 2]
  | .pyramid => ![6 / 10, 6 / 10, 2 / 10]

/-! ### The linear geometry -/

/-- `t8_geom_linear_interpolation`, t8_geometry_helpers.c:32, with `corner_value_dim = 3`. -/
def linearInterpolation (r : Point) (w : Nat → Point) (dim : Nat) : Point := fun i =>
  let temp := w 0 i * (1 - r 0) + w 1 i * r 0
  if 1 < dim then
    let temp := temp * (1 - r 1)
    let temp := temp + (w 2 i * (1 - r 0) + w 3 i * r 0) * r 1
    if dim = 3 then
      let temp := temp * (1 - r 2)
      temp + (w 4 i * (1 - r 0) * (1 - r 1) + w 5 i * r 0 * (1 - r 1) + w 6 i * (1 - r 0) * r 1 + w 7 i * r 0 * r 1) * r 2
    else temp
  else temp

/-- `t8_geom_triangular_interpolation`, t8_geometry_helpers.c:66. -/
def triangularInterpolation (r : Point) (w : Nat → Point) (dim : Nat) : Point := fun i =>
  (w 1 i - w 0 i) * r 0 + (if dim = 3 then (w 3 i - w 2 i) * r 1 else 0) +
    (w 2 i - w 1 i) * (if dim = 3 then r 2 else r 1) + w 0 i

/-- `t8_geom_compute_linear_geometry`, t8_geometry_helpers.c:101, one point. -/
def linearGeometry (c : Eclass) (V : Nat → Point) (r : Point) : Point :=
  match c with
  | .vertex => V 0
  | .triangle => triangularInterpolation r V 2
  | .tet => triangularInterpolation r V 3
  | .prism =>
    let tri (v : Nat) : Point := linearInterpolation ![r 2, 0, 0] (fun j => if j = 0 then V v else V (v + 3)) 1
    triangularInterpolation r tri 2
  | .line => linearInterpolation r V 1
  | .quad => linearInterpolation r V 2
  | .hex => linearInterpolation r V 3
  | .pyramid =>
    if r 2 ≠ 1 then
      let base : Point := ![1 - (1 - r 0) / (1 - r 2), 1 - (1 - r 1) / (1 - r 2), 0]
      let out := linearInterpolation base V 2
      fun i => out i + (V 4 i - out i) * r 2
    else V 4

/-! ### The forest -/

/-- `t8_forest_element_coordinate`, t8_forest.cxx:403, in a tree with the vertices `V` and the geometry
`t8_geometry_linear` (`t8_geom_evaluate`, t8_geometry_linear.cxx:44). -/
def elementCoordinate (S : P4ests) (V : Nat → Point) (e : Element) (corner : Nat) : Point :=
  linearGeometry e.eclass V (vertexRefCoords S e corner)

/-- `t8_forest_element_from_ref_coords`, t8_forest.cxx:461, one point. -/
def elementPoint (S : P4ests) (V : Nat → Point) (e : Element) (r : Point) : Point :=
  linearGeometry e.eclass V (refCoords S e r)

/-- `t8_forest_element_centroid`, t8_forest.cxx:503. -/
def centroid (S : P4ests) (V : Nat → Point) (e : Element) : Point := elementPoint S V e (centroidRefCoords (shape e))

/-- `t8_forest_element_linear_centroid`, t8_forest.cxx:521: the sum of the coordinates of the corners, divided by their number. -/
def linearCentroid (S : P4ests) (V : Nat → Point) (e : Element) : Point := fun k =>
  ((List.range (shape e).numVertices).map fun v => elementCoordinate S V e v k).sum * (1 / ((shape e).numVertices : ℚ))

/-- `element_get_face_corner` of the classes, t8_scheme.hxx: `t8_default_line.hxx:205`, `t8_default_quad.cxx:151`,
`t8_default_hex.cxx:126`, `t8_dtri_face_corner`, `t8_dprism_face_corner`, `t8_dpyramid_get_face_corner`. A line has
one corner at each face. -/
def faceCorners (S : P4ests) : Element → Nat → List Nat
  | .vertex _, _ => []
  | .line _, f => [f]
  | .quad _, f => (List.range 2).map (Cube.faceCorner S.quad f)
  | .triangle _, f => (Simplex.faceCorner .tri).getD f []
  | .hex _, f => (List.range 4).map (Cube.faceCorner S.hex f)
  | .tet _, f => (Simplex.faceCorner .tet).getD f []
  | .prism _, f => Prism.faceCorners.getD f []
  | .pyramid p, f => Pyramid.faceCorners p f

/-! ### Several points at once -/

/-- The array of the stretched coordinates in `t8_forest_element_from_ref_coords_ext`, t8_forest.cxx:441-447: for `num` points
the entries below `num * dim` are written. `none`: the entry is not initialized. -/
def stretched (dim num : Nat) (ref : Nat → ℚ) (stretch : Nat → ℚ) (j : Nat) : Option ℚ :=
  if j < num * dim then some (1 / 2 + (ref j - 1 / 2) * stretch (j % dim)) else none

/-- The reads of `element_get_reference_coords`: coordinate `k` of point `i` is entry `3 * i + k` of the array, for all classes:
`offset_3d` in `t8_dquad_compute_reference_coords`, `t8_dtri_compute_reference_coords` and `t8_dline_compute_reference_coords`,
`3 * coord` in those of the classes of dimension three. -/
def readPoint (a : Nat → Option ℚ) (i k : Nat) : Option ℚ := a (3 * i + k)

end T8.Geometry
