/-
Model of the measures of the elements: the volume of an element and the area, the centroid and the outer normal of its faces
(src/t8_forest/t8_forest.cxx:466-1066), with the vector functions of src/t8_types/t8_vec.hxx that they use.

Simplification: as in Model/Geometry.lean, `double` is modelled by the rational numbers, without rounding. The square
root is a parameter of the model: it is not rational, and the theorems say which of its properties they need.
-/
import Verif.Model.Geometry
import Mathlib.Algebra.Order.Ring.Rat
import Mathlib.Algebra.Order.Group.Unbundled.Abs

namespace T8.Geometry
open Neighbor

/-! ### Vectors -/

/-- `t8_axpy (x, y, -1)` and `t8_axpyz (x, y, z, -1)`, t8_vec.hxx: the difference `y - x`. -/
def minus (y x : Point) : Point := fun k => y k + -1 * x k

/-- `t8_ax (x, a)`, t8_vec.hxx:123. -/
def times (x : Point) (a : ℚ) : Point := fun k => x k * a

/-- `t8_dot`, t8_vec.hxx. -/
def dot (x y : Point) : ℚ := x 0 * y 0 + x 1 * y 1 + x 2 * y 2

/-- `t8_cross_3D`, t8_vec.hxx:217. -/
def cross (x y : Point) : Point :=
  ![x 1 * y 2 - x 2 * y 1, x 2 * y 0 - x 0 * y 2, x 0 * y 1 - x 1 * y 0]

/-- `t8_norm`, t8_vec.hxx:75. -/
def norm (sqrt : ℚ → ℚ) (x : Point) : ℚ := sqrt (dot x x)

/-- `t8_dist`, t8_vec.hxx:111. -/
def dist (sqrt : ℚ → ℚ) (x y : Point) : ℚ := sqrt (dot (minus x y) (minus x y))

/-! ### Volumes -/

/-- `t8_forest_element_triangle_area`, t8_forest.cxx:565. -/
def triangleArea (sqrt : ℚ → ℚ) (p0 p1 p2 : Point) : ℚ :=
  let v1 := minus p1 p0
  let v2 := minus p2 p0
  1 / 2 * sqrt |dot v1 v1 * dot v2 v2 - dot v1 v2 * dot v1 v2|

/-- `t8_forest_element_tet_volume`, t8_forest.cxx:584. -/
def tetVolume (a b c d : Point) : ℚ := |dot (minus a d) (cross (minus b d) (minus c d))| / 6

/-- `t8_forest_element_diam`, t8_forest.cxx:469. -/
def diam (sqrt : ℚ → ℚ) (S : P4ests) (V : Nat → Point) (e : Element) : ℚ :=
  2 * ((List.range (shape e).numVertices).map fun v => dist sqrt (elementCoordinate S V e v) (centroid S V e)).sum /
    ((shape e).numVertices : ℚ)

/-- `t8_forest_element_volume`, t8_forest.cxx:612. -/
def volume (sqrt : ℚ → ℚ) (S : P4ests) (V : Nat → Point) (e : Element) : ℚ :=
  let q := elementCoordinate S V e
  match shape e with
  | .vertex => 0
  | .line => diam sqrt S V e
  | .quad =>
    let faceA := Cube.cornerFace S.quad 0 0
    let faceB := Cube.cornerFace S.quad 0 1
    let cornerA := Cube.faceCorner S.quad faceA 1
    let cornerB := Cube.faceCorner S.quad faceB 1
    2 * triangleArea sqrt (q 0) (q cornerA) (q cornerB)
  | .triangle => triangleArea sqrt (q 0) (q 1) (q 2)
  | .tet => tetVolume (q 0) (q 1) (q 2) (q 3)
  | .hex => |dot (minus (q 1) (q 0)) (cross (minus (q 2) (q 0)) (minus (q 4) (q 0)))|
  | .prism => tetVolume (q 0) (q 1) (q 2) (q 4) + tetVolume (q 0) (q 2) (q 3) (q 4) + tetVolume (q 2) (q 3) (q 4) (q 5)
  | .pyramid => tetVolume (q 0) (q 1) (q 3) (q 4) + tetVolume (q 0) (q 2) (q 3) (q 4)

/-! ### Faces -/

/-- `element_get_face_shape`, t8_scheme.hxx: `t8_default_line.cxx:106`, `t8_default_quad.cxx:313`, `t8_default_tri.cxx:212`,
`t8_default_hex.cxx:222`, `t8_default_tet.cxx:195`, `t8_dprism_face_shape`, `t8_dpyramid_face_shape`. Vertices have no faces. -/
def faceShape : Element → Nat → Eclass
  | .vertex _, _ => .vertex
  | .line _, _ => .vertex
  | .quad _, _ => .line
  | .triangle _, _ => .line
  | .hex _, _ => .quad
  | .tet _, _ => .triangle
  | .prism _, f => if f ≤ 2 then .quad else .triangle
  | .pyramid p, f => if Pyramid.faceIsQuad p f then .quad else .triangle

/-- The coordinates of corner `i` of face `f`: `element_get_face_corner` and `t8_forest_element_coordinate`. -/
def facePoint (S : P4ests) (V : Nat → Point) (e : Element) (f i : Nat) : Point :=
  elementCoordinate S V e ((faceCorners S e f).getD i 0)

/-- `t8_forest_element_face_area`, t8_forest.cxx:766. -/
def faceArea (sqrt : ℚ → ℚ) (S : P4ests) (V : Nat → Point) (e : Element) (f : Nat) : ℚ :=
  let q := facePoint S V e f
  match faceShape e f with
  | .vertex => 0
  | .line => dist sqrt (q 0) (q 1)
  | .triangle => triangleArea sqrt (q 0) (q 1) (q 2)
  | _ => triangleArea sqrt (q 0) (q 1) (q 2) + triangleArea sqrt (q 1) (q 2) (q 3)

/-- `t8_forest_element_face_centroid`, t8_forest.cxx:840. -/
def faceCentroid (S : P4ests) (V : Nat → Point) (e : Element) (f : Nat) : Point :=
  let q := facePoint S V e f
  match faceShape e f with
  | .vertex => q 0
  | .line => fun k => (q 1 k + q 0 k) * (1 / 2)
  | .triangle => fun k => (q 0 k + q 1 k + q 2 k) * (1 / 3)
  | _ => fun k => (q 0 k + q 1 k + q 2 k + q 3 k) * (1 / 4)

/-- `t8_forest_element_face_normal`, t8_forest.cxx:908. -/
def faceNormal (sqrt : ℚ → ℚ) (S : P4ests) (V : Nat → Point) (e : Element) (f : Nat) : Point :=
  match faceShape e f with
  | .vertex =>
    let normal := minus (elementCoordinate S V e 1) (elementCoordinate S V e 0)
    times normal ((if f = 0 then -1 else 1) / norm sqrt normal)
  | .line =>
    let a := facePoint S V e f 0
    let b := minus (facePoint S V e f 1) a
    let center := minus (linearCentroid S V e) a
    let normal : Point := fun k => center k + -1 * dot center b / dot b b * b k
    let n := norm sqrt normal
    times normal (1 / if 0 < dot center normal then -n else n)
  | _ =>
    let a := facePoint S V e f 0
    let normal := cross (minus (facePoint S V e f 1) a) (minus (facePoint S V e f 2) a)
    let n := norm sqrt normal
    let center := minus (linearCentroid S V e) a
    times normal (1 / if 0 < dot center normal then -n else n)

end T8.Geometry
