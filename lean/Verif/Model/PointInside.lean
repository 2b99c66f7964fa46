/-
Model of the tests whether a point lies inside an element: t8_geometry_helpers.c:549-676, the linear geometry
(src/t8_geometry/t8_geometry_implementations/t8_geometry_linear.cxx:59-201) and the axis-aligned linear geometry
(t8_geometry_linear_axis_aligned.cxx:79-112, t8_geometry_helpers.c:196-234). `t8_forest_element_points_inside`,
t8_forest.cxx:1072, calls the function of the geometry.

Simplification: `double` is modelled by the rational numbers, without rounding, see Model/Geometry.lean and Model/Measure.lean.
The triangle test divides by a determinant that may be 0; there the infinities and NaN of IEEE 754 are modelled, with a
determinant that is +0. One point instead of a batch: the code treats the points of a batch one by one.
-/
import Verif.Model.Measure

namespace T8.Geometry
open Neighbor

/-! ### Doubles that may be infinite or NaN -/

/-- The value of a quotient. -/
inductive Ext
  | fin (x : ℚ)
  | posInf
  | negInf
  | nan
deriving DecidableEq

namespace Ext

/-- `x / y`, `y` not -0. -/
def div (x y : ℚ) : Ext :=
  if y ≠ 0 then fin (x / y) else if 0 < x then posInf else if x < 0 then negInf else nan

/-- `x + y`. -/
def add : Ext → Ext → Ext
  | fin x, fin y => fin (x + y)
  | nan, _ => nan
  | _, nan => nan
  | posInf, negInf => nan
  | negInf, posInf => nan
  | posInf, _ => posInf
  | negInf, _ => negInf
  | fin _, y => y

/-- `a * x` with a finite `a`. -/
def mul (a : ℚ) : Ext → Ext
  | fin x => fin (a * x)
  | nan => nan
  | posInf => if 0 < a then posInf else if a < 0 then negInf else nan
  | negInf => if 0 < a then negInf else if a < 0 then posInf else nan

/-- `fabs (x)`. -/
def abs : Ext → Ext
  | fin x => fin |x|
  | negInf => posInf
  | x => x

/-- `x < a` with a finite `a`; all comparisons with NaN are false. -/
def lt : Ext → ℚ → Bool
  | fin x, a => decide (x < a)
  | negInf, _ => true
  | _, _ => false

/-- `x > a`. -/
def gt : Ext → ℚ → Bool
  | fin x, a => decide (a < x)
  | posInf, _ => true
  | _, _ => false

end Ext

/-! ### The tests of the helpers -/

/-- `t8_vertex_point_inside`, t8_geometry_helpers.c:550. -/
def vertexPointInside (sqrt : ℚ → ℚ) (v p : Point) (tol : ℚ) : Bool := !decide (tol < dist sqrt v p)

/-- `t8_line_point_inside`, t8_geometry_helpers.c:560. `none`: the process aborts, the line is degenerated. -/
def linePointInside (sqrt : ℚ → ℚ) (p0 vec p : Point) (tol : ℚ) : Option Bool :=
  let b := minus p p0
  match (List.finRange 3).find? (fun i => vec i ≠ 0) with
  | none => none
  | some i =>
    let x := b i / vec i
    if x < -tol ∨ 1 + tol < x then some false
    else if tol < dist sqrt (times vec x) b then some false
    else some true

/-- `t8_triangle_point_inside`, t8_geometry_helpers.c:607. -/
def trianglePointInside (p0 v w p : Point) (tol : ℚ) : Bool :=
  let b := minus p p0
  let det := v 0 * w 1 - v 1 * w 0
  let x := Ext.div (b 0 * w 1 - b 1 * w 0) det
  let y := Ext.div (v 0 * b 1 - v 1 * b 0) det
  if x.lt (-tol) || y.lt (-tol) || (x.add y).gt (1 + tol) then false
  else
    let z := (Ext.mul (v 2) x).add (Ext.mul (w 2) y)
    !((z.add (.fin (-b 2))).abs.gt tol)

/-- `t8_plane_point_inside`, t8_geometry_helpers.c:663. -/
def planePointInside (onFace normal p : Point) : Bool := !decide (dot (minus onFace p) normal < 0)

/-! ### The geometries -/

/-- `t8_geom_point_batch_inside_element`, t8_geometry_linear.cxx:64. -/
def pointInside (sqrt : ℚ → ℚ) (S : P4ests) (V : Nat → Point) (e : Element) (p : Point) (tol : ℚ) : Option Bool :=
  let q := elementCoordinate S V e
  match shape e with
  | .vertex => some (vertexPointInside sqrt (q 0) p tol)
  | .line => linePointInside sqrt (q 0) (minus (q 1) (q 0)) p tol
  | .quad =>
    some (trianglePointInside (q 0) (minus (q 1) (q 0)) (minus (q 2) (q 0)) p tol ||
      trianglePointInside (q 1) (minus (q 2) (q 1)) (minus (q 3) (q 1)) p tol)
  | .triangle => some (trianglePointInside (q 0) (minus (q 1) (q 0)) (minus (q 2) (q 0)) p tol)
  | _ => some ((List.range e.numFaces).all fun f => planePointInside (facePoint S V e f 0) (faceNormal sqrt S V e f) p)

/-- `t8_geom_compute_linear_axis_aligned_geometry`, t8_geometry_helpers.c:196, one point: the class is not used beyond the
check that it is a line, a quad or a hexahedron. The coordinates of the point from the dimension of the tree on are 0
(`t8_forest_element_coordinate`). -/
def axisAlignedGeometry (V : Nat → Point) (r : Point) : Point := fun k => V 0 k + r k * (V 1 k - V 0 k)

/-- `t8_forest_element_coordinate`, t8_forest.cxx:403, in a tree with the geometry `t8_geometry_linear_axis_aligned`. -/
def axisAlignedCoordinate (S : P4ests) (V : Nat → Point) (e : Element) (corner : Nat) : Point :=
  axisAlignedGeometry V (vertexRefCoords S e corner)

/-- `t8_geom_point_batch_inside_element`, t8_geometry_linear_axis_aligned.cxx:80. -/
def axisAlignedPointInside (S : P4ests) (V : Nat → Point) (e : Element) (p : Point) (tol : ℚ) : Bool :=
  let maxCorner := if e.eclass = .line then 1 else if e.eclass = .quad then 3 else 7
  let vMin := axisAlignedCoordinate S V e 0
  let vMax := axisAlignedCoordinate S V e maxCorner
  decide (vMin 0 - tol ≤ p 0) && decide (p 0 ≤ vMax 0 + tol) && decide (vMin 1 - tol ≤ p 1) && decide (p 1 ≤ vMax 1 + tol) &&
    decide (vMin 2 - tol ≤ p 2) && decide (p 2 ≤ vMax 2 + tol)

end T8.Geometry
