/-
Specification for points inside elements: the convex hull of points, and trees whose coordinates are an affine image of
the reference tree.
-/
import Verif.Spec.FaceGluing
import Verif.Model.Geometry

namespace T8.Geometry
open Neighbor

/-- The point `p` is in the convex hull of `q 0, …, q (n - 1)`. -/
def InHull (n : Nat) (q : Nat → Point) (p : Point) : Prop :=
  ∃ w : Nat → ℚ, (∀ v < n, 0 ≤ w v) ∧ ((List.range n).map w).sum = 1 ∧ ∀ k, p k = ((List.range n).map fun v => w v * q v k).sum

/-- The determinant of three vectors. -/
def det (a b c : Point) : ℚ :=
  a 0 * b 1 * c 2 + a 1 * b 2 * c 0 + a 2 * b 0 * c 1 - a 2 * b 1 * c 0 - a 1 * b 0 * c 2 - a 0 * b 2 * c 1

/-- The vertices `V` of a tree of class `c` are the image of the corners of the reference tree under the affine map with the
origin `o` and the directions `a0`, `a1`, `a2`. -/
def Frame (c : Eclass) (V : Nat → Point) (o a0 a1 a2 : Point) : Prop :=
  ∀ v < c.numVertices, ∀ k, V v k = o k + unit c v 0 * a0 k + unit c v 1 * a1 k + unit c v 2 * a2 k

/-- A tree of dimension three that is an affine image of the reference tree, with a volume that is not zero. -/
def Flat (c : Eclass) (V : Nat → Point) : Prop :=
  c.dim = 3 ∧ ∃ o a0 a1 a2, Frame c V o a0 a1 a2 ∧ det a0 a1 a2 ≠ 0

end T8.Geometry
