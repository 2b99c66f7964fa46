/-
Specification for the measures of elements: the volume of the reference elements, the volume of a tree that is an affine image of the
reference tree, and what is needed of the square root.
-/
import Verif.Spec.PointInside

namespace T8.Geometry
open Neighbor

/-- The length, area or volume of the reference elements. -/
def refVolume : Eclass → ℚ
  | .vertex => 0 | .line => 1 | .quad => 1 | .triangle => 1 / 2 | .hex => 1 | .tet => 1 / 6 | .prism => 1 / 2 | .pyramid => 1 / 3

/-- The scalar product. -/
def inner (a b : Point) : ℚ := a 0 * b 0 + a 1 * b 1 + a 2 * b 2

/-- The volume that the directions of a tree span: a length, the area of a parallelogram, the volume of a parallelepiped. -/
def spanned (sqrt : ℚ → ℚ) (dim : Nat) (a0 a1 a2 : Point) : ℚ :=
  match dim with
  | 1 => sqrt (inner a0 a0)
  | 2 => sqrt (inner a0 a0 * inner a1 a1 - inner a0 a1 * inner a0 a1)
  | _ => |det a0 a1 a2|

/-- Zero if and only if the directions of the tree span no volume. -/
def content (dim : Nat) (a0 a1 a2 : Point) : ℚ :=
  match dim with
  | 1 => inner a0 a0
  | 2 => inner a0 a0 * inner a1 a1 - inner a0 a1 * inner a0 a1
  | _ => det a0 a1 a2

/-- A tree of dimension one, two or three that is an affine image of the reference tree, with a volume that is not zero. -/
def Affine (c : Eclass) (V : Nat → Point) : Prop :=
  0 < c.dim ∧ ∃ o a0 a1 a2, Frame c V o a0 a1 a2 ∧ content c.dim a0 a1 a2 ≠ 0

/-- The square root of four times a number is twice its square root. This also holds for IEEE 754 square roots, as multiplication with
powers of two is exact there (unless the exponent is too large or too small). -/
def Doubling (sqrt : ℚ → ℚ) : Prop := ∀ x, sqrt (4 * x) = 2 * sqrt x

end T8.Geometry
