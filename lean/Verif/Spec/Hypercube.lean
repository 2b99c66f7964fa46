/-
Specification: hypercube elements. An element of level `l` is a cube of side length `2^(M-l)` whose anchor
(the corner with the smallest coordinates) is a multiple of the side length, inside of the root cube
`[0, 2^M]^d`.  Faces are described by the points they consist of.
-/
import Verif.Model.Standalone
import Mathlib.Data.Set.Basic

namespace T8.Standalone
variable {d : Nat}

/-- `e` is an element of the tree. -/
def Valid (M : Nat) (e : Elem d) : Prop :=
  e.level ≤ M ∧ ∀ i, (e.coords i).toNat < 2 ^ M ∧ 2 ^ (M - e.level) ∣ (e.coords i).toNat

/-- Side length of an element. -/
def side (M : Nat) (e : Elem d) : Nat := 2 ^ (M - e.level)

/-- The (integer) points of the closed cube `e`. -/
def Box (M : Nat) (e : Elem d) : Set (Fin d → Nat) :=
  {p | ∀ i, (e.coords i).toNat ≤ p i ∧ p i ≤ (e.coords i).toNat + side M e}

/-- The points of face `f` of `e`: faces `2i` and `2i+1` are orthogonal to direction `i`, face `2i` at the
lower end, face `2i+1` at the upper end. -/
def Face (M : Nat) (e : Elem d) (f : Nat) : Set (Fin d → Nat) :=
  {p | p ∈ Box M e ∧ ∀ i, i.val = f / 2 → p i = (e.coords i).toNat + (f % 2) * side M e}

/-- The corner number `c` of the square of side `R`: bit 0 is the x-direction, bit 1 the y-direction. -/
def corner (R : Int) (c : Nat) : Int × Int := ((c % 2 : Nat) * R, (c / 2 % 2 : Nat) * R)

/-- The symmetry of the square `[0,R]²` that sends corner 0 to corner `o` and preserves the orientation
(`sign = false`) or reverses it (`sign = true`): `p ↦ corner o + p.1 * u + p.2 * v`, where `u`, `v` are the
two unit vectors along the edges at corner `o`, in the order given by the sign of `det (u, v)`. -/
def squareSymmetry (R : Int) (o : Nat) (sign : Bool) (p : Int × Int) : Int × Int :=
  let dx : Int := 1 - 2 * ((o % 2 : Nat) : Int)
  let dy : Int := 1 - 2 * ((o / 2 % 2 : Nat) : Int)
  -- det ((dx,0),(0,dy)) = dx * dy and det ((0,dy),(dx,0)) = - dx * dy
  if (dx * dy = 1) = (sign = false) then ((corner R o).1 + p.1 * dx, (corner R o).2 + p.2 * dy)
  else ((corner R o).1 + p.2 * dx, (corner R o).2 + p.1 * dy)

end T8.Standalone
