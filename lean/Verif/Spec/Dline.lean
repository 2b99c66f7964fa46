/-
Specification: lines of the default scheme. A line of level `l` is an interval of length `2^(30-l)` whose left
end is a multiple of its length, inside of the root interval `[0, 2^30]`. A face is one of the two end points.
-/
import Verif.Model.Dline
import Mathlib.Data.Set.Basic

namespace T8.Dline

/-- `e` is an element of the tree. -/
def Valid (e : Line) : Prop := e.level ≤ maxLevel ∧ e.x.toNat < 2 ^ maxLevel ∧ 2 ^ (maxLevel - e.level) ∣ e.x.toNat

/-- The points of the interval. -/
def Points (e : Line) : Set Nat := {p | e.x.toNat ≤ p ∧ p ≤ e.x.toNat + 2 ^ (maxLevel - e.level)}

/-- The end point at face `f`: face 0 is the left end, face 1 the right end. -/
def Face (e : Line) (f : Nat) : Set Nat := {p | p = e.x.toNat + f * 2 ^ (maxLevel - e.level)}

end T8.Dline
