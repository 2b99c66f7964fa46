/-
Specification: how the trees of a coarse mesh are distributed over the ranks.

This file mentions no definition of the model.
-/
import Mathlib.Tactic.Linarith
import Mathlib.Algebra.Order.Group.Unbundled.Int

namespace T8.Spec

/-- A distribution of the trees `0 .. K-1` over the ranks `0 .. P-1`.  Rank `p` holds the trees
`first p .. last p` (none when `first p = last p + 1`).  Going from one rank to the next the range
either starts directly after the last tree so far, or, for a rank that holds a tree, it starts with the
last tree so far: then this tree is *shared*. -/
structure TreePartition (P K : Int) where
  first : Int → Int
  last : Int → Int
  pos : 0 < P
  first_zero : first 0 = 0
  last_top : last (P - 1) = K - 1
  nonneg : ∀ p, 0 ≤ p → p < P → 0 ≤ first p
  len : ∀ p, 0 ≤ p → p < P → first p ≤ last p + 1
  next : ∀ p, 0 ≤ p → p + 1 < P →
    first (p + 1) = last p + 1 ∨ (first (p + 1) = last p ∧ first (p + 1) ≤ last (p + 1))

namespace TreePartition
variable {P K : Int} (R : TreePartition P K)

/-- Rank `p` holds tree `t`. -/
def Owns (p t : Int) : Prop := 0 ≤ p ∧ p < P ∧ R.first p ≤ t ∧ t ≤ R.last p

/-- Rank `p` holds no tree. -/
def Empty (p : Int) : Prop := ∀ t, ¬ R.Owns p t

/-- The first tree of rank `p` is also held by a smaller rank. -/
def SharesFirst (p : Int) : Prop := R.Owns p (R.first p) ∧ ∃ q, q < p ∧ R.Owns q (R.first p)

open Classical in
/-- The documented layout of an offset array for `R` (`t8_cmesh_types.h`, `t8_cmesh_offset.h`): `P + 1`
entries; entry `p` is the first tree of rank `p`, or `-first - 1` if that tree is shared with a smaller
rank; entry `P` is the number of trees. -/
def Encodes (off : List Int) : Prop :=
  (off.length : Int) = P + 1 ∧
  (∀ p, 0 ≤ p → p < P →
    off[p.toNat]? = some (if R.SharesFirst p then - R.first p - 1 else R.first p)) ∧
  off[P.toNat]? = some K

end TreePartition

end T8.Spec
