/-
Specification of a partition by weights.
-/
import Verif.Spec.Partition
import Mathlib.Algebra.BigOperators.Group.List.Basic
import Mathlib.Algebra.Order.Field.Rat

namespace T8.Spec

/-- The weight of the first `e` elements. -/
def weightBefore (L : List ℚ) (e : Nat) : ℚ := (L.take e).sum

/-- Element `e` is the first for which the accumulated weight, up to and including it, exceeds the fraction `i / P` of the total. -/
def CutsAt (L : List ℚ) (P i e : Nat) : Prop :=
  e < L.length ∧ L.sum * i / P < weightBefore L (e + 1) ∧ ∀ e', e' < e → weightBefore L (e' + 1) ≤ L.sum * i / P

end T8.Spec
