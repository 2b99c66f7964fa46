/-
Specification of partitions of a sequence of `N` elements among `P` processes.
-/
import Mathlib.Data.List.Basic
import Mathlib.Order.Basic

namespace T8.Spec

/-- A partition of the elements `0, …, N - 1`: process `p` has the elements from `off p` up to before `off (p + 1)`. -/
structure ElementPartition (P N : Nat) where
  off : Nat → Nat
  pos : 0 < P
  zero : off 0 = 0
  top : off P = N
  mono : ∀ p, p < P → off p ≤ off (p + 1)

namespace ElementPartition
variable {P N : Nat} (R : ElementPartition P N)

/-- The array of offsets. -/
def table : List Int := (List.range (P + 1)).map (fun p => (R.off p : Int))

/-- Process `p` has an element. -/
def Nonempty (p : Nat) : Prop := R.off p < R.off (p + 1)

/-- There are elements that `p` has in the partition `A` and `q` in the partition `B`. -/
def Overlap (A B : ElementPartition P N) (p q : Nat) : Prop :=
  ∃ e, A.off p ≤ e ∧ e < A.off (p + 1) ∧ B.off q ≤ e ∧ e < B.off (q + 1)

end ElementPartition

/-- The entries `a, …, b - 1` of a list. -/
def slice {α : Type} (l : List α) (a b : Nat) : List α := (l.drop a).take (b - a)

end T8.Spec
