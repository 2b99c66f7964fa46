/-
Specification: families of leaves in the order of a distributed forest, and offsets that do not split them.

This file mentions no definition of the model.
-/
import Verif.Spec.Owner

namespace T8.Spec

variable {T : Nat → RTree}

/-- A forest with `K` trees whose leaves are distributed over `P` processes. The leaves of a tree are in the order of the curve; they
need not cover it, and a tree may have none. -/
structure LeafForest (T : Nat → RTree) (P K : Nat) where
  leaves : (g : Nat) → List (T g).E
  ordered : ∀ g, g < K → (T g).Ordered (leaves g)
  part : ElementPartition P (leafSequence K leaves).length

namespace LeafForest
variable {P K : Nat} (D : LeafForest T P K)

/-- All leaves, in the order of their global indices. -/
def seq : List (Σ g, (T g).E) := leafSequence K D.leaves

end LeafForest

/-- The leaves from position `a` on are all children of the element `x` of tree `g`: a complete family. -/
def FamilyAt (seq : List (Σ g, (T g).E)) (a g : Nat) (x : (T g).E) : Prop :=
  (T g).Valid x ∧ (T g).level x < (T g).maxLevel ∧ ∀ i, i < (T g).nc x → seq[a + i]? = some ⟨g, (T g).child x i⟩

/-- A border between positions `o - 1` and `o` splits a complete family. -/
def Splits (seq : List (Σ g, (T g).E)) (o : Nat) : Prop :=
  ∃ a g x, FamilyAt seq a g x ∧ a < o ∧ o < a + (T g).nc x

/-- `o'` is the offset `o` moved out of the complete family that it splits, to the end of this family; if it does not split any, it is
not moved. -/
def Moved (seq : List (Σ g, (T g).E)) (o o' : Nat) : Prop :=
  (¬ Splits seq o ∧ o' = o) ∨ ∃ a g x, FamilyAt seq a g x ∧ a < o ∧ o < a + (T g).nc x ∧ o' = a + (T g).nc x

end T8.Spec
