/-
Specification: a forest whose leaves are distributed over processes, and which process owns an element.

This file mentions no definition of the model.
-/
import Verif.Spec.Element
import Verif.Spec.Partition
import Verif.Spec.TreePartition
import Verif.Lemmas.Tiling

namespace T8.Spec

variable {T : Nat → RTree}

/-- All leaves of the trees `0, …, K - 1` in order; a leaf is given with the number of its tree. `T g` is the refinement tree for tree `g`. -/
def leafSequence (K : Nat) (leaves : (g : Nat) → List (T g).E) : List (Σ g, (T g).E) :=
  (List.range K).flatMap (fun g => (leaves g).map (Sigma.mk g))

/-- A forest with `K` trees on `P` processes; the levels of its leaves are at most `L`. Each tree has leaves, in the order of the
curve; they need not cover the tree. -/
structure DistForest (T : Nat → RTree) (P K L : Nat) where
  leaves : (g : Nat) → List (T g).E
  ordered : ∀ g, g < K → (T g).Ordered (leaves g)
  nonempty : ∀ g, g < K → leaves g ≠ []
  level_le : ∀ g, g < K → ∀ x ∈ leaves g, (T g).level x ≤ L
  maxLevel : ∀ g, g < K → L ≤ (T g).maxLevel
  part : ElementPartition P (leafSequence K leaves).length

namespace DistForest
variable {P K L : Nat} (D : DistForest T P K L)

/-- The leaves of process `p`. -/
def localLeaves (p : Nat) : List (Σ g, (T g).E) := slice (leafSequence K D.leaves) (D.part.off p) (D.part.off (p + 1))

/-- Process `p` has a leaf that covers the element `d` of tree `g`. -/
def Covers (p g : Nat) (d : (T g).E) : Prop := p < P ∧ ∃ x, ⟨g, x⟩ ∈ D.localLeaves p ∧ (T g).Desc x d

/-- Process `p` owns the element `e` of tree `g`: it has the leaf that covers the first descendant of `e` of level `L`. -/
def Owns (p g : Nat) (e : (T g).E) : Prop := D.Covers p g ((T g).firstDesc e (L - (T g).level e))

/-- The trees of the forest are covered by the leaves. -/
def Complete : Prop := ∀ g, g < K → (T g).Tiles (T g).root (D.leaves g)

/-- The documented content of the arrays `tree_offsets`, `element_offsets` and `global_first_desc` of a forest
(src/t8_forest/t8_forest_types.h): the first one encodes which processes have leaves of which trees; the second one are the offsets of
the partition; entry `p` of the third one is the position, in the uniform refinement of level `L`, of the first descendant of the
first leaf of process `p`, if it has one. -/
structure Arrays (treeOffsets elementOffsets : List Int) (firstDescs : List Nat) : Prop where
  trees : ∃ R : TreePartition P K, R.Encodes treeOffsets ∧ ∀ p g : Nat, R.Owns p g ↔ p < P ∧ ∃ x, ⟨g, x⟩ ∈ D.localLeaves p
  elements : elementOffsets = D.part.table
  firstDescs : ∀ p, p < P → ∃ i, firstDescs[p]? = some i ∧ ∀ y, (D.localLeaves p).head? = some y →
    ((T y.1).uniform (T y.1).root L)[i]? = some ((T y.1).firstDesc y.2 (L - (T y.1).level y.2))

/-- Process `p` owns a descendant of level `L` of the element `e` of tree `g`. -/
def OwnsDescendant (p g : Nat) (e : (T g).E) : Prop := ∃ d, (T g).Desc e d ∧ (T g).level d = L ∧ D.Covers p g d

/-- Process `p` owns a descendant of level `L` of the element `e` that has a face in face `f` of `e`. -/
def OwnsAtFace {g : Nat} (In : (T g).E → Nat → (T g).E → Nat → Prop) (p : Nat) (e : (T g).E) (f : Nat) : Prop :=
  ∃ d h, (T g).Desc e d ∧ (T g).level d = L ∧ In d h e f ∧ D.Covers p g d

end DistForest

end T8.Spec
