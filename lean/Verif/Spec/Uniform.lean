/-
Specification: uniform forests and how their elements are cut into process ranges.
-/
import Verif.Spec.RTree

namespace T8.Spec

/-- The trees have `leaves[0], leaves[1], …` elements, which are numbered consecutively. The elements numbered
`f, …, l - 1` begin with element `b` of tree `t` and end with element `e - 1` of tree `u`. -/
def Cuts (leaves : List Int) (f l t b u e : Int) : Prop :=
  (∃ i : Nat, ∃ n, leaves[i]? = some n ∧ t = i ∧ (leaves.take i).sum + b = f ∧ 0 ≤ b ∧ b < n) ∧
  (∃ j : Nat, ∃ n, leaves[j]? = some n ∧ u = j ∧ (leaves.take j).sum + e = l ∧ 0 < e ∧ e ≤ n)

/-- A leaf of a forest: global tree number, class of the tree, element. -/
structure Leaf {C : Type} (T : C → RTree) where
  tree : Nat
  cls : C
  elem : (T cls).E

/-- The leaves of a uniform forest of level `L` over trees of the given classes: tree by tree all elements of
level `L` in curve order. `k` is the number of the first tree. -/
def uniformForest {C : Type} (T : C → RTree) (L : Nat) : (k : Nat) → (classes : List C) → List (Leaf T)
  | _, [] => []
  | k, c :: cs => ((T c).uniform (T c).root L).map (fun e => ⟨k, c, e⟩) ++ uniformForest T L (k + 1) cs

end T8.Spec
