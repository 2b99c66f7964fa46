/-
Specification of the sequence of leaves of a forest.
-/
import Verif.Model.Partition

namespace T8.Partition

/-- A leaf: the global number of its tree, the class of the tree, the bytes of the element. -/
abbrev Leaf := Int × Nat × Bytes

/-- The leaves of consecutive trees, the first of which has the number `g`. -/
def treesSeq (g : Int) : List Tree → List Leaf
  | [] => []
  | t :: ts => t.leaves.map (fun b => (g, t.eclass, b)) ++ treesSeq (g + 1) ts

/-- The leaves of the local part of a forest. -/
def Forest.seq (f : Forest) : List Leaf := treesSeq f.firstLocalTree f.trees

/-- The local part of a forest is consistent: the first and last local tree and the element count match the trees, every
tree has a leaf and knows how many leaves come before it, and leaves have the size of their class. -/
structure WF (size : Nat → Nat) (f : Forest) : Prop where
  last : f.lastLocalTree = f.firstLocalTree + f.trees.length - 1
  num : f.localNum = f.seq.length
  nonempty : ∀ t ∈ f.trees, t.leaves ≠ []
  offsets : ∀ (i : Nat) (t : Tree), f.trees[i]? = some t →
    t.elementsOffset = ((treesSeq f.firstLocalTree (f.trees.take i)).length : Int)
  sizes : ∀ t ∈ f.trees, ∀ b ∈ t.leaves, b.length = size t.eclass

/-- In the global sequence the trees are numbered without gap, and leaves of a tree agree on its class. -/
def Linear (G : List Leaf) : Prop :=
  ∀ (i : Nat) (a b : Leaf), G[i]? = some a → G[i + 1]? = some b → (b.1 = a.1 ∧ b.2.1 = a.2.1) ∨ b.1 = a.1 + 1

/-- The leaves of all processes in order. -/
def globalSeq (P : Nat) (forests : Int → Forest) : List Leaf := (List.range P).flatMap (fun p : Nat => (forests p).seq)

end T8.Partition
