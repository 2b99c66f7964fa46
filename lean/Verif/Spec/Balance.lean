/-
Specification: refinement of a forest and balance across faces.

A forest is given by the sequence of its leaves, each with the number of its tree; `T g` is the refinement tree for tree `g`. This file
mentions no definition of the model.
-/
import Verif.Spec.Face

namespace T8.BalanceSpec

variable {T : Nat → RTree}

/-- A leaf of a forest: the number of its tree and the element. -/
abbrev Leaf (T : Nat → RTree) := Σ g, (T g).E

/-- The level of a leaf. -/
def Leaf.level (x : Leaf T) : Nat := (T x.1).level x.2

/-- `new` arises from `old` by replacing each leaf by leaves of the same tree that tile it. -/
inductive Refines : List (Leaf T) → List (Leaf T) → Prop
  | nil : Refines [] []
  | cons {g : Nat} {e : (T g).E} {part : List (T g).E} {old new : List (Leaf T)} : (T g).Tiles e part → Refines old new →
      Refines (⟨g, e⟩ :: old) (part.map (Sigma.mk g) ++ new)

/-- The leaves of a sequence that are in tree `g`. -/
def inTree (g : Nat) (seq : List (Leaf T)) : List (T g).E := seq.filterMap (fun x => if h : x.1 = g then some (h ▸ x.2) else none)

/-- The neighbour of an element across a face: an element of the same level, in some tree, and the number of the common face as seen from
there. -/
structure Neighbor (T : Nat → RTree) where
  tree : Nat
  elem : (T tree).E
  face : Nat

/-- The neighbour across each face of each element of each tree; `none` at the boundary of the domain. -/
abbrev Neighbors (T : Nat → RTree) := (g : Nat) → (T g).E → Nat → Option (Neighbor T)

variable (nb : Neighbors T) (In : ∀ g, (T g).E → Nat → (T g).E → Nat → Prop)

/-- The element `x` touches the face `f` of `e` from the other side: it is inside of the neighbour of `e` across that face, and one of
its faces lies in the common face. -/
def Across (g : Nat) (e : (T g).E) (f : Nat) (x : Leaf T) : Prop :=
  ∃ n h, nb g e f = some n ∧ ∃ ht : n.tree = x.1, (T x.1).Desc (ht ▸ n.elem) x.2 ∧ In x.1 x.2 h (ht ▸ n.elem) n.face

/-- No leaf touches a face of another leaf whose level is smaller by two or more. `faces` is the number of faces of an element. -/
def Balanced (faces : (g : Nat) → (T g).E → Nat) (seq : List (Leaf T)) : Prop :=
  ∀ g e, ⟨g, e⟩ ∈ seq → ∀ f, f < faces g e → ∀ x ∈ seq, Across nb In g e f x → x.level ≤ (T g).level e + 1

end T8.BalanceSpec
