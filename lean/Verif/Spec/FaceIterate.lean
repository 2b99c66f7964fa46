/-
Specification: what the iteration over the leaves at a face of an element does. As for the search (Spec/Search), it is described by the
record of the calls of the callback.
-/
import Verif.Spec.Search
import Verif.Spec.Face

namespace T8.FaceIterate
open T8.Search (PartBelow)

/-- What the callback is told: the tree, the element and its face, whether the element is a leaf, the leaves below the element
and the index of the first of them in the tree. -/
structure FaceCall (T : RTree) where
  tree : Nat
  elem : T.E
  face : Nat
  isLeaf : Bool
  leaves : List T.E
  index : Nat

/-- The calls of the callback and its answers. -/
abbrev FaceRecord (T : RTree) := List (FaceCall T × Bool)

/-- A callback, `t8_forest_iterate_face_fn` in src/t8_forest/t8_forest_iterate.h. Its answer may depend on everything that happened
before. -/
abbrev FaceFn (T : RTree) := FaceRecord T → FaceCall T → Bool

variable {T : RTree}

/-- The callback was called on `e` with answer `r`. -/
def Called (log : FaceRecord T) (e : T.E) (r : Bool) : Prop := ∃ c, c.elem = e ∧ (c, r) ∈ log

/-- The record `log` of an iteration over face `f` of the element `e`. `all` are the leaves of the tree, `ls` those handed to the
iteration, and `first` is the index of the first of them. -/
structure Iterated (In : T.E → Nat → T.E → Nat → Prop) (tree : Nat) (all ls : List T.E) (first : Nat) (e : T.E) (f : Nat)
    (log : FaceRecord T) : Prop where
  /-- The callback is told the truth, and it is called on faces that lie in face `f` of `e`. -/
  calls : ∀ c r, (c, r) ∈ log → c.tree = tree ∧ T.Desc e c.elem ∧ In c.elem c.face e f ∧ (c.isLeaf = true ↔ c.elem ∈ all) ∧
    ∃ k, PartBelow ls c.elem c.leaves k ∧ c.index = first + k
  /-- The calls are made in curve order, ancestors first; in particular no element occurs twice. -/
  order : log.Pairwise (fun p q => T.Lt p.1.elem q.1.elem)
  /-- The callback is called on an element exactly if it has a face in face `f` of `e`, there are leaves below it, and all
  ancestors of it were accepted. -/
  called : ∀ x, (∃ r, Called log x r) ↔ T.Desc e x ∧ (∃ g, In x g e f) ∧ (∃ y ∈ ls, T.Desc x y) ∧
    ∀ a, T.Desc e a → T.Desc a x → a ≠ x → Called log a true

/-- The answers in `log`, which follows the history `h`, are those of the callback. -/
def Answered (callback : FaceFn T) (h log : FaceRecord T) : Prop :=
  ∀ (i : Nat) (c : FaceCall T) (r : Bool), log[i]? = some (c, r) → r = callback (h ++ log.take i) c

end T8.FaceIterate
