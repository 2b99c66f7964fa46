/-
Specification: the leaves at a face. Given is the neighbor `n` of the same level of an element, with the common face `f`; the leaves at the
face are the leaf that contains `n`, or the leaves inside of `n` with a face in face `f`.
-/
import Verif.Spec.Face

namespace T8.LeafNeighbor

variable {T : RTree}

/-- A leaf at the face, the face of the leaf, and the index of the leaf. -/
structure Entry (T : RTree) where
  elem : T.E
  face : Nat
  index : Nat

/-- The element `x` is at face `f` of `n`, on the side of `n`, with its face `g`: it is inside of `n` and face `g` is a part of face `f`, or
it contains `n` and face `f` is a part of face `g`. -/
def At (In : T.E → Nat → T.E → Nat → Prop) (n : T.E) (f : Nat) (x : T.E) (g : Nat) : Prop :=
  (T.Desc n x ∧ In x g n f) ∨ (T.Desc x n ∧ In n f x g)

/-- `out` consists of the leaves of an array at face `f` of `n`, each once, in the order of the array, with their faces and their indices.
The first leaf has the index `offset`. -/
structure Exact (In : T.E → Nat → T.E → Nat → Prop) (n : T.E) (f : Nat) (leaves : List T.E) (offset : Nat) (out : List (Entry T)) :
    Prop where
  sound : ∀ r ∈ out, ∃ k, leaves[k]? = some r.elem ∧ r.index = offset + k ∧ At In n f r.elem r.face
  complete : ∀ x ∈ leaves, (∃ g, At In n f x g) → ∃ r ∈ out, r.elem = x
  order : out.Pairwise (fun r s => r.index < s.index)

end T8.LeafNeighbor
