/-
Model of the search for the leaves at a face: `t8_forest_leaf_face_neighbors_ext` (src/t8_forest/t8_forest.cxx:1683-1990) from the
point where the face neighbor of the same level is known, `t8_forest_leaf_face_neighbors_iterate` (t8_forest.cxx:1612-1655) and
`element_face_get_ancestor_face` (src/t8_schemes/t8_scheme_helpers.hxx:80-113).

`parentFace` is `element_face_get_parent_face` of the class, with `none` for -1. The arrays of the local tree and of the ghost tree with
the number of the neighbor tree are given with the index of their first leaf. `none` is an abort, a failing assertion or a read outside of
an array. The returned face number -1, if the leaf has no face that contains the common face, is modelled as an abort as well; the
theorems show that it does not occur. The three returned arrays `pneighbor_leaves`, `dual_faces` and `pelement_indices`
are one list of triples (`Entry`).
-/
import Verif.Model.FaceIterate
import Verif.Spec.LeafNeighbors

namespace T8.LeafNeighbor
open T8.Leaf T8.FaceIterate

variable {T : RTree}

/-- The loop in `element_face_get_ancestor_face`, t8_scheme_helpers.hxx:99-110: `n` more steps. -/
def ancestorFaceLoop (parentFace : T.E → Nat → Option Nat) : Nat → T.E → Nat → Option Nat
  | 0, _, face => some face
  | n + 1, e, face =>
    match parentFace e face with
    | none => none
    | some f => ancestorFaceLoop parentFace n (T.parent e) f

/-- `element_face_get_ancestor_face`, t8_scheme_helpers.hxx:80. -/
def ancestorFace (parentFace : T.E → Nat → Option Nat) (e : T.E) (ancestorLevel face : Nat) : Option (Option Nat) := do
  assertO (ancestorLevel ≤ T.level e)
  some (ancestorFaceLoop parentFace (T.level e - ancestorLevel) e face)

/-- `t8_forest_leaf_face_neighbors_iterate`, t8_forest.cxx:1612-1655, for one call: nothing for elements that are not leaves. `leaves` are
the leaves of the tree, `offset` the index of the first. -/
def collect (leaves : List T.E) (offset : Nat) (c : FaceCall T) : Option (List (Entry T)) :=
  if c.isLeaf then do
    let x ← leaves[c.index]?
    some [⟨x, c.face, offset + c.index⟩]
  else some []

/-- The index of the last leaf in the view, t8_forest.cxx:1888-1910, if the neighbor has finer leaves. -/
def lastIndex (S : Scheme T) (leaves : List T.E) (n : T.E) : Option Int := do
  let leafCount : Int := leaves.length
  let lastLeaf ← rd leaves (leafCount - 1)
  if S.isAncestor n lastLeaf then some (leafCount - 1)
  else do
    let successor ← S.successor n
    let successorLevel := T.level successor
    let successorId := S.linearId successor successorLevel
    let upper ← binSearchUpper S leaves successorId successorLevel
    some (if upper < 0 then leafCount - 1 else upper - 1)

/-- The body of the loop over the arrays, t8_forest.cxx:1836-1955. The neighbor of the same level is `n` with the face `dual`. `buffer` is
`user_data`, `out` what has been copied to the returned arrays. -/
def searchArray (S : Scheme T) (F : FaceScheme T) (parentFace : T.E → Nat → Option Nat) (n : T.E) (dual treeId : Nat)
    (array : List T.E × Nat) (state : List (Entry T) × List (Entry T)) : Option (List (Entry T) × List (Entry T)) := do
  let (leaves, offset) := array
  let (buffer, out) := state
  let (first, found) ← binSearchFirst S leaves n
  if first ≥ 0 then do
    let leaf ← found
    let unique := decide (T.level leaf ≤ T.level n)
    let searchElement := if unique then leaf else n
    let searchFace ← if unique then (← ancestorFace parentFace n (T.level leaf) dual) else some dual
    let count ← if unique then some 1 else do
      let last ← lastIndex S leaves n
      let count := last - first + 1
      assertO (count > 0)
      some count.toNat
    let calls ← iterateFaces S F (fun _ _ => true) treeId leaves searchElement searchFace ((leaves.drop first.toNat).take count)
      first.toNat []
    let new ← calls.mapM (fun c => collect leaves offset c.1)
    let buffer := buffer ++ new.flatten
    some (buffer, if buffer.length > 0 then out ++ buffer else out)
  else some (buffer, out)

/-- The arrays that are searched, t8_forest.cxx:1772-1807: those of the local tree and of the ghost tree, if there are such trees.
`lower` and `upper` are the bounds that `t8_forest_element_owners_at_face_bounds` computes. -/
def leafArrays (rank lower upper : Int) (loc ghost : Option (List T.E × Nat)) : List (List T.E × Nat) :=
  (if lower ≤ rank ∧ rank ≤ upper then loc.toList else []) ++ (if lower ≠ rank ∨ upper ≠ rank then ghost.toList else [])

/-- `t8_forest_leaf_face_neighbors_ext`, t8_forest.cxx:1755-1990. -/
def leafFaceNeighbors (S : Scheme T) (F : FaceScheme T) (parentFace : T.E → Nat → Option Nat) (n : T.E) (dual treeId : Nat)
    (rank lower upper : Int) (loc ghost : Option (List T.E × Nat)) : Option (List (Entry T)) := do
  let (_, out) ← (leafArrays rank lower upper loc ghost).foldlM (fun s a => searchArray S F parentFace n dual treeId a s) ([], [])
  some out

end T8.LeafNeighbor
