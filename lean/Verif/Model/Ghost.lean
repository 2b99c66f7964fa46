/-
Model of the first phase of the creation of a ghost layer: which local leaves are sent to which process, src/t8_forest/t8_forest_ghost.cxx:478-921,
and `t8_forest_element_owners_at_neigh_face(_bounds)`, src/t8_forest/t8_forest.cxx:2747-2812.

The refinement tree of the tree with global number `g` is `T g`; in the search the class of a tree is its global number. The neighbor of
an element across a face (`t8_forest_element_face_neighbor`, see C52) is a parameter; it is `none` if there is no neighbor, in which case
also `t8_forest_element_neighbor_eclass` says so. Memory management is not modelled.
-/
import Verif.Model.Search
import Verif.Model.Owner
import Verif.Spec.Balance

namespace T8.Ghost
open T8.RTree T8.Populate T8.Search T8.Owner
open T8.BalanceSpec (Neighbor Neighbors)

variable {T : Nat → RTree}

/-- `t8_ghost_remote_tree_t`, t8_forest_ghost.cxx:82-94: the elements of one tree that are sent to a process. The arrays `elements` and
`element_indices` grow together; they are one list of pairs. -/
structure RemoteTree (T : Nat → RTree) where
  gtreeid : Nat
  elements : List ((T gtreeid).E × Nat)

/-- `t8_ghost_remote_t`, t8_forest_ghost.cxx:65-73. -/
structure Remote (T : Nat → RTree) where
  rank : Int
  numElements : Nat
  trees : List (RemoteTree T)

/-- The members `remote_ghosts` and `remote_processes` of `t8_forest_ghost` (t8_forest_types.h). The first is a hash table with an array
of its entries; the ranks are the keys. -/
structure Remotes (T : Nat → RTree) where
  ghosts : List (Remote T)
  processes : List Int

/-- The functions and arrays that are used. -/
structure Env (T : Nat → RTree) where
  scheme : ∀ g, Scheme (T g)
  faces : ∀ g, FaceScheme (T g)
  /-- `element_face_get_parent_face` -/
  parentFace : (g : Nat) → (T g).E → Nat → Option Nat
  /-- `element_get_max_num_faces` -/
  maxNumFaces : (g : Nat) → (T g).E → Nat
  /-- `t8_forest_element_face_neighbor` -/
  neighbor : Neighbors T
  tables : Tables
  /-- `mpirank` -/
  rank : Int

variable (X : Env T)

/-- `t8_forest_element_owners_at_neigh_face`, t8_forest.cxx:2747-2778. -/
def ownersAtNeighFace (g : Nat) (element : (T g).E) (face : Nat) (owners : List Int) : Option (List Int) :=
  match X.neighbor g element face with
  | none => some []
  | some n => ownersAtFace (X.scheme n.tree) X.tables (X.faces n.tree) n.tree n.elem n.face owners

/-- `t8_forest_element_owners_at_neigh_face_bounds`, t8_forest.cxx:2780-2812. -/
def ownersAtNeighFaceBounds (g : Nat) (element : (T g).E) (face : Nat) (lower upper : Int) : Option (Int × Int) :=
  match X.neighbor g element face with
  | none => some (1, 0)
  | some n =>
    if lower ≥ upper then some (lower, upper)
    else ownersAtFaceBounds (X.scheme n.tree) X.tables (X.faces n.tree) n.tree n.elem n.face lower upper

/-- The end of `t8_ghost_add_remote`, t8_forest_ghost.cxx:563-599: add a copy of the element to the last tree, if it is not there
already. The number of elements that were added is returned, too. The loop at the start is an assertion of the debug version. -/
def addToTree (g : Nat) (elem : (T g).E) (index : Nat) (t : List ((T g).E × Nat)) : Option (List ((T g).E × Nat) × Nat) := do
  let s := X.scheme g
  assertO ((t.take (t.length - 1)).all (fun p => !s.isEqual p.1 elem) = true)
  match t.getLast? with
  | none => return (t ++ [(elem, index)], 1)
  | some (copy, _) =>
    if (T g).level elem ≠ (T g).level copy ∨ s.linearId copy ((T g).level copy) ≠ s.linearId elem ((T g).level elem) then
      return (t ++ [(elem, index)], 1)
    else return (t, 0)

/-- The last tree of a process that already has an entry, t8_forest_ghost.cxx:548-560: if it is another tree then the tree is added. -/
def findTree (g : Nat) (trees : List (RemoteTree T)) : Option (List (RemoteTree T)) := do
  let t ← trees.getLast?
  if t.gtreeid ≠ g then return trees ++ [⟨g, []⟩] else return trees

/-- Add the element to the last tree of the process. -/
def addToRemote (g : Nat) (elem : (T g).E) (index : Nat) (r : Remote T) : Option (Remote T) := do
  let t ← r.trees.getLast?
  if h : t.gtreeid = g then
    let (elements, n) ← addToTree X g elem index (h ▸ t.elements)
    return { r with trees := r.trees.dropLast ++ [⟨g, elements⟩], numElements := r.numElements + n }
  else none

/-- `t8_ghost_add_remote`, t8_forest_ghost.cxx:509-600. -/
def addRemote (g : Nat) (elem : (T g).E) (index : Nat) (rank : Int) (G : Remotes T) : Option (Remotes T) := do
  match G.ghosts.findIdx? (fun r => r.rank = rank) with
  | none =>
    -- The remote rank was not in the array and was inserted now
    let r ← addToRemote X g elem index ⟨rank, 0, [⟨g, []⟩]⟩
    return ⟨G.ghosts ++ [r], G.processes ++ [rank]⟩
  | some pos =>
    let r ← G.ghosts[pos]?
    let trees ← findTree g r.trees
    let r ← addToRemote X g elem index { r with trees := trees }
    return { G with ghosts := G.ghosts.set pos r }

/-- Add the element for all ranks of the array but the own one, t8_forest_ghost.cxx:736-742. -/
def addRemotes (g : Nat) (elem : (T g).E) (index : Nat) (owners : List Int) (G : Remotes T) : Option (Remotes T) :=
  owners.foldlM (fun G rank => if rank ≠ X.rank then addRemote X g elem index rank G else some G) G

/-- `t8_forest_ghost_boundary_data_t`, t8_forest_ghost.cxx:605-627, and the ghost structure. An entry of `boundsPerLevel` is `none` as long
as it was not written. -/
structure Data (T : Nat → RTree) where
  gtreeid : Int
  levelNca : Nat
  maxNumFaces : Nat
  boundsPerLevel : List (List (Option Int))
  remotes : Remotes T

/-- Read an array entry that must have been written. -/
def rdw (a : List (Option Int)) (i : Nat) : Option Int := (a[i]?).join

/-- Write an entry of an array. -/
def wr {α : Type} (a : List α) (i : Nat) (v : α) : Option (List α) := if i < a.length then some (a.set i v) else none

/-- The first part of the callback, t8_forest_ghost.cxx:651-673: the search enters a new tree. -/
def enterTree (g : Nat) (element : (T g).E) (s : Data T) : Data T :=
  if (g : Int) ≠ s.gtreeid then
    let maxNumFaces := X.maxNumFaces g element
    { s with
      gtreeid := g, levelNca := (T g).level element, maxNumFaces := maxNumFaces,
      boundsPerLevel := [(List.replicate (maxNumFaces + 1) [some 0, some (X.tables.mpisize - 1)]).flatten] }
  else s

/-- The variables that change in the loop over the faces: `new_bounds`, `faces_totally_owned` and the ghost structure. -/
structure FaceState (T : Nat → RTree) where
  newBounds : List (Option Int)
  totallyOwned : Bool
  remotes : Remotes T

/-- The bounds that the parent gives for a face, t8_forest_ghost.cxx:707-720: those at the face of the parent that contains the face, or
those of the parent itself. -/
def faceBounds (g : Nat) (element : (T g).E) (bounds : List (Option Int)) (parentLower parentUpper : Int) (iface : Nat) :
    Option (Int × Int) :=
  match X.parentFace g element iface with
  | some parentFace => do return (← rdw bounds (parentFace * 2), ← rdw bounds (parentFace * 2 + 1))
  | none => some (parentLower, parentUpper)

/-- The body of the loop over the faces, t8_forest_ghost.cxx:706-744. -/
def faceBody (g : Nat) (element : (T g).E) (isLeaf : Bool) (index : Nat) (bounds : List (Option Int)) (parentLower parentUpper : Int)
    (s : FaceState T) (iface : Nat) : Option (FaceState T) := do
  let (lower, upper) ← faceBounds X g element bounds parentLower parentUpper iface
  if !isLeaf then
    let (lower, upper) ← ownersAtNeighFaceBounds X g element iface lower upper
    let newBounds ← wr s.newBounds (iface * 2) (some lower)
    let newBounds ← wr newBounds (iface * 2 + 1) (some upper)
    return { s with newBounds := newBounds, totallyOwned := s.totallyOwned && !decide (lower ≠ upper ∨ lower ≠ X.rank) }
  else
    let faceOwners ← ownersAtNeighFace X g element iface [lower, upper]
    let remotes ← addRemotes X g element index faceOwners s.remotes
    return { s with remotes := remotes }

/-- `t8_forest_ghost_search_boundary`, t8_forest_ghost.cxx:639-757: the new data and the answer. -/
def searchBoundary (g : Nat) (c : Call (T g)) (s : Data T) : Option (Data T × Bool) := do
  let element := c.elem
  let s := enterTree X g element s
  let level := (T g).level element
  assertO (s.levelNca ≤ level)
  -- if there is no entry for the level yet, it is added
  let boundsPerLevel ← (if s.boundsPerLevel.length ≤ level - s.levelNca + 1 then do
      assertO (s.boundsPerLevel.length = level - s.levelNca + 1)
      return s.boundsPerLevel ++ [List.replicate (2 * (s.maxNumFaces + 1)) none]
    else some s.boundsPerLevel)
  let newBounds ← boundsPerLevel[level - s.levelNca + 1]?
  let bounds ← boundsPerLevel[level - s.levelNca]?
  let parentLower ← rdw bounds (2 * s.maxNumFaces)
  let parentUpper ← rdw bounds (2 * s.maxNumFaces + 1)
  let (elLower, elUpper) ← ownersBounds (X.scheme g) X.tables g element parentLower parentUpper
  let newBounds ← wr newBounds (2 * s.maxNumFaces) (some elLower)
  let newBounds ← wr newBounds (2 * s.maxNumFaces + 1) (some elUpper)
  let f ← (List.range ((X.faces g).numFaces element)).foldlM (faceBody X g element c.isLeaf c.index bounds parentLower parentUpper)
    ⟨newBounds, true, s.remotes⟩
  let s := { s with boundsPerLevel := boundsPerLevel.set (level - s.levelNca + 1) f.newBounds, remotes := f.remotes }
  return (s, !(f.totallyOwned && decide (elLower = elUpper)))

/-- The data after the calls of a search. The data before the first call are those of t8_forest_ghost.cxx:777-790; the arrays
are empty. -/
def dataAfter (h : History T) : Option (Data T) :=
  h.foldlM (fun s ev => match ev with
    | ⟨g, .check c _⟩ => (searchBoundary X g c s).map Prod.fst
    | ⟨_, .query _ _ _⟩ => some s) ⟨-1, 0, 0, [], ⟨[], []⟩⟩

/-- `t8_forest_ghost_search_boundary` as a callback of the search, whose data are those after the calls so far. If something is undefined
then the answer does not matter. -/
def callback : SearchFn T := fun h g c => (((dataAfter X h).bind (searchBoundary X g c)).map Prod.snd).getD false

/-- `t8_forest_ghost_fill_remote_v3`, t8_forest_ghost.cxx:773-800. -/
def fillRemoteV3 (trees : List (LocalTree T)) : Option (Remotes T) := do
  let log ← search X.scheme (callback X) none trees
  let s ← dataAfter X log
  return s.remotes

/-- The body of the loops of `t8_forest_ghost_fill_remote` over the elements and faces, t8_forest_ghost.cxx:850-901. The half neighbors
are computed, but not used. The array `owners` is `none` if it was not initialised. -/
def fillFace (ghostMethod : Nat) (owners : Option (List Int)) (g : Nat) (elem : (T g).E) (index iface : Nat) (G : Remotes T) :
    Option (Remotes T) :=
  let isAtom := decide ((T g).level elem = (T g).maxLevel)
  if ghostMethod = 0 then
    if !isAtom then some G
    else do
      let owners ← owners
      let owners ← ownersAtNeighFace X g elem iface owners
      assertO (∀ owner ∈ owners, 0 ≤ owner ∧ owner < X.tables.mpisize)
      addRemotes X g elem index owners G
  else some G

/-- `t8_forest_ghost_fill_remote`, t8_forest_ghost.cxx:817-921. The array `owners` is initialised if the method is not 0 (839-842). It is
empty at the start of each use (895). -/
def fillRemote (ghostMethod : Nat) (trees : List (LocalTree T)) : Option (Remotes T) :=
  let owners : Option (List Int) := if ghostMethod ≠ 0 then some [] else none
  trees.foldlM (fun G t =>
    t.leaves.zipIdx.foldlM (fun G (x : (T t.cls).E × Nat) =>
      (List.range ((X.faces t.cls).numFaces x.1)).foldlM (fun G iface => fillFace X ghostMethod owners t.cls x.1 x.2 iface G) G) G) ⟨[], []⟩

end T8.Ghost
