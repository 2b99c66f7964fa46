/-
Model of src/t8_forest/t8_forest_balance.cxx.

All processes are modelled at once. `T g` is the refinement tree of tree `g`, and a local tree has its number as class. Parameters of the
model are the neighbour of an element across a face (`t8_forest_element_face_neighbor`), the creation of the ghost layer and the
repartition. Statistics and profiling are left out.
-/
import Verif.Model.Adapt
import Verif.Model.LeafSearch
import Verif.Spec.Balance

namespace T8.Balance
open T8.Adapt T8.Populate T8.BalanceSpec

variable {T : Nat → RTree}

/-- The part of a forest on one process: the local trees and, if they were created, the ghost trees. -/
structure Process (T : Nat → RTree) where
  trees : List (LocalTree T)
  ghosts : Option (List (LocalTree T))

/-- The leaves of tree `g` in a list of local trees or ghost trees, if it is there (`t8_forest_get_local_id` or
`t8_forest_ghost_get_ghost_treeid`, and the array of leaves). -/
def leavesIn : List (LocalTree T) → (g : Nat) → Option (List (T g).E)
  | [], _ => none
  | t :: ts, g => if h : t.cls = g then some (h ▸ t.leaves) else leavesIn ts g

/-- What the functions use of the scheme, the coarse mesh and other functions of the library. `ghost` gives the ghost trees of a process from
the local trees of all processes, `partition` is `t8_forest_partition`; `none` means that the program is aborted. -/
structure Lib (T : Nat → RTree) where
  scheme : ∀ g, Scheme (T g)
  faces : ∀ g, FaceScheme (T g)
  maxChildren : Nat → Nat
  maxlevel : Nat
  neighbor : Neighbors T
  ghost : List (List (LocalTree T)) → Nat → Option (List (LocalTree T))
  partition : List (List (LocalTree T)) → Option (List (List (LocalTree T)))

variable (X : Lib T)

/-- `t8_forest_element_half_face_neighbors`, src/t8_forest/t8_forest.cxx:1529-1579, without the dual faces: the tree and the neighbours of half
the size, if there are any. -/
def halfFaceNeighbors (g : Nat) (elem : (T g).E) (face numNeighs : Nat) : Option (Option (Σ g, List (T g).E)) :=
  if numNeighs = 0 then some none
  else
    match X.neighbor g elem face with
    | none => some none
    | some n => do
      assertO ((T n.tree).level n.elem < X.maxlevel)
      assertO (numNeighs = (X.faces n.tree).numFaceChildren n.elem n.face)
      return some ⟨n.tree, (X.faces n.tree).childrenAtFace n.elem n.face⟩

/-- The test at one face, t8_forest_balance.cxx:87-120: whether there are leaves that are finer than the half face neighbours.
(`t8_forest_element_neighbor_eclass` gives no valid class if there is no neighbour.) -/
def faceTest (P : Process T) (g : Nat) (element : (T g).E) (face : Nat) : Option Bool := do
  let numHalf := (X.faces g).numFaceChildren element face
  match ← halfFaceNeighbors X g element face numHalf with
  | none => return false
  | some ⟨g', half⟩ =>
    half.anyM (fun h => Leaf.hasLeafDesc (X.scheme g') X.maxlevel h (leavesIn P.trees g') (P.ghosts.bind (leavesIn · g')))

/-- `t8_forest_balance_adapt`, t8_forest_balance.cxx:61-124. `existing` is `maxlevel_existing` of the old forest. -/
def balanceAdapt (P : Process T) (existing : Int) (g : Nat) (element : (T g).E) : Option Bool :=
  if existing ≤ 0 ∨ ((T g).level element : Int) ≤ existing - 2 then
    (List.range ((X.faces g).numFaces element)).anyM (faceTest X P g element)
  else some false

/-- `t8_forest_balance_adapt` as a callback of adapt. The state is `*pdone`; it is `none` if the program was aborted. -/
def callback (P : Process T) (existing : Int) (g : Nat) : Callback (Option Bool) (T g).E := fun st _ _ _ elements =>
  match st, elements with
  | some done, element :: _ =>
    match balanceAdapt X P existing g element with
    | some true => (1, some false)
    | some false => (0, some done)
    | none => (0, none)
  | _, _ => (0, none)

/-- `t8_forest_compute_max_element_level`, t8_forest_balance.cxx:131-152. -/
def computeMaxElementLevel (procs : List (Process T)) : Nat :=
  (procs.map (fun P => P.trees.foldl (fun (m : Nat) t => t.leaves.foldl (fun (m : Nat) e => max m ((T t.cls).level e)) m) 0)).foldl max 0

/-- `t8_forest_is_balanced`, t8_forest_balance.cxx:339-384, on one process. -/
def isBalanced (P : Process T) (existing : Int) : Option Bool := do
  let r ← P.trees.anyM (fun t => t.leaves.anyM (fun e => balanceAdapt X P existing t.cls e))
  return !r

/-- The variables of the loop: the forest on all processes, its flag `incomplete_trees` and `done_global`. -/
structure State (T : Nat → RTree) where
  procs : List (Process T)
  incomplete : Bool
  done : Bool

/-- One adaptation on the process with number `p`, t8_forest_balance.cxx:206-231: the new trees, the local part of `incomplete_trees` and
the local `done`. -/
def adaptProcess (mpisize : Nat) (existing : Int) (incomplete : Bool) (p : Nat) (P : Process T) :
    Option (List (LocalTree T) × Bool × Bool) := do
  let (trees, inc, st) ← adapt X.scheme X.maxChildren ⟨X.maxlevel, false, incomplete, p, mpisize, 0⟩ (callback X P existing) P.trees (some true)
  let done ← st
  return (trees, inc, done)

/-- The local trees with ghost layers. -/
def withGhosts (all : List (List (LocalTree T))) : Option (List (Process T)) :=
  all.zipIdx.mapM (fun t => do return ⟨t.1, some (← X.ghost all t.2)⟩)

/-- The local trees without ghost layers. -/
def withoutGhosts (all : List (List (LocalTree T))) : List (Process T) := all.map (fun trees => ⟨trees, none⟩)

/-- The body of the loop of `t8_forest_balance`, t8_forest_balance.cxx:205-284. -/
def round (repartition : Bool) (existing : Int) (s : State T) : Option (State T) := do
  let r ← s.procs.zipIdx.mapM (fun P => adaptProcess X s.procs.length existing s.incomplete P.2 P.1)
  let all := r.map (fun x => x.1)
  let done := r.all (fun x => x.2.2)
  let incomplete := r.any (fun x => x.2.1)
  if repartition then
    if !done then return ⟨← withGhosts X (← X.partition all), incomplete, done⟩
    else return ⟨withoutGhosts all, incomplete, done⟩
  else return ⟨← withGhosts X all, incomplete, done⟩

/-- `t8_forest_balance`, t8_forest_balance.cxx:155-336: the new trees of all processes. Processes whose old forest has no ghost layer get one
(lines 200-203). -/
def balance (repartition incomplete : Bool) (procs : List (Process T)) : Option (List (List (LocalTree T))) := do
  let existing : Int := computeMaxElementLevel procs
  let all := procs.map (fun P => P.trees)
  let procs ← procs.zipIdx.mapM (fun P => do
    if P.1.ghosts.isNone then return { P.1 with ghosts := some (← X.ghost all P.2) } else return P.1)
  let s ← whileO (fun s : State T => some (!s.done)) (round X repartition existing) ⟨procs, incomplete, false⟩
  let ok ← s.procs.mapM (fun P => isBalanced X P existing)
  assertO (ok.all id)
  return s.procs.map (fun P => P.trees)

end T8.Balance
