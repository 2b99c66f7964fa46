/-
Model of the functions to look up ghosts, src/t8_forest/t8_forest_ghost.cxx:302-458, 1680-1714, and of the exchange of data of the ghosts,
t8_forest_ghost.cxx:1716-1946.

An array of data has one entry for each local leaf, followed by one entry for each ghost. The entries are of any type `α`; the code copies
their bytes. Messages are received into disjoint parts of the array, so that the order in which they arrive does not matter; the model receives
them in the order of the ranks. A message that is longer than expected is an error, as for MPI.
-/
import Verif.Model.GhostMessage

namespace T8.Ghost
open T8.RTree T8.Populate

variable {T : Nat → RTree}

/-! ### Looking up ghosts -/

/-- `t8_forest_ghost_num_trees`, t8_forest_ghost.cxx:325-338. -/
def Layer.numTrees (L : Layer T) : Nat := if L.numGhosts ≤ 0 then 0 else L.trees.length

/-- `t8_forest_ghost_get_tree`, t8_forest_ghost.cxx:350-372. -/
def Layer.getTree (L : Layer T) (lghostTree : Int) : Option (GhostTree T) := do
  assertO (0 ≤ lghostTree ∧ lghostTree < L.numTrees)
  L.trees[lghostTree.toNat]?

/-- `t8_forest_ghost_get_tree_element_offset`, t8_forest_ghost.cxx:374-379. -/
def Layer.treeElementOffset (L : Layer T) (lghostTree : Int) : Option Nat := (L.getTree lghostTree).map (fun t => t.offset)

/-- `t8_forest_ghost_tree_num_leaf_elements`, t8_forest_ghost.cxx:381-391. -/
def Layer.treeNumElements (L : Layer T) (lghostTree : Int) : Option Nat := (L.getTree lghostTree).map (fun t => t.elements.length)

/-- `t8_forest_ghost_get_ghost_treeid`, t8_forest_ghost.cxx:402-421. -/
def Layer.ghostTreeid (L : Layer T) (gtreeid : Nat) : Int :=
  match L.treeHash.find? (fun e => e.1 = gtreeid) with
  | some e => e.2
  | none => -1

/-- `t8_forest_ghost_get_tree_class`, t8_forest_ghost.cxx:423-432. -/
def Layer.treeClass (L : Layer T) (lghostTree : Int) : Option Nat := (L.getTree lghostTree).map (fun t => t.eclass)

/-- `t8_forest_ghost_get_global_treeid`, t8_forest_ghost.cxx:434-443. -/
def Layer.globalTreeid (L : Layer T) (lghostTree : Int) : Option Nat := (L.getTree lghostTree).map (fun t => t.gtreeid)

/-- `t8_forest_ghost_get_leaf_element`, t8_forest_ghost.cxx:445-458: the element, with the tree that it belongs to. -/
def Layer.getElement (L : Layer T) (lghostTree lelement : Int) : Option (Σ g, (T g).E) := do
  let t ← L.getTree lghostTree
  assertO (0 ≤ lelement ∧ lelement < t.elements.length)
  let e ← t.elements[lelement.toNat]?
  return ⟨t.gtreeid, e⟩

/-- `t8_forest_ghost_get_proc_info`, t8_forest_ghost.cxx:302-323. -/
def Layer.procInfo (L : Layer T) (remote : Int) : Option ProcessOffset := L.processOffsets.find? (fun e => e.rank = remote)

/-- `t8_forest_ghost_remote_first_tree`, t8_forest_ghost.cxx:1686-1697. -/
def Layer.remoteFirstTree (L : Layer T) (remote : Int) : Option Nat := (L.procInfo remote).map (fun e => e.treeIndex)

/-- `t8_forest_ghost_remote_first_elem`, t8_forest_ghost.cxx:1704-1714. -/
def Layer.remoteFirstElem (L : Layer T) (remote : Int) : Option Nat := (L.procInfo remote).map (fun e => e.ghostOffset)

/-! ### Sending data -/

/-- The number of the first local tree, `t8_forest_get_first_local_tree_id`; -1 if there is none. -/
def firstLocalTree (trees : List (LocalTree T)) : Int :=
  match trees with
  | [] => -1
  | t :: _ => t.cls

/-- `t8_forest_get_local_id`, src/t8_forest/t8_forest.cxx:3849-3867. -/
def localId (trees : List (LocalTree T)) (gtreeid : Nat) : Int :=
  let ltreeid := (gtreeid : Int) - firstLocalTree trees
  if 0 ≤ ltreeid ∧ ltreeid < trees.length then ltreeid else -1

/-- `elements_offset` of a local tree, src/t8_forest/t8_forest_types.h:155: the number of leaves of the local trees before it. -/
def elementsOffset (trees : List (LocalTree T)) (ltreeid : Nat) : Nat := ((trees.take ltreeid).map (fun t => t.leaves.length)).sum

/-- The number of local leaves. -/
def numLocalLeaves (trees : List (LocalTree T)) : Nat := (trees.map (fun t => t.leaves.length)).sum

variable {α : Type}

/-- Copy the data of one element to the buffer, t8_forest_ghost.cxx:1775-1785. -/
def copyData (data : List α) (offset : Nat) (s : List α × Nat) (elementPos : Nat) : Option (List α × Nat) := do
  let d ← data[offset + elementPos]?
  assertO (s.2 < s.1.length)
  return (s.1.set s.2 d, s.2 + 1)

/-- The body of the loop over the trees, t8_forest_ghost.cxx:1766-1786. -/
def copyTree (trees : List (LocalTree T)) (data : List α) (s : List α × Nat) (t : RemoteTree T) : Option (List α × Nat) := do
  let ltreeid := localId trees t.gtreeid
  assertO (0 ≤ ltreeid ∧ ltreeid < trees.length)
  t.elements.foldlM (fun s x => copyData data (elementsOffset trees ltreeid.toNat) s x.2) s

/-- `t8_forest_ghost_exchange_fill_send_buffer`, t8_forest_ghost.cxx:1728-1788: the buffer. Before it is filled its entries are `undef`. -/
def fillSendBuffer (trees : List (LocalTree T)) (G : Remotes T) (data : List α) (undef : α) (remote : Int) : Option (List α) := do
  let r ← G.ghosts.find? (fun r => r.rank = remote)
  let s ← r.trees.foldlM (copyTree trees data) (List.replicate r.numElements undef, 0)
  return s.1

/-- The messages that are sent, t8_forest_ghost.cxx:1829-1840. -/
def exchangeSend (trees : List (LocalTree T)) (G : Remotes T) (data : List α) (undef : α) : Option (List (Int × List α)) :=
  G.processes.mapM (fun rank => do
    let buffer ← fillSendBuffer trees G data undef rank
    return (rank, buffer))

/-! ### Receiving data -/

/-- Where the data from the process with the given index in `remote_processes` is received, and how much, t8_forest_ghost.cxx:1845-1882. -/
def recvRange (L : Layer T) (G : Remotes T) (iremote : Nat) : Option (Int × Nat × Int) := do
  let recvRank ← G.processes[iremote]?
  let e ← L.procInfo recvRank
  let nextOffset ← if iremote + 1 < G.processes.length then do
      let nextRank ← G.processes[iremote + 1]?
      let e' ← L.procInfo nextRank
      some e'.ghostOffset
    else some L.numGhosts
  return (recvRank, e.ghostOffset, (nextOffset : Int) - e.ghostOffset)

/-- Receive the data from one process, t8_forest_ghost.cxx:1845-1886. -/
def recvData (trees : List (LocalTree T)) (L : Layer T) (G : Remotes T) (arrivals : List (Int × List α)) (data : List α) (iremote : Nat) :
    Option (List α) := do
  let (recvRank, offset, count) ← recvRange L G iremote
  let m ← arrivals.find? (fun m => m.1 = recvRank)
  let start := numLocalLeaves trees + offset
  assertO ((m.2.length : Int) ≤ count)
  assertO (start + m.2.length ≤ data.length)
  return data.take start ++ m.2 ++ data.drop (start + m.2.length)

/-- `t8_forest_ghost_exchange_data`, t8_forest_ghost.cxx:1899-1946, for a process with a ghost layer: the array of data when all messages have
arrived. -/
def exchangeRecv (trees : List (LocalTree T)) (L : Layer T) (G : Remotes T) (arrivals : List (Int × List α)) (data : List α) :
    Option (List α) := do
  assertO (data.length = numLocalLeaves trees + L.numGhosts)
  (List.range G.processes.length).foldlM (recvData trees L G arrivals) data

end T8.Ghost
