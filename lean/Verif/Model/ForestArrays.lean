/-
Model of the functions that create the arrays about the distribution of a forest: src/t8_forest/t8_forest_partition.cxx:72-91, 133-166,
304-395, 397-475, and of the functions that tell whether a process shares its first or last tree: src/t8_forest/t8_forest.cxx:1085-1120,
1212-1356.

The functions are collective. The model gets the local forests of all processes and computes what every process contributes; a gather
operation puts the contributions of the processes one after the other.
-/
import Verif.Model.CmeshOffset
import Verif.Spec.Scheme
import Verif.Spec.ForestArrays

namespace T8.ForestArrays
open T8.Spec

/-- The values that are the same on all processes: `mpisize`, `global_num_trees`, `global_num_leaf_elements`, `maxlevel` and
`incomplete_trees`. -/
structure Global where
  mpisize : Nat
  numTrees : Int
  numLeaves : Int
  maxlevel : Nat
  incomplete : Bool

variable {T : Nat → RTree} (S : (g : Nat) → Scheme (T g)) (G : Global) (forests : Nat → LocalForest T)

/-- `first_desc` and `last_desc` of a tree with leaves, `t8_forest_compute_desc`, t8_forest.cxx:1085-1120. `none` stands for the null
pointers of a tree without leaves. -/
def treeDesc (t : Σ g, List (T g).E) (last : Bool) : Option (T t.1).E :=
  if !last then t.2.head?.map (fun e => (S t.1).firstDescendant e G.maxlevel)
  else t.2.getLast?.map (fun e => (S t.1).lastDescendant e G.maxlevel)

/-- The comparison with the first or last possible descendant of the tree, t8_forest.cxx:1320-1345. -/
def sharedTree (t : Σ g, List (T g).E) (last : Bool) : Option Bool := do
  let desc := if !last then (S t.1).firstDescendant (T t.1).root G.maxlevel else (S t.1).lastDescendant (T t.1).root G.maxlevel
  let treeDesc ← treeDesc S G t last
  return !(S t.1).isEqual desc treeDesc

/-- `t8_forest_tree_shared`, t8_forest.cxx:1224-1356, for a library that is built with MPI. For incomplete trees, every process gets
`last_local_tree` of the process before it. -/
def treeShared (rank : Nat) (last : Bool) : Option Bool := do
  let f := forests rank
  assertO (f.firstLocalTree > -1 ∧ f.firstLocalTree ≤ G.numTrees ∧ f.firstLocalTree ≤ f.lastLocalTree + 1 ∧
    f.lastLocalTree ≤ G.numTrees)
  if G.mpisize = 1 then return false
  else if G.incomplete then
    assertO (!last)
    if rank = 0 then return false
    else
      let neighbour := (forests (rank - 1)).lastLocalTree
      assertO (neighbour < G.numTrees)
      return decide (neighbour = f.firstLocalTree ∧ f.lastLocalTree ≠ -1)
  else if f.localNum ≤ 0 ∨ f.firstLocalTree > f.lastLocalTree then return false
  else
    let t ← if !last then f.trees.head? else f.trees.getLast?
    sharedTree S G t last

/-- The offset that a process computes at first, t8_forest_partition.cxx:415-425. -/
def treeOffset (rank : Nat) : Option Int := do
  let f := forests rank
  let shared ← treeShared S G forests rank false
  let offset := if shared then -f.firstLocalTree - 1 else f.firstLocalTree
  if f.localNum ≤ 0 then return G.numTrees else return offset

/-- The offset that a process computes if there are empty processes, t8_forest_partition.cxx:449-466. -/
def correctedOffset (array : List Int) (rank : Nat) : Option Int := do
  if (forests rank).localNum ≤ 0 then
    let nextNonempty ← whileO
      (fun n : Int => if n < G.mpisize then (do let v ← rd array n; some (decide (v ≥ G.numTrees))) else some false)
      (fun n => some (n + 1)) ((rank : Int) + 1)
    let offset ← Offset.first nextNonempty array
    let v ← rd array nextNonempty
    if v < 0 then return offset + 1 else return offset
  else treeOffset S G forests rank

/-- `t8_forest_partition_create_tree_offsets`, t8_forest_partition.cxx:397-475. -/
def createTreeOffsets : Option (List Int) := do
  let offsets ← (List.range G.mpisize).mapM (treeOffset S G forests)
  let array := offsets ++ [G.numTrees]
  let hasEmpty := (List.range G.mpisize).any (fun p => (forests p).localNum ≤ 0)
  if hasEmpty then
    let offsets ← (List.range G.mpisize).mapM (correctedOffset S G forests array)
    return offsets ++ [G.numTrees]
  else return array

/-- `t8_forest_compute_first_local_element_id`, t8_forest_partition.cxx:72-91: an inclusive scan minus the own number. -/
def firstLocalElement (rank : Nat) : Int :=
  ((List.range (rank + 1)).map (fun p => (forests p).localNum)).sum - (forests rank).localNum

/-- `t8_forest_partition_create_offsets`, t8_forest_partition.cxx:133-166. -/
def createOffsets : List Int := (List.range G.mpisize).map (firstLocalElement forests) ++ [G.numLeaves]

/-- The first local leaf as `t8_forest_partition_create_first_desc` finds it, t8_forest_partition.cxx:344-358. -/
def firstLeaf (f : LocalForest T) : Option (Σ g, (T g).E) :=
  if G.incomplete then (f.trees.find? (fun t => !t.2.isEmpty)).bind (fun t => t.2.head?.map (Sigma.mk t.1))
  else f.trees.head?.bind (fun t => t.2.head?.map (Sigma.mk t.1))

/-- The entry of a process, t8_forest_partition.cxx:337-370. The code computes with the class of local tree 0; the model does not cover
the case that the first leaf is in another local tree (possible only for incomplete trees), then the result is `none`. -/
def firstDesc (f : LocalForest T) : Option Nat := do
  if f.localNum ≤ 0 then return 0
  else
    let t ← f.trees.head?
    let e ← firstLeaf G f
    assertO (e.1 = t.1)
    return (S e.1).linearId ((S e.1).firstDescendant e.2 G.maxlevel) G.maxlevel

/-- `t8_forest_partition_create_first_desc`, t8_forest_partition.cxx:304-395: the array has `mpisize` entries. -/
def createFirstDesc : Option (List Nat) := (List.range G.mpisize).mapM (fun p => firstDesc S G (forests p))

end T8.ForestArrays
