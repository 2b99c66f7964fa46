/-
How the models of the ghost layer, the repartition and the arrays about the distribution of a forest work together:
`t8_forest_ghost_create_ext`, src/t8_forest/t8_forest_ghost.cxx:1515-1627, `t8_forest_partition`,
src/t8_forest/t8_forest_partition.cxx:1344-1399, and the creation of the arrays at the end of `t8_forest_commit`,
src/t8_forest/t8_forest.cxx:3440-3451.

All processes are modelled at once, as in `Model/Balance.lean`. What the functions do on one process is in the models of the parts.
-/
import Verif.Model.Balance
import Verif.Model.ForestArrays
import Verif.Model.GhostMessage
import Verif.Model.Partition
import Verif.Model.PartitionOffset

namespace T8.ForestLib
open T8.Spec T8.Populate T8.Ghost T8.Owner

variable {T : Nat → RTree}

/-- What the functions use besides the leaves. `base` are the functions of the scheme and the coarse mesh (its arrays and its rank are not used),
`codec` is the layout of elements in memory, `fl` rounds to floating point numbers. -/
structure Setup (T : Nat → RTree) where
  base : Env T
  codec : Codec T
  maxChildren : Nat → Nat
  /-- `global_num_trees` -/
  numTrees : Nat
  /-- `maxlevel` -/
  maxlevel : Nat
  /-- What is behind the end of the array `global_first_desc`; it is read, see C27. -/
  behind : Nat
  /-- The order in which the messages for a process arrive. -/
  order : Nat → List (Int × List UInt8) → List (Int × List UInt8)
  fl : ℚ → ℚ

variable (U : Setup T)

/-- The part of a forest with the given trees. A process without leaves has the first local tree 0 and the last local tree -1. -/
def localForest (trees : List (LocalTree T)) : LocalForest T where
  firstLocalTree := (trees.head?.map (fun t => (t.cls : Int))).getD 0
  lastLocalTree := (trees.head?.map (fun t => (t.cls : Int))).getD 0 + trees.length - 1
  localNum := ((trees.map (fun t => t.leaves.length)).sum : Nat)
  trees := trees.map (fun t => ⟨t.cls, t.leaves⟩)

/-- The parts of all processes. -/
def partsOf (all : List (List (LocalTree T))) (p : Nat) : LocalForest T := localForest (all.getD p [])

/-- The values that are the same on all processes. -/
def globalOf (all : List (List (LocalTree T))) : ForestArrays.Global where
  mpisize := all.length
  numTrees := U.numTrees
  numLeaves := ((all.map (fun trees => (trees.map (fun t => t.leaves.length)).sum)).sum : Nat)
  maxlevel := U.maxlevel
  incomplete := false

/-- The arrays `tree_offsets`, `element_offsets` and `global_first_desc`, t8_forest.cxx:3440-3451. -/
def createTables (all : List (List (LocalTree T))) : Option Tables := do
  let treeOffsets ← ForestArrays.createTreeOffsets U.base.scheme (globalOf U all) (partsOf all)
  let firstDescs ← ForestArrays.createFirstDesc U.base.scheme (globalOf U all) (partsOf all)
  return ⟨all.length, U.numTrees, U.maxlevel, treeOffsets, ForestArrays.createOffsets (globalOf U all) (partsOf all), firstDescs ++ [U.behind]⟩

/-- What a process uses to create the ghost layer. -/
def envOf (A : Tables) (p : Int) : Env T := { U.base with tables := A, rank := p }

/-- The remotes and the messages of process `p`, t8_forest_ghost.cxx:1577-1588. A process without leaves does not send anything. -/
def sendGhosts (A : Tables) (all : List (List (LocalTree T))) (p : Nat) : Option (Remotes T × List (Int × List UInt8)) := do
  let trees := all.getD p []
  if trees.isEmpty then return (⟨[], []⟩, [])
  else
    let remotes ← fillRemoteV3 (envOf U A p) trees
    let messages ← sendStart U.codec remotes
    return (remotes, messages)

/-- `t8_forest_ghost_create_topdown` on process `p`, t8_forest_ghost.cxx:1515-1627 with `unbalanced_version = -1`: the ghost trees. A process
without leaves has no ghost structure. -/
def createGhost (all : List (List (LocalTree T))) (p : Nat) : Option (List (LocalTree T)) := do
  let A ← createTables U all
  let sent ← (List.range all.length).mapM (sendGhosts U A all)
  let (remotes, _) ← sent[p]?
  if (all.getD p []).isEmpty then return []
  else
    let arrivals := U.order p (delivered all.length (fun q => (sent.getD q (⟨[], []⟩, [])).2) p)
    let (layer, _) ← receive U.codec remotes arrivals
    return layer.trees.map (fun t => ⟨t.gtreeid, t.gtreeid, t.elements⟩)

/-- The trees of a process as partition sees them: the leaves are bytes. -/
def toForest (trees : List (LocalTree T)) : Partition.Forest where
  firstLocalTree := (localForest trees).firstLocalTree
  lastLocalTree := (localForest trees).lastLocalTree
  localNum := (localForest trees).localNum
  trees := trees.mapIdx (fun i t => ⟨U.codec.eclass t.cls, (((trees.take i).map (fun t => t.leaves.length)).sum : Nat),
    t.leaves.map (U.codec.encode t.cls)⟩)

/-- The trees of a process after partition. -/
def ofForest (f : Partition.Forest) : List (LocalTree T) :=
  f.trees.mapIdx (fun i t => ⟨(f.firstLocalTree + i).toNat, (f.firstLocalTree + i).toNat,
    t.leaves.map (U.codec.decode (f.firstLocalTree + i).toNat)⟩)

/-- `t8_forest_partition`, t8_forest_partition.cxx:1344-1399, without weights and given offsets. -/
def repartition (all : List (List (LocalTree T))) : Option (List (List (LocalTree T))) := do
  let old := ForestArrays.createOffsets (globalOf U all) (partsOf all)
  let new := PartitionOffset.unweighted U.fl (globalOf U all).numLeaves all.length none
  (List.range all.length).mapM (fun q : Nat => do
    let f ← Partition.partitionGiven U.codec.size all.length (fun p => toForest U (all.getD p.toNat [])) old new q
    return ofForest U f)

/-- What balance uses. -/
def Setup.lib : Balance.Lib T where
  scheme := U.base.scheme
  faces := U.base.faces
  maxChildren := U.maxChildren
  maxlevel := U.maxlevel
  neighbor := U.base.neighbor
  ghost := createGhost U
  partition := repartition U

end T8.ForestLib
