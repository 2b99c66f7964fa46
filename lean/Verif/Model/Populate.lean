/-
Model of the creation of a uniform forest: `t8_forest_populate`, src/t8_forest/t8_forest.cxx:1122-1208.

The coarse mesh is replicated (every process knows the classes of all trees). The new leaves are
returned; profiling, the global element count and memory management are not modelled.
-/
import Verif.Spec.Scheme
import Verif.Model.UniformBounds

namespace T8.Populate
open T8.Uniform

/-- A local tree of a forest with its leaf elements, `t8_tree_struct` in src/t8_forest/t8_forest_types.h: the
global id, the class and the elements. -/
structure LocalTree {C : Type} (T : C → RTree) where
  gtree : Nat
  cls : C
  leaves : List (T cls).E

/-- The loop creating the successors of `element`, `count` of them:
src/t8_forest/t8_forest.cxx:1194-1200. -/
def successors {T : RTree} (S : Scheme T) (level : Nat) : (count : Nat) → (element : T.E) → Option (List T.E)
  | 0, _ => some []
  | n + 1, element => do
    assertO (T.level element = level)
    let succ ← S.successor element
    let rest ← successors S level n succ
    some (succ :: rest)

/-- The elements of one tree, numbers `start, …, end - 1`: src/t8_forest/t8_forest.cxx:1184-1200. The number of
elements is a `t8_locidx_t` (32 bit). -/
def treeElements {T : RTree} (S : Scheme T) (level : Nat) (start end_ : Int) : Option (List T.E) := do
  assertO (0 < end_ - start ∧ end_ - start < 2 ^ 31)
  let element ← S.setLinearId level start.toNat
  let rest ← successors S level (end_ - (start + 1)).toNat element
  some (element :: rest)

variable {C : Type} {T : C → RTree}

/-- One execution of the loop over the local trees, src/t8_forest/t8_forest.cxx:1173-1201. -/
def populateTree (S : ∀ c, Scheme (T c)) (classes : List C) (level : Nat) (b : Bounds) (jt : Nat) :
    Option (LocalTree T) := do
  let c ← classes[jt]?
  let start := if (jt : Int) = b.firstLocalTree then b.childInTreeBegin else 0
  let end_ := if (jt : Int) = b.lastLocalTree then b.childInTreeEnd else (S c).countLeavesFromRoot level
  let els ← treeElements (S c) level start end_
  some ⟨jt, c, els⟩

/-- `t8_forest_populate` from the bounds on (src/t8_forest/t8_forest.cxx:1151-1205): the local trees of a process.
`classes` are the classes of all trees of the coarse mesh. -/
def populate (S : ∀ c, Scheme (T c)) (classes : List C) (level : Nat) (b : Bounds) :
    Option (List (LocalTree T)) :=
  if b.firstLocalTree > b.lastLocalTree ∨
      (b.firstLocalTree = b.lastLocalTree ∧ b.childInTreeBegin ≥ b.childInTreeEnd) then
    some []
  -- SC_CHECK_ABORT, lines 1157-1160
  else if b.firstLocalTree ≥ 0 ∧ b.lastLocalTree ≤ (classes.length : Int) - 1 then
    (List.range' b.firstLocalTree.toNat (b.lastLocalTree - b.firstLocalTree + 1).toNat).mapM
      (populateTree S classes level b)
  else none

/-- `t8_forest_populate` for a mesh whose trees all have the same number of elements
(src/t8_forest/t8_forest.cxx:1146-1150). `numTreesPerEclass` is computed from the tree classes. -/
def populateEqual [DecidableEq C] (S : ∀ c, Scheme (T c)) (allClasses classes : List C) (level : Nat)
    (mpirank mpisize : Int) : Option (List (LocalTree T)) := do
  let b ← boundsEqualElementCount
    (allClasses.map (fun c => ((classes.count c : Int), (S c).countLeavesFromRoot level))) mpirank mpisize
  populate S classes level b

/-- `t8_forest_populate` for a mesh with trees of different numbers of elements and a replicated coarse mesh
(src/t8_forest/t8_forest.cxx:1140-1145). `b0` holds the uninitialised output variables. -/
def populateIrregular (S : ∀ c, Scheme (T c)) (classes : List C) (level : Nat) (mpirank mpisize : Int)
    (b0 : Bounds) : Option (List (LocalTree T)) := do
  let b ← boundsFromUnpartitioned (classes.map (fun c => (S c).countLeavesFromRoot level)) mpirank mpisize b0
  populate S classes level b

end T8.Populate
