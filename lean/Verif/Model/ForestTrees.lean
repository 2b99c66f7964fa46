/-
Model of queries on the local trees of a forest, src/t8_forest/t8_forest.cxx: the numbering of local leaves (3673-3747, 4168-4191),
equality of forests (344-398) and the overlap test (286-342).
-/
import Verif.Model.Loop
import Verif.Model.Populate
import Verif.Model.Stash

namespace T8.Trees
open T8.Populate

/-! ### Numbering of the local leaves -/

/-- A local tree: `elements_offset` and `leaf_elements` of `t8_tree_struct`, src/t8_forest/t8_forest_types.h. `α` is the type of
leaves. -/
structure OffTree (α : Type) where
  elementsOffset : Int
  leaves : List α

/-- The loop of `t8_forest_compute_elements_offset`, t8_forest.cxx:4182-4187. Returns the trees and `current_offset`. -/
def offsetLoop {α : Type} : (currentOffset : Int) → List (OffTree α) → List (OffTree α) × Int
  | cur, [] => ([], cur)
  | cur, tree :: trees =>
    let r := offsetLoop (cur + tree.leaves.length) trees
    (⟨cur, tree.leaves⟩ :: r.1, r.2)

/-- `t8_forest_compute_elements_offset`, t8_forest.cxx:4168-4191. -/
def computeElementsOffset {α : Type} (trees : List (OffTree α)) (localNum : Int) : Option (List (OffTree α)) := do
  let r := offsetLoop 0 trees
  assertO (r.2 = localNum)
  some r.1

/-- `t8_forest_compare_elem_tree`, t8_forest.cxx:3673-3692. -/
def compareElemTree {α : Type} (leid : Int) (tree : OffTree α) : Int :=
  if tree.elementsOffset > leid then -1
  else if tree.elementsOffset + tree.leaves.length > leid then 0
  else 1

/-- State of the hand-written search: `ltree_a`, `ltree_b`, `ltreedebug`. -/
structure SearchState where
  a : Int
  b : Int
  mid : Int

/-- The hand-written binary search in debug builds, t8_forest.cxx:3711-3733. -/
def debugSearch {α : Type} (trees : List (OffTree α)) (lelementId : Int) : Option SearchState :=
  whileO (fun s => some (decide (s.a < s.b))) (fun s => do
      let mid := (s.a + s.b) / 2
      let tree ← rd trees mid
      if tree.elementsOffset > lelementId then some ⟨s.a, mid, mid⟩
      else if tree.elementsOffset + tree.leaves.length > lelementId then some ⟨s.b, s.b, mid⟩
      else some ⟨mid, s.b, mid⟩)
    ⟨0, trees.length, (0 + trees.length) / 2⟩

/-- `t8_forest_get_leaf_element`, t8_forest.cxx:3694-3747. `some none` is the null pointer. `bsearch` is `sc_array_bsearch` (libsc) on the
array of trees with the comparison `compareElemTree` (`none` for -1). -/
def getLeafElement {α : Type} (bsearch : Int → List (OffTree α) → Option Nat) (trees : List (OffTree α)) (localNum : Int)
    (lelementId : Int) : Option (Option (α × Nat)) := do
  assertO (lelementId ≥ 0)
  if lelementId ≥ localNum then some none
  else do
    let dbg ← debugSearch trees lelementId
    let ltree ← bsearch lelementId trees
    assertO (dbg.mid = ltree)
    let tree ← trees[ltree]?
    if tree.elementsOffset ≤ lelementId ∧ lelementId < tree.elementsOffset + tree.leaves.length then do
      let e ← rd tree.leaves (lelementId - tree.elementsOffset)
      some (some (e, ltree))
    else none

/-! ### Equality -/

/-- A `for` loop over `i < n` that returns `false` as soon as `f i` is false. -/
def allLoop (n : Nat) (f : Nat → Option Bool) : Option Bool :=
  go n 0
where
  /-- `n` iterations, starting with index `i`. -/
  go : Nat → Nat → Option Bool
    | 0, _ => some true
    | n + 1, i => do
      let b ← f i
      if b then go n (i + 1) else some false

/-- The local part of a forest. `scheme` stands for the pointer to the scheme; the trees may depend on it. -/
structure Forest {Sch C : Type} (T : Sch → C → RTree) where
  scheme : Sch
  trees : List (LocalTree (T scheme))

section
variable {C : Type} [DecidableEq C] {T : C → RTree} (S : ∀ c, Scheme (T c))

/-- The comparison of two trees, t8_forest.cxx:372-394. -/
def treeEqual (a b : LocalTree T) : Option Bool :=
  if h : b.cls = a.cls then
    let lb : List (T a.cls).E := h ▸ b.leaves
    if a.leaves.length ≠ lb.length then some false
    else allLoop a.leaves.length (fun i => do
      let x ← a.leaves[i]?
      let y ← lb[i]?
      some (S a.cls |>.isEqual x y))
  else some false

/-- The loop over the trees, t8_forest.cxx:371-396. -/
def treesEqual (a b : List (LocalTree T)) : Option Bool :=
  allLoop a.length (fun i => do
    let x ← a[i]?
    let y ← b[i]?
    treeEqual S x y)

end

/-- `t8_forest_is_equal`, t8_forest.cxx:344-398. -/
def isEqual {Sch C : Type} [DecidableEq Sch] [DecidableEq C] {T : Sch → C → RTree} (S : ∀ s c, Scheme (T s c))
    (a b : Forest T) : Option Bool :=
  if a.trees.length ≠ b.trees.length then some false
  else if h : b.scheme = a.scheme then treesEqual (S a.scheme) a.trees (h ▸ b.trees)
  else some false

/-! ### Overlap -/

section
variable {C : Type} {T : C → RTree} (S : ∀ c, Scheme (T c))

/-- State of the overlap test: whether `element_nca` is allocated, and `has_overlap_local`. -/
structure OverlapState where
  alive : Bool
  overlap : Bool

/-- One pair of consecutive elements, t8_forest.cxx:314-323. With `strict`, writing to an element after it was destroyed, and destroying it
again, is an error; without it, such accesses are taken to be harmless. -/
def overlapStep {U : RTree} (R : Scheme U) (strict : Bool) (a b : U.E) (s : OverlapState) : Option OverlapState := do
  assertO (strict = true → s.alive = true)
  let nca ← R.nca a b
  if U.level a = U.level nca ∨ U.level b = U.level nca then some ⟨false, true⟩
  else some s

/-- The loop over the elements of a tree, t8_forest.cxx:301-324. -/
def overlapLoop {U : RTree} (R : Scheme U) (strict : Bool) : List U.E → OverlapState → Option OverlapState
  | a :: b :: rest, s => do
    let s ← overlapStep R strict a b s
    overlapLoop R strict (b :: rest) s
  | _, s => some s

/-- One tree, t8_forest.cxx:294-327. -/
def overlapTree (strict : Bool) (tree : LocalTree T) (overlap : Bool) : Option Bool := do
  let s ← overlapLoop (S tree.cls) strict tree.leaves ⟨true, overlap⟩
  assertO (strict = true → s.alive = true)
  some s.overlap

/-- All local trees, t8_forest.cxx:293-328: `has_overlap_local`. -/
def overlapLocal (strict : Bool) (trees : List (LocalTree T)) : Option Bool :=
  trees.foldlM (fun o t => overlapTree S strict t o) false

/-- `t8_forest_no_overlap` in debug builds on process `p` of the processes with local trees `forests`, t8_forest.cxx:286-342. -/
def noOverlap (strict : Bool) (forests : List (List (LocalTree T))) (p : Nat) : Option Bool := do
  let locals ← forests.mapM (overlapLocal S strict)
  let mine ← locals[p]?
  let global := locals.any id
  if global then do
    assertO (mine = true)
    some false
  else some true

/-- `t8_forest_no_overlap` in release builds: the body is compiled out, t8_forest.cxx:289, 340. -/
def noOverlapRelease (_forests : List (List (LocalTree T))) (_p : Nat) : Bool := true

end

end T8.Trees
