/-
Model of the adaptation of a forest: src/t8_forest/t8_forest_adapt.cxx and `t8_forest_is_incomplete_family`
(src/t8_forest/t8_forest.cxx).

An element array is a list. The adapt callback is an arbitrary function with a state of arbitrary type `σ` (what the callback
reads and writes through the user data pointer); it returns its answer and the new state. Memory management and
profiling are left out. `T8_ENABLE_MPI` is set. The assertions of debugging mode are part of the model, except for
the test `t8_forest_is_family_callback`.
-/
import Verif.Model.Populate

namespace T8.Adapt
open T8.Populate

/-- `t8_forest_adapt_t`, src/t8_forest/t8_forest_general.h: local tree id, element index, is_family, the elements
passed. -/
abbrev Callback (σ E : Type) := σ → Nat → Nat → Bool → List E → Int × σ

/-- What adapt reads of the forests: the maximum level and the recursive flag of the new one, whether trees of the old
one are incomplete, and the parallel environment. -/
structure Cfg where
  maxlevel : Nat
  recursive : Bool
  incomplete : Bool
  mpirank : Nat
  mpisize : Nat
  numTrees : Nat

/-- `INT32_MIN` -/
def int32Min : Int := -2147483648

variable {T : RTree} (S : Scheme T) {σ : Type}

/-! ### `t8_forest_is_incomplete_family` -/

/-- The loop reducing `family_size` to the number of family members that directly follow each other,
t8_forest.cxx:118-133: the arguments are the elements from index `family_iter` on. -/
def reduceFamily (levelCurrent : Nat) (parentCurrent : T.E) : List T.E → Nat → Nat
  | [], iter => iter
  | e :: es, iter =>
    if T.level e ≠ levelCurrent then iter
    else if S.isEqual parentCurrent (T.parent e) then reduceFamily levelCurrent parentCurrent es (iter + 1)
    else iter

/-- Would `e` be covered by the parent (t8_forest.cxx:103-115 and 139-153)? `minLevel`: elements of a smaller level are
not looked at. -/
def overlapped (levelCurrent : Nat) (parentCurrent : T.E) (minLevel : Nat) (e : T.E) : Option Bool :=
  if T.level e ≥ minLevel then do
    let a ← S.nca parentCurrent e
    assertO (T.level a + 1 ≤ levelCurrent)
    some (decide (T.level a + 1 = levelCurrent))
  else some false

/-- `t8_forest_is_incomplete_family`, t8_forest.cxx:61-176. `leaves` are the leaves of the tree, `elements` the
`elements_size` ones from index `considered` on. -/
def isIncompleteFamily (cfg : Cfg) (ltree : Nat) (leaves : List T.E) (considered elementsSize : Nat) : Option Nat := do
  assertO (0 < elementsSize ∧ considered + elementsSize ≤ leaves.length)
  let elements := (leaves.drop considered).take elementsSize
  let e ← leaves[considered]?
  if T.level e = 0 then some 0
  else do
    let levelCurrent := T.level e
    let childIdCurrent := S.childId e
    let parent := T.parent e
    let before ← (if 0 < childIdCurrent ∧ 0 < considered then do
        let prev ← leaves[considered - 1]?
        overlapped S levelCurrent parent levelCurrent prev
      else some false)
    if before then some 0
    else do
      let familySize := reduceFamily S levelCurrent parent elements.tail 1
      assertO (0 < familySize ∧ familySize ≤ elementsSize)
      let behind ← (if familySize < elementsSize then do
          let next ← elements[familySize]?
          overlapped S levelCurrent parent (levelCurrent + 1) next
        else some false)
      if behind then some 0
      else do
        let numSiblings := S.numSiblings e
        assertO (familySize ≤ numSiblings)
        if considered = 0 ∧ 0 < childIdCurrent ∧ ltree = 0 ∧ 0 < cfg.mpirank then some 0
        else if (considered : Int) > (leaves.length : Int) - numSiblings ∧ ltree + 1 = cfg.numTrees ∧
          cfg.mpirank + 1 < cfg.mpisize then some 0
        else some familySize

/-! ### Recursive coarsening -/

/-- The loop of `t8_forest_pos`, t8_forest_adapt.cxx:152-168; `left` is `num_siblings - el_iter`. The result is
`el_iter`, `pos` and the element at which the loop was left by `break`. -/
def posLoop (telements : List T.E) (telementsPos levelCurrent : Nat) (parent : T.E) :
    (left elIter : Nat) → (pos : Int) → Option (Nat × Int × Option T.E)
  | 0, elIter, pos => some (elIter, pos, none)
  | left + 1, elIter, pos =>
    if elIter < telements.length then do
      let pos : Int := (telementsPos : Int) - elIter
      assertO (0 ≤ pos)
      let compare ← telements[pos.toNat]?
      if levelCurrent ≠ T.level compare then some (elIter, pos, some compare)
      else if S.isEqual parent (T.parent compare) then
        posLoop telements telementsPos levelCurrent parent left (elIter + 1) pos
      else some (elIter, pos, some compare)
    else some (elIter, pos, none)

/-- The test after the loop of `t8_forest_pos`, t8_forest_adapt.cxx:173-188. -/
def posAfter (numSiblings count levelCurrent : Nat) (element : T.E) : Nat × Int × Option T.E → Option Int
  | (elIter, pos, compare) =>
    if elIter < numSiblings ∧ elIter < count then do
      let compare ← compare
      if T.level compare > levelCurrent then do
        let a ← S.nca element compare
        assertO (T.level a + 1 ≤ levelCurrent)
        if T.level a + 1 = levelCurrent then some (int32Min + 1) else some (pos + 1)
      else some (pos + 1)
    else some pos

/-- `t8_forest_pos`, t8_forest_adapt.cxx:105-207. During adapt, `forest->incomplete_trees` is -1 (asserted in
`t8_forest_adapt`), therefore the branch for `!forest->incomplete_trees` is not taken. -/
def forestPos (mpirank : Nat) (telements : List T.E) (telementsPos : Nat) : Option Int := do
  let element ← telements[telementsPos]?
  let numSiblings := S.numSiblings element
  let childId := S.childId element
  if ¬ (0 < childId ∧ childId = (numSiblings : Int) - 1) ∨ T.level element = 0 then some int32Min
  else do
    let r ← posLoop S telements telementsPos (T.level element) (T.parent element) (numSiblings - 1) 1 (-1)
    let pos ← posAfter S numSiblings telements.length (T.level element) element r
    if pos = 0 ∧ 0 < mpirank then do
      let border ← telements[0]?
      if 0 < S.childId border then some int32Min else some pos
    else some pos

/-- The variables of the loop in `t8_forest_adapt_coarsen_recursive`. -/
structure CState (σ E : Type) where
  isFamily : Bool
  pos : Int
  inserted : Nat
  telements : List E
  numSiblings : Nat
  st : σ

/-- The number of elements that are passed to the callback (0: no family), t8_forest_adapt.cxx:262-281. -/
def coarsenGroup (incomplete : Bool) (numSiblings inserted pos : Nat) (telements : List T.E) : Option Nat :=
  let fam := (telements.drop pos).take numSiblings
  if incomplete then do
    assertO (pos < inserted ∧ inserted - pos ≤ numSiblings)
    some (inserted - pos)
  else if fam.length = numSiblings then do
    let b ← S.areFamily fam
    some (if b then numSiblings else 0)
  else some 0

/-- The body of the loop in `t8_forest_adapt_coarsen_recursive`, t8_forest_adapt.cxx:250-320. -/
def coarsenBody (cfg : Cfg) (cb : Callback σ T.E) (ltree lelement : Nat) (s : CState σ T.E) :
    Option (CState σ T.E) := do
  let pos := s.pos.toNat
  let num ← coarsenGroup S cfg.incomplete s.numSiblings s.inserted pos s.telements
  if num = 0 then some { s with isFamily := false }
  else do
    let (answer, st) := cb s.st ltree lelement true ((s.telements.drop pos).take num)
    if answer = -1 then do
      let first ← s.telements[pos]?
      assertO (0 < T.level first)
      let inserted := s.inserted - (num - 1)
      let parent := T.parent first
      let telements := (s.telements.set pos parent).take (s.telements.length - (num - 1))
      assertO (inserted = pos + 1)
      let pos' ← forestPos S cfg.mpirank telements pos
      some { isFamily := s.isFamily, pos := pos', inserted, telements, numSiblings := S.numSiblings parent, st }
    else some { s with isFamily := false, st }

/-- `t8_forest_adapt_coarsen_recursive`, t8_forest_adapt.cxx:226-321. The result is the array and `el_inserted`. -/
def coarsenRecursive (cfg : Cfg) (cb : Callback σ T.E) (ltree lelement : Nat) (telements : List T.E)
    (elCoarsen inserted : Nat) (st : σ) : Option (List T.E × Nat × σ) := do
  let element ← telements[inserted - 1]?
  assertO (0 < T.level element)
  assertO (inserted = telements.length)
  let pos ← forestPos S cfg.mpirank telements (inserted - 1)
  let r ← whileO
    (fun s : CState σ T.E => some (s.isFamily && decide (s.pos ≥ elCoarsen) && decide (s.pos < s.telements.length)))
    (coarsenBody S cfg cb ltree lelement)
    { isFamily := true, pos, inserted, telements, numSiblings := S.numSiblings element, st }
  some (r.telements, r.inserted, r.st)

/-! ### Recursive refinement -/

/-- The variables of the loop in `t8_forest_adapt_refine_recursive`. -/
structure RState (σ E : Type) where
  list : List E
  telements : List E
  inserted : Nat
  removed : Bool
  st : σ

/-- The children of an element in order. -/
def children (e : T.E) : List T.E := (List.range (T.nc e)).map (T.child e)

/-- The body of the loop in `t8_forest_adapt_refine_recursive`, t8_forest_adapt.cxx:335-377. -/
def refineBody (cfg : Cfg) (cb : Callback σ T.E) (ltree lelement : Nat) (s : RState σ T.E) : Option (RState σ T.E) := do
  let e ← s.list.head?
  let list := s.list.tail
  let (answer, st) := cb s.st ltree lelement false [e]
  assertO (answer ≠ -1)
  if answer = 1 then
    if T.level e < cfg.maxlevel ∧ S.isRefinable e then some { s with list := children e ++ list, st }
    else some { s with list, st }
  else if answer = -2 then some { s with list, removed := true, st }
  else do
    assertO (answer = 0)
    some { s with list, telements := s.telements ++ [e], inserted := s.inserted + 1, st }

/-- `t8_forest_adapt_refine_recursive`, t8_forest_adapt.cxx:328-378. -/
def refineRecursive (cfg : Cfg) (cb : Callback σ T.E) (ltree lelement : Nat) (s : RState σ T.E) :
    Option (RState σ T.E) :=
  whileO (fun s : RState σ T.E => some (decide (0 < s.list.length))) (refineBody S cfg cb ltree lelement) s

/-! ### `t8_forest_adapt` -/

/-- The loop loading a possible family, t8_forest_adapt.cxx:485-497: the value of `zz` afterwards. The
arguments are the elements from index `el_considered + zz` on and `zz`. -/
def loadFamily (complete : Bool) (numSiblings : Nat) : List T.E → Nat → Nat
  | [], zz => zz
  | e :: es, zz =>
    if zz < numSiblings then
      if complete ∧ S.childId e ≠ zz then zz else loadFamily complete numSiblings es (zz + 1)
    else zz

/-- The number of elements that form a family (0: no family), t8_forest_adapt.cxx:499-517. -/
def familySize (cfg : Cfg) (ltree : Nat) (leaves : List T.E) (considered numSiblings : Nat) : Option Nat := do
  let zz := loadFamily S (!cfg.incomplete) numSiblings (leaves.drop considered) 0
  if cfg.incomplete then isIncompleteFamily S cfg ltree leaves considered zz
  else if zz = numSiblings then do
    let b ← S.areFamily ((leaves.drop considered).take numSiblings)
    some (if b then numSiblings else 0)
  else some 0

/-- The variables of the loop over the elements of a tree. -/
structure State (σ E : Type) where
  considered : Nat
  inserted : Nat
  coarsen : Nat
  numChildren : Nat
  telements : List E
  removed : Bool
  st : σ

/-- After an element has been pushed: recursive coarsening if it is the last one of its family,
t8_forest_adapt.cxx:582-592 and 604-613. -/
def tryCoarsen (cfg : Cfg) (cb : Callback σ T.E) (ltree : Nat) (e : T.E) (s : State σ T.E) : Option (State σ T.E) :=
  if cfg.recursive then
    let childId := S.childId e
    if 0 < childId ∧ childId = (s.numChildren : Int) - 1 then do
      let (telements, inserted, st) ← coarsenRecursive S cfg cb ltree s.considered s.telements s.coarsen s.inserted s.st
      some { s with telements, inserted, st }
    else some s
  else some s

/-- The part of the loop body that handles the answer of the callback, t8_forest_adapt.cxx:539-622. `num` is the number
of elements that were passed to the callback. -/
def applyAnswer (cfg : Cfg) (cb : Callback σ T.E) (ltree : Nat) (e : T.E) (numSiblings num : Nat) (answer : Int)
    (s : State σ T.E) : Option (State σ T.E) :=
  if answer = 1 then
    if cfg.recursive then do
      let r ← refineRecursive S cfg cb ltree s.considered ⟨children e, s.telements, s.inserted, s.removed, s.st⟩
      some { s with considered := s.considered + 1, inserted := r.inserted, coarsen := r.inserted, numChildren := T.nc e,
                    telements := r.telements, removed := r.removed, st := r.st }
    else do
      -- the children are written to the indices from `el_inserted` on
      assertO (s.inserted = s.telements.length)
      some { s with considered := s.considered + 1, inserted := s.inserted + T.nc e, numChildren := T.nc e,
                    telements := s.telements ++ children e }
  else if answer = -1 then do
    assertO (0 < T.level e)
    let s' ← tryCoarsen S cfg cb ltree (T.parent e)
      { s with telements := s.telements ++ [T.parent e], inserted := s.inserted + 1, numChildren := numSiblings }
    some { s' with considered := s'.considered + num }
  else if answer = 0 then do
    let s' ← tryCoarsen S cfg cb ltree e { s with telements := s.telements ++ [e], inserted := s.inserted + 1 }
    some { s' with considered := s'.considered + 1 }
  else do
    assertO (answer = -2)
    some { s with considered := s.considered + 1, removed := true }

/-- The body of the loop over the elements, t8_forest_adapt.cxx:464-624. -/
def elementBody (cfg : Cfg) (cb : Callback σ T.E) (ltree : Nat) (leaves : List T.E) (s : State σ T.E) :
    Option (State σ T.E) := do
  let e ← leaves[s.considered]?
  let numSiblings := S.numSiblings e
  let fam ← familySize S cfg ltree leaves s.considered numSiblings
  let num := if fam = 0 then 1 else fam
  assertO (num ≤ numSiblings)
  let (answer, st) := cb s.st ltree s.considered (decide (fam ≠ 0)) ((leaves.drop s.considered).take num)
  assertO (fam ≠ 0 ∨ answer ≠ -1)
  let answer := if answer > 0 ∧ (T.level e ≥ cfg.maxlevel ∨ S.isRefinable e = false) then 0 else answer
  applyAnswer S cfg cb ltree e numSiblings num answer { s with st }

/-- The adaptation of one tree, t8_forest_adapt.cxx:444-645: the new leaves, whether elements were removed and the state of
the callback. `maxChildren` is `get_max_num_children`. -/
def adaptTree (cfg : Cfg) (cb : Callback σ T.E) (ltree maxChildren : Nat) (leaves : List T.E) (removed : Bool) (st : σ) :
    Option (List T.E × Bool × σ) :=
  if 0 < leaves.length then do
    let r ← whileO (fun s : State σ T.E => some (decide (s.considered < leaves.length)))
      (elementBody S cfg cb ltree leaves) ⟨0, 0, 0, maxChildren, [], removed, st⟩
    let telements := r.telements.take r.inserted
    assertO (r.inserted ≠ 0)
    some (telements, r.removed, r.st)
  else some ([], removed, st)

/-- The loop over the trees in `t8_forest_adapt`, t8_forest_adapt.cxx:437-647, for the trees from `ltree` on: the new trees,
`element_removed` and the state of the callback. -/
def adaptTrees {C : Type} {T : C → RTree} (S : ∀ c, Scheme (T c)) (maxChildren : C → Nat) (cfg : Cfg)
    (cb : ∀ c, Callback σ (T c).E) : List (LocalTree T) → (ltree : Nat) → Bool → σ →
    Option (List (LocalTree T) × Bool × σ)
  | [], _, removed, st => some ([], removed, st)
  | t :: ts, ltree, removed, st => do
    let (leaves, removed, st) ← adaptTree (S t.cls) cfg (cb t.cls) ltree (maxChildren t.cls) t.leaves removed st
    let (rest, removed, st) ← adaptTrees S maxChildren cfg cb ts (ltree + 1) removed st
    some (⟨t.gtree, t.cls, leaves⟩ :: rest, removed, st)

/-- `t8_forest_adapt`, t8_forest_adapt.cxx:380-691, on one process: the new trees and the local part of the flag
`incomplete_trees` (all processes take the maximum). -/
def adapt {C : Type} {T : C → RTree} (S : ∀ c, Scheme (T c)) (maxChildren : C → Nat) (cfg : Cfg)
    (cb : ∀ c, Callback σ (T c).E) (trees : List (LocalTree T)) (st : σ) : Option (List (LocalTree T) × Bool × σ) := do
  let (trees, removed, st) ← adaptTrees S maxChildren { cfg with numTrees := trees.length } cb trees 0 false st
  some (trees, cfg.incomplete || removed, st)

end T8.Adapt
