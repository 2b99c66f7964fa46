/-
Model of the top-down search in a forest: `t8_forest_search`, src/t8_forest/t8_forest_iterate.cxx:222-402, and the classes of
src/t8_forest/t8_forest_search/.

User callbacks are arbitrary functions of everything that happened before: they are given the history of all calls and answers of
this search, so they can represent callbacks with any internal state. The functions return the history. Memory management is not
modelled.
-/
import Verif.Model.LeafSearch
import Verif.Model.Populate
import Verif.Spec.Search

namespace T8.Search
open T8.Leaf T8.Populate

variable {C : Type} {T : C → RTree}

/-- The test whether the element is the only leaf, t8_forest_iterate.cxx:248-263 and t8_forest_search.cxx:54-69. `all` are the
leaves of the tree, `leaves` those handed down. -/
def isOnlyLeaf {T : RTree} (S : Scheme T) (all : List T.E) (element : T.E) (leaves : List T.E) : Option Bool :=
  if leaves.length = 1 then do
    let leaf ← rd leaves 0
    -- SC_CHECK_ABORT
    assertO (T.level element ≤ T.level leaf)
    if T.level element = T.level leaf then do
      let r ← arrayFind S all leaf
      assertO (r ≥ 0)
      assertO (S.isEqual element leaf = true)
      some true
    else some false
  else some false

/-- The loop collecting the active queries that matched, t8_forest_iterate.cxx:285-290. -/
def matching (active : List Nat) (matched : Nat → Bool) : List Nat :=
  (active.zipIdx.filter (fun p => matched p.2)).map Prod.fst

/-- The queries of `t8_forest_search_recursion`, t8_forest_iterate.cxx:272-292: the new history and the new active queries. -/
def testQueries (query : Option (QueryFn T)) (cls : C) (c : Call (T cls)) (active : List Nat) (h : History T) :
    History T × List Nat :=
  match query with
  | none => (h, [])
  | some f =>
    let matched := f h cls c active
    (h ++ (answers c active matched).map (Sigma.mk cls), if c.isLeaf then [] else matching active matched)

/-- `t8_forest_search_recursion`, t8_forest_iterate.cxx:222-335. `query` is `none` if `queries` and `query_fn` are null pointers. -/
def searchRecursion (S : ∀ c, Scheme (T c)) (search : SearchFn T) (query : Option (QueryFn T)) (ltreeid : Nat) (cls : C)
    (all : List (T cls).E) (element : (T cls).E) (leaves : List (T cls).E) (first : Nat) (active : List Nat) (h : History T) :
    Option (History T) :=
  if leaves.length = 0 then some h
  else
    let numActive := if query.isNone then 0 else active.length
    if query.isSome ∧ numActive = 0 then some h
    else do
      let isLeaf ← isOnlyLeaf (S cls) all element leaves
      let c : Call (T cls) := ⟨ltreeid, element, isLeaf, leaves, first⟩
      let ret := search h cls c
      let h1 := h ++ [⟨cls, .check c ret⟩]
      if !ret then some h1
      else
        let q := testQueries query cls c active h1
        if isLeaf then some q.1
        else if numActive > 0 ∧ q.2.length = 0 then some q.1
        else do
          let offsets ← splitArray (S cls) element leaves
          (List.range ((T cls).nc element)).foldlM (fun h i => do
              let indexa ← offsets[i]?
              let indexb ← offsets[i + 1]?
              if indexa < indexb then
                searchRecursion S search query ltreeid cls all ((T cls).child element i)
                  ((leaves.drop indexa).take (indexb - indexa)) (indexa + first) q.2 h
              else some h) q.1
partial_fixpoint

/-- `t8_forest_search_tree`, t8_forest_iterate.cxx:347-372. -/
def searchTree (S : ∀ c, Scheme (T c)) (search : SearchFn T) (query : Option (QueryFn T)) (active : List Nat) (ltreeid : Nat)
    (t : LocalTree T) (h : History T) : Option (History T) := do
  let first ← rd t.leaves 0
  let last ← rd t.leaves ((t.leaves.length : Int) - 1)
  let nca ← (S t.cls).nca first last
  searchRecursion S search query ltreeid t.cls t.leaves nca t.leaves 0 active h

/-- The loop over the local trees, numbered from `itree`: t8_forest_iterate.cxx:393-396. -/
def searchTrees (S : ∀ c, Scheme (T c)) (search : SearchFn T) (query : Option (QueryFn T)) (active : List Nat) :
    (itree : Nat) → List (LocalTree T) → History T → Option (History T)
  | _, [], h => some h
  | itree, t :: trees, h => do
    let h' ← searchTree S search query active itree t h
    searchTrees S search query active (itree + 1) trees h'

/-- `t8_forest_search`, t8_forest_iterate.cxx:374-402. `queries` are the query callback and the number of queries. -/
def search (S : ∀ c, Scheme (T c)) (search : SearchFn T) (queries : Option (QueryFn T × Nat)) (trees : List (LocalTree T)) :
    Option (History T) :=
  match queries with
  | none => searchTrees S search none [] 0 trees []
  | some (f, numQueries) => searchTrees S search (some f) (List.range numQueries) 0 trees []

/-! ### The search classes -/

/-- The virtual functions of `t8_search_base` (t8_forest_search.hxx:262-328) that concern queries, as functions of the member
`active_queries`. -/
structure QueryMethods (T : C → RTree) where
  /-- `stop_due_to_queries` -/
  stop : List Nat → Bool
  /-- `check_queries`: the new history and `new_active_queries`. -/
  check : (cls : C) → Call (T cls) → List Nat → History T → History T × List Nat
  /-- `update_queries`: the new `active_queries`. -/
  update : List Nat → List Nat → List Nat
  /-- `init_queries`: the new `active_queries`. -/
  init : List Nat → List Nat

/-- `t8_search`, t8_forest_search.hxx:335-445: no queries. -/
def noQueries : QueryMethods T where
  stop _ := false
  check _ _ _ h := (h, [])
  update active _ := active
  init active := active

/-- `std::copy_if` over the active queries, calling the callback for each of them, t8_forest_search.hxx:516-522. -/
def copyMatching (f : OneQueryFn T) (cls : C) (c : Call (T cls)) : List Nat → History T → History T × List Nat
  | [], h => (h, [])
  | q :: qs, h =>
    let r := f h cls c q
    let p := copyMatching f cls c qs (h ++ [⟨cls, .query c q r⟩])
    (p.1, if r then q :: p.2 else p.2)

/-- `t8_search_with_queries`, t8_forest_search.hxx:456-560. -/
def withQueries (f : OneQueryFn T) (numQueries : Nat) : QueryMethods T where
  stop active := active.isEmpty
  check cls c active h := if !active.isEmpty then copyMatching f cls c active h else (h, [])
  update _ new := new
  init _ := List.range numQueries

/-- A callback for a batch of queries, `t8_search_batched_queries_callback`, t8_forest_search.hxx:105-108: it is given the active queries and
writes `query_matches[q]` for the queries `q`. -/
abbrev BatchedQueryFn (T : C → RTree) := History T → (c : C) → Call (T c) → List Nat → Nat → Bool

/-- `t8_search_with_batched_queries`, t8_forest_search.hxx:570-668. -/
def withBatchedQueries (f : BatchedQueryFn T) (numQueries : Nat) : QueryMethods T where
  stop active := active.isEmpty
  check cls c active h :=
    if !active.isEmpty then
      let queryMatches := f h cls c active
      (h ++ active.map (fun q => ⟨cls, .query c q (queryMatches q)⟩), active.filter queryMatches)
    else (h, [])
  update _ new := new
  init _ := List.range numQueries

/-- `t8_search_base::search_recursion`, t8_forest_search.cxx:35-117. The history and `active_queries` are threaded through. -/
def baseRecursion (S : ∀ c, Scheme (T c)) (search : SearchFn T) (M : QueryMethods T) (ltreeid : Nat) (cls : C)
    (all : List (T cls).E) (element : (T cls).E) (leaves : List (T cls).E) (first : Nat) (s : History T × List Nat) :
    Option (History T × List Nat) :=
  if leaves.length = 0 then some s
  else if M.stop s.2 then some s
  else do
    let isLeaf ← isOnlyLeaf (S cls) all element leaves
    let c : Call (T cls) := ⟨ltreeid, element, isLeaf, leaves, first⟩
    let ret := search s.1 cls c
    let h1 := s.1 ++ [⟨cls, .check c ret⟩]
    if !ret then some (h1, s.2)
    else
      let q := M.check cls c s.2 h1
      if isLeaf then some (q.1, s.2)
      else do
        let offsets ← splitArray (S cls) element leaves
        (List.range ((T cls).nc element)).foldlM (fun (s : History T × List Nat) i => do
            let indexa ← offsets[i]?
            let indexb ← offsets[i + 1]?
            if indexa < indexb then
              baseRecursion S search M ltreeid cls all ((T cls).child element i)
                ((leaves.drop indexa).take (indexb - indexa)) (indexa + first) (s.1, M.update s.2 q.2)
            else some s) (q.1, s.2)
partial_fixpoint

/-- `t8_search_base::search_tree`, t8_forest_search.cxx:119-141. -/
def baseTree (S : ∀ c, Scheme (T c)) (search : SearchFn T) (M : QueryMethods T) (ltreeid : Nat) (t : LocalTree T)
    (s : History T × List Nat) : Option (History T × List Nat) := do
  let first ← rd t.leaves 0
  let last ← rd t.leaves ((t.leaves.length : Int) - 1)
  let nca ← (S t.cls).nca first last
  baseRecursion S search M ltreeid t.cls t.leaves nca t.leaves 0 s

/-- `t8_search_base::do_search`, t8_forest_search.cxx:143-152, from tree `itree` on. -/
def baseTrees (S : ∀ c, Scheme (T c)) (search : SearchFn T) (M : QueryMethods T) :
    (itree : Nat) → List (LocalTree T) → History T × List Nat → Option (History T × List Nat)
  | _, [], s => some s
  | itree, t :: trees, s => do
    let s' ← baseTree S search M itree t (s.1, M.init s.2)
    baseTrees S search M (itree + 1) trees s'

/-- `t8_search_base::do_search`, t8_forest_search.cxx:143-152, for an object whose `active_queries` are `active`. -/
def doSearch (S : ∀ c, Scheme (T c)) (search : SearchFn T) (M : QueryMethods T) (active : List Nat) (trees : List (LocalTree T)) :
    Option (History T) := do
  let s ← baseTrees S search M 0 trees ([], active)
  some s.1

end T8.Search
