/-
Specification: what a top-down search in a forest does.

The search is described by the record of the calls it makes: on which element the search callback is called, what it is told and
what it answers, and the same for each query. Nothing here mentions the recursion.
-/
import Verif.Spec.Element

namespace T8.Search

/-- What a callback is told: the local tree, the element, whether it is a leaf, the leaves below it and the index of the first of
them in the tree. -/
structure Call (T : RTree) where
  tree : Nat
  elem : T.E
  isLeaf : Bool
  leaves : List T.E
  index : Nat

/-- A recorded answer: of the search callback, or of the query callback for query `q`. -/
inductive Event (T : RTree)
  | check (c : Call T) (ret : Bool)
  | query (c : Call T) (q : Nat) (ret : Bool)

variable {T : RTree}

/-- The call in which an answer was given. -/
def Event.call : Event T → Call T
  | .check c _ => c
  | .query c _ _ => c

/-- `leaves` are exactly the elements of `ls` below `e`, and the first of them has position `index` in `ls`. -/
def PartBelow (ls : List T.E) (e : T.E) (leaves : List T.E) (index : Nat) : Prop :=
  ∃ A B, ls = A ++ leaves ++ B ∧ A.length = index ∧ (∀ x ∈ A, ¬ T.Desc e x) ∧ (∀ x ∈ leaves, T.Desc e x) ∧ ∀ x ∈ B, ¬ T.Desc e x

/-- A callback is told the truth; `ls` are the leaves of the tree. -/
def IsCall (tree : Nat) (ls : List T.E) (c : Call T) : Prop :=
  c.tree = tree ∧ (c.isLeaf = true ↔ c.elem ∈ ls) ∧ PartBelow ls c.elem c.leaves c.index

/-- The order of the record: along the curve, ancestors first; on one element the search callback comes first, then the queries
in ascending order. -/
def Earlier : Event T → Event T → Prop
  | .check c _, .check d _ => T.Lt c.elem d.elem
  | .check c _, .query d _ _ => T.Lt c.elem d.elem ∨ c.elem = d.elem
  | .query c _ _, .check d _ => T.Lt c.elem d.elem
  | .query c p _, .query d q _ => T.Lt c.elem d.elem ∨ (c.elem = d.elem ∧ p < q)

/-- The search callback was called on `e` and answered `r`. -/
def Checked (log : List (Event T)) (e : T.E) (r : Bool) : Prop := ∃ c, c.elem = e ∧ Event.check c r ∈ log

/-- Query `q` was tested on `e` with answer `r`. -/
def Tested (log : List (Event T)) (e : T.E) (q : Nat) (r : Bool) : Prop := ∃ c, c.elem = e ∧ Event.query c q r ∈ log

/-- The record `log` of a search in one tree with leaves `ls`, started at the element `e0`. `queries` is the list of queries if
there are queries. -/
structure Searched (tree : Nat) (ls : List T.E) (e0 : T.E) (queries : Option (List Nat)) (log : List (Event T)) : Prop where
  /-- Every callback is told the truth. -/
  calls : ∀ ev ∈ log, IsCall tree ls ev.call ∧ T.Desc e0 ev.call.elem
  /-- The calls are made in curve order; in particular no callback is called twice for the same element. -/
  order : log.Pairwise Earlier
  /-- The search callback is called on an element exactly if there are leaves below the element and on all ancestors the
  callback returned true and some query matched. -/
  checked : ∀ e, (∃ r, Checked log e r) ↔ T.Desc e0 e ∧ (∃ x ∈ ls, T.Desc e x) ∧ queries ≠ some [] ∧
    ∀ a, T.Desc e0 a → T.Desc a e → a ≠ e → Checked log a true ∧ (queries ≠ none → ∃ q, Tested log a q true)
  /-- A query is tested on an element exactly if the search callback accepted the element and the query matched on all
  ancestors. -/
  tested : ∀ e q, (∃ r, Tested log e q r) ↔ (∃ l, queries = some l ∧ q ∈ l) ∧ Checked log e true ∧
    ∀ a, T.Desc e0 a → T.Desc a e → a ≠ e → Tested log a q true

/-! ### Answers -/

/-- The answers to a list of active queries: `matched i` is the answer to the one at position `i`. -/
def answers (c : Call T) (active : List Nat) (matched : Nat → Bool) : List (Event T) :=
  active.zipIdx.map (fun p => .query c p.1 (matched p.2))

section
variable {C : Type} {T : C → RTree}

/-- The calls and answers so far, with the class of the tree. -/
abbrev History (T : C → RTree) := List (Σ c, Event (T c))

/-- A search callback, `t8_forest_search_fn` in src/t8_forest/t8_forest_iterate.h. Its answer may depend on everything that
happened before. -/
abbrev SearchFn (T : C → RTree) := History T → (c : C) → Call (T c) → Bool

/-- A query callback, `t8_forest_query_fn` in src/t8_forest/t8_forest_iterate.h: it is given the active queries and writes
`query_matches[i]` for every position `i` in this list. -/
abbrev QueryFn (T : C → RTree) := History T → (c : C) → Call (T c) → List Nat → Nat → Bool

/-- A callback for one query, `t8_search_query_callback`, src/t8_forest/t8_forest_search/t8_forest_search.hxx:82-84. -/
abbrev OneQueryFn (T : C → RTree) := History T → (c : C) → Call (T c) → Nat → Bool

/-- The answers of record `log`, which follows the history `h`, are those of the callbacks. The queries are answered together,
right after the search callback accepted the element. -/
inductive Answered (search : SearchFn T) (query : Option (QueryFn T)) (cls : C) : History T → List (Event (T cls)) → Prop
  | nil (h) : Answered search query cls h []
  | check (h) (c : Call (T cls)) (log) : query = none ∨ search h cls c = false →
      Answered search query cls (h ++ [⟨cls, .check c (search h cls c)⟩]) log →
      Answered search query cls h (.check c (search h cls c) :: log)
  | accept (h) (c : Call (T cls)) (f) (active) (batch log) : query = some f → search h cls c = true →
      batch = answers c active (f (h ++ [⟨cls, .check c true⟩]) cls c active) →
      Answered search query cls (h ++ ⟨cls, .check c true⟩ :: batch.map (Sigma.mk cls)) log →
      Answered search query cls h (.check c true :: (batch ++ log))

/-- The answers of record `log`, which follows the history `h`, are those of the callbacks; every query is answered on its own. -/
inductive OneAnswered (search : SearchFn T) (query : OneQueryFn T) (cls : C) : History T → List (Event (T cls)) → Prop
  | nil (h) : OneAnswered search query cls h []
  | check (h) (c : Call (T cls)) (log) : OneAnswered search query cls (h ++ [⟨cls, .check c (search h cls c)⟩]) log →
      OneAnswered search query cls h (.check c (search h cls c) :: log)
  | query (h) (c : Call (T cls)) (q log) : OneAnswered search query cls (h ++ [⟨cls, .query c q (query h cls c q)⟩]) log →
      OneAnswered search query cls h (.query c q (query h cls c q) :: log)

/-- The record `log` of a search in a forest that follows the history `h`: tree by tree, starting with number `itree`; a tree is given by
its class and its leaves. Every tree is searched from the nearest common ancestor of its first and its last leaf. -/
inductive ForestSearched (search : SearchFn T) (query : Option (QueryFn T)) (queries : Option (List Nat)) :
    (itree : Nat) → List (Σ c, List (T c).E) → (h log : History T) → Prop
  | nil (itree h) : ForestSearched search query queries itree [] h []
  | cons (itree : Nat) (cls : C) (ls : List (T cls).E) (trees) (h) (x y e0 : (T cls).E) (log rest) : ls.head? = some x →
      ls.getLast? = some y → (T cls).Valid e0 → (T cls).IsNca e0 x y → Searched itree ls e0 queries log →
      Answered search query cls h log →
      ForestSearched search query queries (itree + 1) trees (h ++ log.map (Sigma.mk cls)) rest →
      ForestSearched search query queries itree (⟨cls, ls⟩ :: trees) h (log.map (Sigma.mk cls) ++ rest)

/-- The same for queries that are answered one by one. -/
inductive ForestOneSearched (search : SearchFn T) (query : OneQueryFn T) (queries : List Nat) :
    (itree : Nat) → List (Σ c, List (T c).E) → (h log : History T) → Prop
  | nil (itree h) : ForestOneSearched search query queries itree [] h []
  | cons (itree : Nat) (cls : C) (ls : List (T cls).E) (trees) (h) (x y e0 : (T cls).E) (log rest) : ls.head? = some x →
      ls.getLast? = some y → (T cls).Valid e0 → (T cls).IsNca e0 x y → Searched itree ls e0 (some queries) log →
      OneAnswered search query cls h log →
      ForestOneSearched search query queries (itree + 1) trees (h ++ log.map (Sigma.mk cls)) rest →
      ForestOneSearched search query queries itree (⟨cls, ls⟩ :: trees) h (log.map (Sigma.mk cls) ++ rest)

end

end T8.Search
