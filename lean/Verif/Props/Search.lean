/-
C33: the top-down search in a forest, and the search classes.
-/
import Verif.Lemmas.Search
import Verif.Lemmas.Sample

namespace T8.Search
open T8.RTree T8.Leaf T8.Populate

/-! ### What the record says about leaves -/

section
variable {T : RTree} {tree : Nat} {ls : List T.E} {e0 : T.E} {queries : Option (List Nat)} {log : List (Event T)}

/-- **C33**: no callback is called twice on the same element. -/
theorem C33_once (h0 : T.Valid e0) (h : Searched tree ls e0 queries log) :
    (∀ (i j : Nat) (c d : Call T) (r s : Bool), log[i]? = some (.check c r) → log[j]? = some (.check d s) → c.elem = d.elem → i = j) ∧
    ∀ (i j : Nat) (c d : Call T) (q : Nat) (r s : Bool), log[i]? = some (.query c q r) → log[j]? = some (.query d q s) →
      c.elem = d.elem → i = j := by
  have hlt : ∀ x, T.Valid x → ¬ T.Lt x x := ltTotalOrder.1
  have hv : ∀ ev ∈ log, T.Valid ev.call.elem := fun ev hm => ((h.calls ev hm).2).valid h0
  have hp := List.pairwise_iff_getElem.1 h.order
  have key : ∀ {i j : Nat} {x y : Event T}, i < j → log[i]? = some x → log[j]? = some y → Earlier x y := by
    intro i j x y hij hi hj
    obtain ⟨hi', rfl⟩ := List.getElem?_eq_some_iff.1 hi
    obtain ⟨hj', rfl⟩ := List.getElem?_eq_some_iff.1 hj
    exact hp i j hi' hj' hij
  constructor
  · intro i j c d r s hi hj hcd
    rcases Nat.lt_trichotomy i j with hij | hij | hij
    · have : T.Lt c.elem d.elem := key hij hi hj
      rw [hcd] at this
      exact absurd this (hlt _ (hv _ (List.mem_of_getElem? hj)))
    · exact hij
    · have : T.Lt d.elem c.elem := key hij hj hi
      rw [hcd] at this
      exact absurd this (hlt _ (hv _ (List.mem_of_getElem? hj)))
  · intro i j c d q r s hi hj hcd
    rcases Nat.lt_trichotomy i j with hij | hij | hij
    · have : T.Lt c.elem d.elem ∨ (c.elem = d.elem ∧ q < q) := key hij hi hj
      rw [hcd] at this
      rcases this with h | h
      · exact absurd h (hlt _ (hv _ (List.mem_of_getElem? hj)))
      · omega
    · exact hij
    · have : T.Lt d.elem c.elem ∨ (d.elem = c.elem ∧ q < q) := key hij hj hi
      rw [hcd] at this
      rcases this with h | h
      · exact absurd h (hlt _ (hv _ (List.mem_of_getElem? hj)))
      · omega

/-- **C33**: a search without queries calls the callback on a leaf exactly if it did not reject an ancestor of the leaf; the callback
is told that the element is a leaf, and its index. -/
theorem C33_leaf (h0 : T.Valid e0) (hall : ∀ x ∈ ls, T.Desc e0 x) (h : Searched tree ls e0 none log) {k : Nat} {x : T.E}
    (hk : ls[k]? = some x) (ho : T.Ordered ls) :
    ((∃ r, Checked log x r) ↔ ∀ a, T.Desc a x → a ≠ x → ¬ Checked log a false) ∧
    ∀ c r, Event.check c r ∈ log → c.elem = x → c.isLeaf = true ∧ c.index = k := by
  have hx := List.mem_of_getElem? hk
  have hdx := hall x hx
  have honce := (C33_once h0 h).1
  constructor
  · constructor
    · intro hc a hax hne ⟨c, hce, hm⟩
      have hd := (h.calls _ hm).2
      rw [show (Event.check c false).call.elem = a from hce] at hd
      obtain ⟨⟨d, hde, hm'⟩, _⟩ := ((h.checked x).1 hc).2.2.2 a hd hax hne
      obtain ⟨i, hi⟩ := List.getElem?_of_mem hm
      obtain ⟨j, hj⟩ := List.getElem?_of_mem hm'
      have := honce i j _ _ _ _ hi hj (hce.trans hde.symm)
      subst this
      rw [hi] at hj
      cases hj
    · intro hno
      -- every ancestor is checked and accepted
      have key : ∀ n a, T.level a = n → T.Desc e0 a → T.Desc a x → ∃ r, Checked log a r := by
        intro n
        induction n using Nat.strongRecOn with
        | _ n ih =>
        intro a hn hda hax
        refine (h.checked a).2 ⟨hda, ⟨x, hx, hax⟩, by simp, ?_⟩
        intro b hdb hba hne
        refine ⟨?_, by simp⟩
        have hvb := hdb.valid h0
        have hlev : T.level b < T.level a := by
          have := hba.level_le hvb
          rcases Nat.lt_or_ge (T.level b) (T.level a) with h | h
          · exact h
          · exact absurd (hba.eq_of_level hvb h).symm hne
        obtain ⟨r, hr⟩ := ih _ (by omega) b rfl hdb (hba.trans hax)
        cases r with
        | true => exact hr
        | false =>
          refine absurd hr (hno b (hba.trans hax) ?_)
          intro hbx
          subst hbx
          have := hax.level_le (hda.valid h0)
          omega
      exact key _ x rfl hdx Desc.refl
  · intro c r hm hce
    obtain ⟨_, h2, A, B, h3, h4, h5, h6, h7⟩ := (h.calls _ hm).1
    simp only [Event.call] at h2 h3 h4 h5 h6 h7
    rw [hce] at h2 h5 h6 h7
    refine ⟨h2.2 hx, ?_⟩
    have hl : c.leaves = [x] := PartBelow.leaf (first := c.index) ⟨A, B, h3, h4, h5, h6, h7⟩ ho hx
    refine pos_unique ho.nodup ?_ hk
    rw [h3, hl, ← h4]
    simp

end

/-! ### The search -/

section
variable {C : Type} {T : C → RTree} {S : ∀ c, Scheme (T c)}

/-- The class and the leaves of a local tree. -/
def treeOf (t : LocalTree T) : Σ c, List (T c).E := ⟨t.cls, t.leaves⟩

/-- The leaves of the local trees of a process: each tree has some, and they are in curve order. -/
def Trees (trees : List (LocalTree T)) : Prop := ∀ t ∈ trees, t.leaves ≠ [] ∧ (T t.cls).Ordered t.leaves

theorem first_last {T : RTree} {S : Scheme T} (hS : S.Lawful) {ls : List T.E} (hne : ls ≠ []) (ho : T.Ordered ls) :
    ∃ x y e0, rd ls 0 = some x ∧ rd ls ((ls.length : Int) - 1) = some y ∧ S.nca x y = some e0 ∧ ls.head? = some x ∧
      ls.getLast? = some y ∧ T.Valid e0 ∧ T.IsNca e0 x y ∧ ∀ z ∈ ls, T.Desc e0 z := by
  have hpos : 0 < ls.length := List.length_pos_iff.2 hne
  have hx : ls[0]? = some ls[0] := List.getElem?_eq_getElem hpos
  have hy : ls[ls.length - 1]? = some ls[ls.length - 1] := List.getElem?_eq_getElem (by omega)
  obtain ⟨e0, h1, h2, h3⟩ := hS.nca ls[0] ls[ls.length - 1] (ho.1 _ (List.getElem_mem _)) (ho.1 _ (List.getElem_mem _))
  refine ⟨_, _, e0, rd_cast (k := 0) hx, ?_, h1, ?_, ?_, h2, h3, nca_all ho hx hy h2 h3⟩
  · have := rd_cast (k := ls.length - 1) hy
    rwa [show ((ls.length - 1 : Nat) : Int) = (ls.length : Int) - 1 by omega] at this
  · rw [List.head?_eq_getElem?, hx]
  · rw [List.getLast?_eq_getElem?, hy]

theorem searchTrees_spec (hS : ∀ c, (S c).Lawful) (search : SearchFn T) (query : Option (QueryFn T)) {active : List Nat}
    (hact : active.Pairwise (· < ·)) : ∀ (trees : List (LocalTree T)) (itree : Nat) (h : History T), Trees trees →
    ∃ log, searchTrees S search query active itree trees h = some (h ++ log) ∧
      ForestSearched search query (query.map (fun _ => active)) itree (trees.map treeOf) h log
  | [], itree, h, _ => ⟨[], by simp [searchTrees], ForestSearched.nil itree h⟩
  | t :: trees, itree, h, ht => by
    obtain ⟨hne, ho⟩ := ht t (by simp)
    obtain ⟨x, y, e0, h1, h2, h3, h4, h5, h6, h7, h8⟩ := first_last (hS t.cls) hne ho
    obtain ⟨log, r1, r2, r3⟩ := searchRecursion_spec hS search query itree t.cls ho (active := active) h rfl h6
      (PartBelow.all h8) hact
    obtain ⟨rest, k1, k2⟩ := searchTrees_spec hS search query hact trees (itree + 1) (h ++ log.map (Sigma.mk t.cls))
      (fun t' ht' => ht t' (by simp [ht']))
    have hf := ForestSearched.cons itree t.cls t.leaves _ h x y e0 log rest h4 h5 h6 h7 r2 r3 k2
    refine ⟨_, ?_, hf⟩
    rw [searchTrees, searchTree, h1, h2]
    simp only [Option.bind_eq_bind, Option.bind_some]
    rw [h3]
    simp only [Option.bind_some]
    rw [r1]
    simp only [Option.bind_some]
    rw [k1, List.append_assoc]

/-- **C33**: `t8_forest_search` without queries terminates and makes exactly the calls it should. -/
theorem C33_search (hS : ∀ c, (S c).Lawful) (callback : SearchFn T) {trees : List (LocalTree T)} (ht : Trees trees) :
    ∃ log, search S callback none trees = some log ∧ ForestSearched callback none none 0 (trees.map treeOf) [] log := by
  obtain ⟨log, h1, h2⟩ := searchTrees_spec hS callback none (active := []) List.Pairwise.nil trees 0 [] ht
  exact ⟨log, h1, h2⟩

/-- **C33**: `t8_forest_search` with `n` queries. -/
theorem C33_search_queries (hS : ∀ c, (S c).Lawful) (callback : SearchFn T) (query : QueryFn T) (n : Nat)
    {trees : List (LocalTree T)} (ht : Trees trees) :
    ∃ log, search S callback (some (query, n)) trees = some log ∧
      ForestSearched callback (some query) (some (List.range n)) 0 (trees.map treeOf) [] log := by
  obtain ⟨log, h1, h2⟩ := searchTrees_spec hS callback (some query) (active := List.range n) List.pairwise_lt_range trees 0 [] ht
  exact ⟨log, h1, h2⟩

/-- **C33**: a tree without leaves is not allowed: its first leaf is read. -/
theorem C33_empty_tree (callback : SearchFn T) (queries : Option (QueryFn T × Nat)) {t : LocalTree T} (ht : t.leaves = [])
    (trees : List (LocalTree T)) : search S callback queries (t :: trees) = none := by
  have h : ∀ q a, searchTree S callback q a 0 t [] = none := by
    intro q a
    rw [searchTree, ht]
    rfl
  cases queries with
  | none => simp [search, searchTrees, h]
  | some p => simp [search, searchTrees, h]

/-! ### The search classes -/

theorem baseTrees_spec (hS : ∀ c, (S c).Lawful) (search : SearchFn T) {M : QueryMethods T} {query : Option (QueryFn T)}
    (hM : Simulates M query) {queries : List Nat} (hinit : query ≠ none → ∀ a, M.init a = queries)
    (hq : queries.Pairwise (· < ·)) : ∀ (trees : List (LocalTree T)) (itree : Nat) (s : History T × List Nat), Trees trees →
    ∃ s' log, baseTrees S search M itree trees s = some s' ∧ s'.1 = s.1 ++ log ∧
      ForestSearched search query (query.map (fun _ => queries)) itree (trees.map treeOf) s.1 log
  | [], itree, s, _ => ⟨s, [], rfl, by simp, ForestSearched.nil itree s.1⟩
  | t :: trees, itree, s, ht => by
    obtain ⟨hne, ho⟩ := ht t (by simp)
    obtain ⟨x, y, e0, h1, h2, h3, h4, h5, h6, h7, h8⟩ := first_last (hS t.cls) hne ho
    obtain ⟨s1, log, r1, r2, r3, r4⟩ := baseRecursion_spec hS search hM itree t.cls ho (s.1, M.init s.2) rfl h6 (PartBelow.all h8)
      (fun hn => by dsimp only; rw [hinit hn]; exact hq)
    obtain ⟨s2, rest, k1, k2, k3⟩ := baseTrees_spec hS search hM hinit hq trees (itree + 1) s1 (fun t' ht' => ht t' (by simp [ht']))
    have r3' : Searched itree t.leaves e0 (query.map (fun _ => queries)) log := by
      cases query with
      | none => exact r3
      | some f =>
        rw [hinit (by simp)] at r3
        exact r3
    dsimp only at r2
    rw [r2] at k3
    have hf := ForestSearched.cons itree t.cls t.leaves _ s.1 x y e0 log rest h4 h5 h6 h7 r3' r4 k3
    refine ⟨s2, _, ?_, ?_, hf⟩
    · rw [baseTrees, baseTree, h1, h2]
      simp only [Option.bind_eq_bind, Option.bind_some]
      rw [h3]
      simp only [Option.bind_some]
      rw [r1]
      simp only [Option.bind_some]
      exact k1
    · rw [k2, r2, List.append_assoc]

theorem answers_cons {T : RTree} {c : Call T} {q : Nat} {qs : List Nat} {m : Nat → Bool} :
    answers c (q :: qs) m = .query c q (m 0) :: answers c qs (fun i => m (i + 1)) := by
  simp only [answers, List.zipIdx_cons, List.map_cons]
  rw [List.zipIdx_succ, List.map_map]
  rfl

theorem matching_cons {q : Nat} {qs : List Nat} {m : Nat → Bool} :
    matching (q :: qs) m = if m 0 then q :: matching qs (fun i => m (i + 1)) else matching qs (fun i => m (i + 1)) := by
  simp only [matching, List.zipIdx_cons, List.filter_cons]
  rw [List.zipIdx_succ, List.filter_map]
  split <;> simp [Function.comp_def]

/-- The answers that a callback for single queries gives to a list of queries. -/
def batchOf (f : OneQueryFn T) (h : History T) (cls : C) (c : Call (T cls)) : List Nat → Nat → Bool
  | [], _ => false
  | q :: _, 0 => f h cls c q
  | q :: qs, i + 1 => batchOf f (h ++ [⟨cls, .query c q (f h cls c q)⟩]) cls c qs i

theorem copyMatching_eq (f : OneQueryFn T) (cls : C) (c : Call (T cls)) : ∀ (active : List Nat) (h : History T),
    copyMatching f cls c active h =
      (h ++ (answers c active (batchOf f h cls c active)).map (Sigma.mk cls), matching active (batchOf f h cls c active))
  | [], h => by simp [copyMatching, answers, matching]
  | q :: qs, h => by
    rw [copyMatching, copyMatching_eq f cls c qs, answers_cons, matching_cons]
    simp only [batchOf, List.map_cons, List.append_assoc, List.singleton_append]
    rfl

theorem noQueries_simulates : Simulates (noQueries (T := T)) none where
  none_stop _ _ := rfl
  none_check _ _ _ _ _ := rfl
  some_stop h := absurd rfl h
  some_check _ h := by cases h
  some_update h := absurd rfl h

theorem withQueries_simulates (f : OneQueryFn T) (n : Nat) : Simulates (withQueries f n) (some (batchOf f)) where
  none_stop h := by cases h
  none_check h := by cases h
  some_stop _ _ := rfl
  some_check f' hf cls c active h hne := by
    cases hf
    rw [← copyMatching_eq]
    cases active with
    | nil => exact absurd rfl hne
    | cons q qs => rfl
  some_update _ _ _ := rfl

/-- A callback for a batch of queries, which writes its answers at the numbers of the queries, as one that writes them at the positions
in the list of active queries. -/
def byPosition (f : BatchedQueryFn T) : QueryFn T := fun h cls c active i => f h cls c active (active.getD i 0)

theorem answers_byPosition {T : RTree} {c : Call T} {m : Nat → Bool} : ∀ {active : List Nat},
    answers c active (fun i => m (active.getD i 0)) = active.map (fun q => .query c q (m q)) ∧
      matching active (fun i => m (active.getD i 0)) = active.filter m
  | [] => ⟨rfl, rfl⟩
  | q :: qs => by
    rw [answers_cons, matching_cons]
    have := answers_byPosition (T := T) (c := c) (m := m) (active := qs)
    simp only [List.getD_cons_zero, List.getD_cons_succ, this.1, this.2, List.map_cons, List.filter_cons]
    exact ⟨trivial, trivial⟩

theorem withBatchedQueries_simulates (f : BatchedQueryFn T) (n : Nat) :
    Simulates (withBatchedQueries f n) (some (byPosition f)) where
  none_stop h := by cases h
  none_check h := by cases h
  some_stop _ _ := rfl
  some_check f' hf cls c active h hne := by
    cases hf
    obtain ⟨h1, h2⟩ := answers_byPosition (c := c) (m := f h cls c active) (active := active)
    have e1 : byPosition f h cls c active = fun i => f h cls c active (active.getD i 0) := rfl
    rw [e1, h1, h2, List.map_map]
    cases active with
    | nil => exact absurd rfl hne
    | cons q qs => rfl
  some_update _ _ _ := rfl

/-- **C33**: `t8_search` makes exactly the calls it should. -/
theorem C33_class (hS : ∀ c, (S c).Lawful) (callback : SearchFn T) (active : List Nat) {trees : List (LocalTree T)} (ht : Trees trees) :
    ∃ log, doSearch S callback noQueries active trees = some log ∧
      ForestSearched callback none none 0 (trees.map treeOf) [] log := by
  obtain ⟨s, log, h1, h2, h3⟩ := baseTrees_spec hS callback noQueries_simulates (queries := []) (fun h => absurd rfl h)
    List.Pairwise.nil trees 0 ([], active) ht
  refine ⟨log, ?_, h3⟩
  rw [doSearch, h1]
  simp only [Option.bind_eq_bind, Option.bind_some, h2]
  rfl

theorem OneAnswered.answers {search : SearchFn T} {f : OneQueryFn T} {cls : C} {c : Call (T cls)} {log : List (Event (T cls))} :
    ∀ {active : List Nat} {h : History T},
    OneAnswered search f cls (h ++ (Search.answers c active (batchOf f h cls c active)).map (Sigma.mk cls)) log →
    OneAnswered search f cls h (Search.answers c active (batchOf f h cls c active) ++ log)
  | [], h, hl => by simpa [Search.answers] using hl
  | q :: qs, h, hl => by
    rw [answers_cons] at hl ⊢
    simp only [batchOf] at hl ⊢
    refine OneAnswered.query h c q _ (OneAnswered.answers ?_)
    simpa using hl

theorem Answered.one {search : SearchFn T} {f : OneQueryFn T} {cls : C} {h : History T} {log : List (Event (T cls))}
    (hl : Answered search (some (batchOf f)) cls h log) : OneAnswered search f cls h log := by
  induction hl with
  | nil h => exact OneAnswered.nil h
  | check h c log _ _ ih => exact OneAnswered.check h c log ih
  | accept h c f' active batch log hf hs hb _ ih =>
    cases hf
    subst hb
    have h1 := OneAnswered.check (search := search) (query := f) h c
      (Search.answers c active (batchOf f (h ++ [⟨cls, Event.check c true⟩]) cls c active) ++ log)
    rw [hs] at h1
    exact h1 (OneAnswered.answers (by simpa using ih))

theorem ForestSearched.one {search : SearchFn T} {f : OneQueryFn T} {queries : List Nat} {itree : Nat} {trees : List (Σ c, List (T c).E)}
    {h log : History T} (hl : ForestSearched search (some (batchOf f)) (some queries) itree trees h log) :
    ForestOneSearched search f queries itree trees h log := by
  induction hl with
  | nil itree h => exact ForestOneSearched.nil itree h
  | cons itree cls ls trees h x y e0 log rest h1 h2 h3 h4 h5 h6 _ ih =>
    exact ForestOneSearched.cons itree cls ls trees h x y e0 log rest h1 h2 h3 h4 h5 h6.one ih

/-- **C33**: `t8_search_with_queries` makes exactly the calls it should. -/
theorem C33_class_queries (hS : ∀ c, (S c).Lawful) (callback : SearchFn T) (query : OneQueryFn T) (n : Nat) (active : List Nat)
    {trees : List (LocalTree T)} (ht : Trees trees) :
    ∃ log, doSearch S callback (withQueries query n) active trees = some log ∧
      ForestOneSearched callback query (List.range n) 0 (trees.map treeOf) [] log := by
  obtain ⟨s, log, h1, h2, h3⟩ := baseTrees_spec hS callback (withQueries_simulates query n) (queries := List.range n)
    (fun _ _ => rfl) List.pairwise_lt_range trees 0 ([], active) ht
  refine ⟨log, ?_, h3.one⟩
  rw [doSearch, h1]
  simp only [Option.bind_eq_bind, Option.bind_some, h2]
  rfl

/-- **C33**: `t8_search_with_batched_queries` makes exactly the calls it should. -/
theorem C33_class_batched (hS : ∀ c, (S c).Lawful) (callback : SearchFn T) (query : BatchedQueryFn T) (n : Nat) (active : List Nat)
    {trees : List (LocalTree T)} (ht : Trees trees) :
    ∃ log, doSearch S callback (withBatchedQueries query n) active trees = some log ∧
      ForestSearched callback (some (fun h cls c active i => query h cls c active (active.getD i 0))) (some (List.range n)) 0
        (trees.map treeOf) [] log := by
  obtain ⟨s, log, h1, h2, h3⟩ := baseTrees_spec hS callback (withBatchedQueries_simulates query n) (queries := List.range n)
    (fun _ _ => rfl) List.pairwise_lt_range trees 0 ([], active) ht
  refine ⟨log, ?_, h3⟩
  rw [doSearch, h1]
  simp only [Option.bind_eq_bind, Option.bind_some, h2]
  rfl

end

/-! ### Examples -/

section
open T8.Sample T8.Standalone

/-- Two trees: the sample mesh, and the part of it that belongs to a middle process. -/
def sampleTrees : List (LocalTree (fun _ : Unit => Q)) := [⟨0, (), leaves⟩, ⟨1, (), [d 1, d 2, d 3, c 2]⟩]

theorem sampleTrees_ok : Trees sampleTrees := by
  intro t ht
  simp only [sampleTrees, List.mem_cons, List.not_mem_nil, or_false] at ht
  rcases ht with rfl | rfl
  · exact ⟨by simp [leaves], ordered⟩
  · exact ⟨by simp, ordered_part⟩

/-- `C33_search_queries` applies to the sample trees and any callbacks. -/
example (callback : SearchFn (fun _ : Unit => Q)) (query : QueryFn (fun _ : Unit => Q)) :
    ∃ log, search (fun _ => Cls.scheme .quad) callback (some (query, 3)) sampleTrees = some log ∧
      ForestSearched callback (some query) (some [0, 1, 2]) 0 (sampleTrees.map treeOf) [] log :=
  C33_search_queries (fun _ => Cls.scheme_lawful .quad) callback query 3 sampleTrees_ok

/-- `C33_class_queries` applies to the sample trees and any callbacks. -/
example (callback : SearchFn (fun _ : Unit => Q)) (query : OneQueryFn (fun _ : Unit => Q)) :
    ∃ log, doSearch (fun _ => Cls.scheme .quad) callback (withQueries query 3) [] sampleTrees = some log ∧
      ForestOneSearched callback query [0, 1, 2] 0 (sampleTrees.map treeOf) [] log :=
  C33_class_queries (fun _ => Cls.scheme_lawful .quad) callback query 3 [] sampleTrees_ok

/-- In the sample mesh, the leaf `d 2` is called if neither the root nor `c 1` was rejected, with index 3. -/
example (log : List (Event Q)) (h : Searched 0 leaves Q.root none log) (h1 : ∀ a, Q.Desc a (d 2) → a ≠ d 2 → ¬ Checked log a false) :
    (∃ r, Checked log (d 2) r) ∧ ∀ c r, Event.check c r ∈ log → c.elem = d 2 → c.isLeaf = true ∧ c.index = 3 := by
  have := C33_leaf Q.valid_root (fun x hx => desc_root (ordered.1 x hx)) h (k := 3) (x := d 2) rfl ordered
  exact ⟨this.1.2 h1, this.2⟩

end

end T8.Search
