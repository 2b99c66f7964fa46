/-
Lemmas for C55: the elements that are sent to each process, and adding an element to them.
-/
import Verif.Model.Ghost
import Verif.Lemmas.RTree

namespace T8.Ghost
open T8.RTree

variable {T : Nat → RTree}

/-- An element of a tree with its index in the tree. -/
abbrev Sent (T : Nat → RTree) := Σ g, (T g).E × Nat

/-- The elements of one tree. -/
def RemoteTree.seq (t : RemoteTree T) : List (Sent T) := t.elements.map (Sigma.mk t.gtreeid)

/-- All elements for one process in order. -/
def Remote.seq (r : Remote T) : List (Sent T) := r.trees.flatMap RemoteTree.seq

/-- The elements that are sent to process `q`. -/
def Remotes.sent (G : Remotes T) (q : Int) : List (Sent T) := ((G.ghosts.find? (fun r => r.rank = q)).map Remote.seq).getD []

/-- The entry of one process: the trees are in ascending order and not empty. -/
structure Remote.Good (r : Remote T) : Prop where
  nonempty : r.trees ≠ []
  trees : ∀ t ∈ r.trees, t.elements ≠ []
  order : (r.trees.map (fun t => t.gtreeid)).Pairwise (· < ·)
  count : r.numElements = r.seq.length

/-- Each process has one entry, and the list of the processes is that of the entries. -/
structure Remotes.Good (G : Remotes T) : Prop where
  nodup : (G.ghosts.map (fun r => r.rank)).Nodup
  processes : G.processes = G.ghosts.map (fun r => r.rank)
  remotes : ∀ r ∈ G.ghosts, r.Good

variable {X : Env T}

theorem linearId_inj {T : RTree} {S : Scheme T} (hS : S.Lawful) {x y : T.E} (hx : T.Valid x) (hy : T.Valid y) (hl : T.level x = T.level y)
    (h : S.linearId x (T.level x) = S.linearId y (T.level y)) : x = y := by
  have h1 := hS.linearId x (T.level x) hx (T.level_le x hx)
  have h2 := hS.linearId y (T.level y) hy (T.level_le y hy)
  rw [if_pos le_rfl, anc_of_level_le le_rfl] at h1 h2
  rw [h, hl, h2] at h1
  exact (Option.some.inj h1).symm

/-- Adding an element to a tree whose elements, but possibly the last, are other elements. -/
theorem addToTree_spec {g : Nat} (hS : (X.scheme g).Lawful) {e : (T g).E} (he : (T g).Valid e) {i : Nat} {t t0 : List ((T g).E × Nat)}
    (h0 : ∀ p ∈ t0, (T g).Valid p.1 ∧ p.1 ≠ e) (ht : t = t0 ∨ t = t0 ++ [(e, i)]) :
    addToTree X g e i t = some (t0 ++ [(e, i)], t0.length + 1 - t.length) := by
  have hne : ∀ p ∈ t0, (!(X.scheme g).isEqual p.1 e) = true := by
    intro p hp
    obtain ⟨h1, h2⟩ := h0 p hp
    cases h : (X.scheme g).isEqual p.1 e with
    | false => rfl
    | true => exact absurd ((hS.isEqual _ _ h1 he).1 h) h2
  unfold addToTree
  rcases ht with rfl | rfl
  · have ha : ((t.take (t.length - 1)).all (fun p => !(X.scheme g).isEqual p.1 e)) = true :=
      List.all_eq_true.2 (fun p hp => hne p (List.mem_of_mem_take hp))
    simp only [ha, Option.bind_eq_bind, assertO_true, Option.bind_some, Nat.add_sub_cancel_left]
    cases hl : t.getLast? with
    | none => rfl
    | some c =>
      obtain ⟨c, j⟩ := c
      obtain ⟨h1, h2⟩ := h0 _ (List.mem_of_getLast? hl)
      simp only [Option.pure_def]
      rw [if_pos]
      by_contra hc
      rw [not_or, not_not, not_not] at hc
      exact h2 (linearId_inj hS h1 he hc.1.symm hc.2)
  · have ha : (((t0 ++ [(e, i)]).take ((t0 ++ [(e, i)]).length - 1)).all (fun p => !(X.scheme g).isEqual p.1 e)) = true := by
      rw [List.all_eq_true]
      intro p hp
      rw [List.length_append, List.length_singleton, Nat.add_sub_cancel, List.take_left] at hp
      exact hne p hp
    simp only [ha, Option.bind_eq_bind, assertO_true, Option.bind_some, List.getLast?_append, List.getLast?_singleton, Option.some_or]
    simp

/-- The tree is the last one of a process. -/
theorem addToRemote_spec {g : Nat} (hS : (X.scheme g).Lawful) {e : (T g).E} (he : (T g).Valid e) {i : Nat} {t t0 : List ((T g).E × Nat)}
    (h0 : ∀ p ∈ t0, (T g).Valid p.1 ∧ p.1 ≠ e) (ht : t = t0 ∨ t = t0 ++ [(e, i)]) {rank : Int} {n : Nat} {ts : List (RemoteTree T)} :
    addToRemote X g e i ⟨rank, n, ts ++ [⟨g, t⟩]⟩ = some ⟨rank, n + (t0.length + 1 - t.length), ts ++ [⟨g, t0 ++ [(e, i)]⟩]⟩ := by
  unfold addToRemote
  simp only [List.getLast?_append, List.getLast?_singleton, Option.some_or, Option.bind_eq_bind, Option.bind_some, dite_true]
  rw [addToTree_spec hS he h0 ht]
  simp

/-- The elements before those that are added now. -/
structure Base (g : Nat) (e : (T g).E) (base : Int → List (Sent T)) : Prop where
  tree : ∀ q, ∀ s ∈ base q, s.1 ≤ g
  other : ∀ q (p : (T g).E × Nat), ⟨g, p⟩ ∈ base q → (T g).Valid p.1 ∧ p.1 ≠ e

/-- The element was added for the processes in `M`. -/
structure Added (g : Nat) (e : (T g).E) (i : Nat) (base : Int → List (Sent T)) (M : Int → Prop) (G : Remotes T) : Prop where
  good : G.Good
  yes : ∀ q, M q → G.sent q = base q ++ [⟨g, (e, i)⟩]
  no : ∀ q, ¬ M q → G.sent q = base q

theorem Remotes.sent_of_mem {G : Remotes T} (h : G.Good) {r : Remote T} (hr : r ∈ G.ghosts) : G.sent r.rank = r.seq := by
  have hf : G.ghosts.find? (fun s => decide (s.rank = r.rank)) = some r := by
    have hn := h.nodup
    generalize G.ghosts = l at hr hn
    induction l with
    | nil => cases hr
    | cons s l ih =>
      rw [List.map_cons, List.nodup_cons] at hn
      rcases List.mem_cons.1 hr with rfl | hr
      · simp
      · have : s.rank ≠ r.rank := fun hc => hn.1 (hc ▸ List.mem_map_of_mem (f := fun r : Remote T => r.rank) hr)
        rw [List.find?_cons_of_neg (by simpa using this)]
        exact ih hr hn.2
  rw [Remotes.sent, hf]
  rfl

theorem Remotes.sent_of_not_mem {G : Remotes T} {q : Int} (hq : ∀ r ∈ G.ghosts, r.rank ≠ q) : G.sent q = [] := by
  rw [Remotes.sent, List.find?_eq_none.2 (by simpa using hq)]
  rfl

/-- The parts of a list of trees: if the tree of the element is there then it is the last one. -/
theorem Remote.Good.split {r : Remote T} (hr : r.Good) {g : Nat} (hg : ∀ s ∈ r.seq, s.1 ≤ g) :
    (∃ ts t, r.trees = ts ++ [⟨g, t⟩] ∧ (∀ u ∈ ts, u.gtreeid < g)) ∨ (∀ u ∈ r.trees, u.gtreeid < g) := by
  obtain ⟨ts, u, h⟩ : ∃ ts u, r.trees = ts ++ [u] := ⟨_, _, (List.dropLast_append_getLast hr.nonempty).symm⟩
  have hle : ∀ t ∈ r.trees, t.gtreeid ≤ g := by
    intro t ht
    obtain ⟨p, hp⟩ := List.exists_mem_of_ne_nil _ (hr.trees t ht)
    exact hg ⟨t.gtreeid, p⟩ (List.mem_flatMap.2 ⟨t, ht, List.mem_map_of_mem hp⟩)
  have ho := hr.order
  rw [h, List.map_append, List.pairwise_append] at ho
  have hlt : ∀ t ∈ ts, t.gtreeid < u.gtreeid := fun t ht => ho.2.2 _ (List.mem_map_of_mem (f := fun t : RemoteTree T => t.gtreeid) ht) _ (by simp)
  have hu := hle u (by simp [h])
  rcases Nat.lt_or_ge u.gtreeid g with hug | hug
  · right
    intro t ht
    rw [h] at ht
    rcases List.mem_append.1 ht with ht | ht
    · have := hlt t ht; omega
    · rw [List.mem_singleton.1 ht]; exact hug
  · left
    obtain ⟨ug, ue⟩ := u
    have : ug = g := Nat.le_antisymm hu hug
    subst this
    exact ⟨ts, ue, h, hlt⟩

/-- A new entry of a process after adding the element: good, and with the element at the end. -/
theorem good_append {g : Nat} {ts : List (RemoteTree T)} {t : List ((T g).E × Nat)} {rank : Int} {n : Nat} (h1 : ∀ u ∈ ts, u.gtreeid < g)
    (h2 : ∀ u ∈ ts, u.elements ≠ []) (h3 : (ts.map (fun t => t.gtreeid)).Pairwise (· < ·)) (ht : t ≠ [])
    (hn : n = (ts.flatMap RemoteTree.seq).length + t.length) : (⟨rank, n, ts ++ [⟨g, t⟩]⟩ : Remote T).Good where
  nonempty := by simp
  trees := by
    intro u hu
    rcases List.mem_append.1 hu with hu | hu
    · exact h2 u hu
    · rw [List.mem_singleton.1 hu]; exact ht
  order := by
    show ((ts ++ [(⟨g, t⟩ : RemoteTree T)]).map (fun t => t.gtreeid)).Pairwise (· < ·)
    rw [List.map_append, List.pairwise_append]
    refine ⟨h3, by simp, ?_⟩
    intro a ha b hb
    obtain ⟨u, hu, rfl⟩ := List.mem_map.1 ha
    simp only [List.map_cons, List.map_nil, List.mem_singleton] at hb
    subst hb
    exact h1 u hu
  count := by
    show n = ((ts ++ [(⟨g, t⟩ : RemoteTree T)]).flatMap RemoteTree.seq).length
    rw [List.flatMap_append, List.length_append, hn]
    simp [RemoteTree.seq]

theorem find_set_self {l : List (Remote T)} {pos : Nat} {r : Remote T} (h : l[pos]? = some r) : l.set pos r = l := by
  obtain ⟨h1, rfl⟩ := List.getElem?_eq_some_iff.1 h
  exact List.set_getElem_self h1

theorem map_rank_set {l : List (Remote T)} {pos : Nat} {r r' : Remote T} (h : l[pos]? = some r) (hr : r'.rank = r.rank) :
    (l.set pos r').map (fun r => r.rank) = l.map (fun r => r.rank) := by
  obtain ⟨h1, rfl⟩ := List.getElem?_eq_some_iff.1 h
  rw [List.map_set, hr]
  have := List.set_getElem_self (as := l.map (fun r : Remote T => r.rank)) (i := pos) (by simpa using h1)
  simpa using this

/-- Replacing the entry of a process. -/
theorem Remotes.Good.set {G : Remotes T} (h : G.Good) {pos : Nat} {r r' : Remote T} (hp : G.ghosts[pos]? = some r) (hr : r'.rank = r.rank)
    (hr' : r'.Good) : ({ G with ghosts := G.ghosts.set pos r' } : Remotes T).Good ∧
      ({ G with ghosts := G.ghosts.set pos r' } : Remotes T).sent r.rank = r'.seq ∧
      ∀ q, q ≠ r.rank → ({ G with ghosts := G.ghosts.set pos r' } : Remotes T).sent q = G.sent q := by
  have hg : ({ G with ghosts := G.ghosts.set pos r' } : Remotes T).Good := by
    refine ⟨?_, ?_, ?_⟩
    · show ((G.ghosts.set pos r').map (fun r => r.rank)).Nodup
      rw [map_rank_set hp hr]; exact h.nodup
    · show G.processes = (G.ghosts.set pos r').map (fun r => r.rank)
      rw [map_rank_set hp hr]; exact h.processes
    · intro s hs
      rcases List.mem_or_eq_of_mem_set hs with hs | rfl
      · exact h.remotes s hs
      · exact hr'
  have hlt := (List.getElem?_eq_some_iff.1 hp).1
  refine ⟨hg, ?_, ?_⟩
  · rw [← hr]
    exact Remotes.sent_of_mem hg (List.mem_set hlt r')
  · intro q hq
    by_cases hex : ∃ s ∈ G.ghosts, s.rank = q
    · obtain ⟨s, hs, rfl⟩ := hex
      rw [Remotes.sent_of_mem h hs]
      refine Remotes.sent_of_mem hg ?_
      obtain ⟨j, hj⟩ := List.mem_iff_getElem?.1 hs
      have : pos ≠ j := by
        rintro rfl
        rw [hp] at hj
        exact hq (by rw [Option.some.inj hj])
      refine List.mem_iff_getElem?.2 ⟨j, ?_⟩
      show (G.ghosts.set pos r')[j]? = some s
      rw [List.getElem?_set_ne this, hj]
    · rw [Remotes.sent_of_not_mem (fun s hs hc => hex ⟨s, hs, hc⟩), Remotes.sent_of_not_mem]
      intro s hs hc
      rcases List.mem_or_eq_of_mem_set hs with hs | rfl
      · exact hex ⟨s, hs, hc⟩
      · exact hq (hc.symm.trans hr)

/-- Adding the entry of a new process. -/
theorem Remotes.Good.push {G : Remotes T} (h : G.Good) {r : Remote T} (hr : r.Good) (hn : ∀ s ∈ G.ghosts, s.rank ≠ r.rank) :
    (⟨G.ghosts ++ [r], G.processes ++ [r.rank]⟩ : Remotes T).Good ∧
      (⟨G.ghosts ++ [r], G.processes ++ [r.rank]⟩ : Remotes T).sent r.rank = r.seq ∧
      ∀ q, q ≠ r.rank → (⟨G.ghosts ++ [r], G.processes ++ [r.rank]⟩ : Remotes T).sent q = G.sent q := by
  have hg : (⟨G.ghosts ++ [r], G.processes ++ [r.rank]⟩ : Remotes T).Good := by
    refine ⟨?_, ?_, ?_⟩
    · show ((G.ghosts ++ [r]).map (fun r => r.rank)).Nodup
      rw [List.map_append]
      refine List.Nodup.append h.nodup (by simp) ?_
      intro a ha hb
      obtain ⟨s, hs, rfl⟩ := List.mem_map.1 ha
      simp only [List.map_cons, List.map_nil, List.mem_singleton] at hb
      exact hn s hs hb
    · show G.processes ++ [r.rank] = (G.ghosts ++ [r]).map (fun r => r.rank)
      rw [h.processes, List.map_append]; rfl
    · intro s hs
      rcases List.mem_append.1 hs with hs | hs
      · exact h.remotes s hs
      · rw [List.mem_singleton.1 hs]; exact hr
  refine ⟨hg, Remotes.sent_of_mem hg (by simp), ?_⟩
  intro q hq
  by_cases hex : ∃ s ∈ G.ghosts, s.rank = q
  · obtain ⟨s, hs, rfl⟩ := hex
    rw [Remotes.sent_of_mem h hs]
    exact Remotes.sent_of_mem hg (by simp [hs])
  · rw [Remotes.sent_of_not_mem (fun s hs hc => hex ⟨s, hs, hc⟩), Remotes.sent_of_not_mem]
    intro s hs hc
    rcases List.mem_append.1 hs with hs | hs
    · exact hex ⟨s, hs, hc⟩
    · rw [List.mem_singleton.1 hs] at hc
      exact hq hc.symm

/-- `t8_ghost_add_remote`: the element is added for the process, once. -/
theorem addRemote_spec {g : Nat} (hS : (X.scheme g).Lawful) {e : (T g).E} (he : (T g).Valid e) {i : Nat} {base : Int → List (Sent T)}
    (hb : Base g e base) {M : Int → Prop} {G : Remotes T} (hG : Added g e i base M G) (rank : Int) :
    ∃ G', addRemote X g e i rank G = some G' ∧ Added g e i base (fun q => M q ∨ q = rank) G' := by
  -- from a good new structure with the right elements
  have finish : ∀ {G' : Remotes T}, G'.Good → G'.sent rank = base rank ++ [⟨g, (e, i)⟩] → (∀ q, q ≠ rank → G'.sent q = G.sent q) →
      Added g e i base (fun q => M q ∨ q = rank) G' := by
    intro G' h1 h2 h3
    refine ⟨h1, ?_, ?_⟩
    · intro q hq
      by_cases hc : q = rank
      · rw [hc]; exact h2
      · rw [h3 q hc]; exact hG.yes q (hq.resolve_right hc)
    · intro q hq
      rw [not_or] at hq
      rw [h3 q hq.2]; exact hG.no q hq.1
  have hbase : G.sent rank = base rank ∨ G.sent rank = base rank ++ [⟨g, (e, i)⟩] := by
    by_cases hM : M rank
    · exact Or.inr (hG.yes _ hM)
    · exact Or.inl (hG.no _ hM)
  unfold addRemote
  cases hf : G.ghosts.findIdx? (fun r => decide (r.rank = rank)) with
  | none =>
    have hnone : ∀ s ∈ G.ghosts, s.rank ≠ rank := by
      intro s hs
      have := List.findIdx?_eq_none_iff.1 hf s hs
      simpa using this
    have h0 := Remotes.sent_of_not_mem hnone
    have hb0 : base rank = [] := by
      rcases hbase with h | h
      · rw [← h, h0]
      · rw [h0] at h; simp at h
    have hadd := addToRemote_spec (X := X) hS he (i := i) (t := []) (t0 := []) (by simp) (Or.inl rfl) (rank := rank) (n := 0) (ts := [])
    simp only [List.nil_append, List.length_nil, Nat.sub_zero, Nat.zero_add] at hadd
    simp only [hadd, Option.bind_eq_bind, Option.bind_some, Option.pure_def]
    refine ⟨_, rfl, ?_⟩
    have hr : (⟨rank, 1, [⟨g, [(e, i)]⟩]⟩ : Remote T).Good :=
      good_append (ts := []) (by simp) (by simp) (by simp) (by simp) (by simp)
    obtain ⟨p1, p2, p3⟩ := hG.good.push hr hnone
    refine finish p1 ?_ p3
    refine p2.trans ?_
    rw [hb0]
    simp [Remote.seq, RemoteTree.seq]
  | some pos =>
    obtain ⟨hlt, hrank, _⟩ := List.findIdx?_eq_some_iff_getElem.1 hf
    have hpos : G.ghosts[pos]? = some G.ghosts[pos] := List.getElem?_eq_getElem hlt
    have hmem : G.ghosts[pos] ∈ G.ghosts := List.getElem_mem hlt
    replace hrank : G.ghosts[pos].rank = rank := by simpa using hrank
    have hrg := hG.good.remotes _ hmem
    have hseq : G.sent rank = G.ghosts[pos].seq := by rw [← hrank]; exact Remotes.sent_of_mem hG.good hmem
    simp only [hpos, Option.bind_eq_bind, Option.bind_some]
    generalize hr0 : G.ghosts[pos] = r at *
    obtain ⟨rk, n, trees⟩ := r
    have hrk : rk = rank := hrank
    subst hrk
    have hle : ∀ s ∈ (⟨rk, n, trees⟩ : Remote T).seq, s.1 ≤ g := by
      intro s hs
      rw [← hseq] at hs
      rcases hbase with h | h
      · exact hb.tree rk s (h ▸ hs)
      · rw [h] at hs
        rcases List.mem_append.1 hs with hs | hs
        · exact hb.tree rk s hs
        · rw [List.mem_singleton.1 hs]
    rcases hrg.split hle with ⟨ts, t, h1, h2⟩ | h1
    · -- the tree is the last one
      replace h1 : trees = ts ++ [⟨g, t⟩] := h1
      subst h1
      have hsq : (⟨rk, n, ts ++ [⟨g, t⟩]⟩ : Remote T).seq = ts.flatMap RemoteTree.seq ++ t.map (Sigma.mk g) := by
        simp [Remote.seq, RemoteTree.seq]
      -- the elements of the tree without the new one
      obtain ⟨t0, ht0, ht, hb0⟩ : ∃ t0, (t = t0 ∨ t = t0 ++ [(e, i)]) ∧ (∀ p ∈ t0, (T g).Valid p.1 ∧ p.1 ≠ e) ∧
          base rk = ts.flatMap RemoteTree.seq ++ t0.map (Sigma.mk g) := by
        have hmem0 : ∀ t0 : List ((T g).E × Nat), base rk = ts.flatMap RemoteTree.seq ++ t0.map (Sigma.mk g) →
            ∀ p ∈ t0, (T g).Valid p.1 ∧ p.1 ≠ e := by
          intro t0 h0 p hp
          refine hb.other rk p ?_
          rw [h0]
          exact List.mem_append_right _ (List.mem_map_of_mem hp)
        rcases hbase with h | h
        · rw [hseq, hsq] at h
          exact ⟨t, Or.inl rfl, hmem0 t h.symm, h.symm⟩
        · rw [hseq, hsq] at h
          have htne : t ≠ [] := hrg.trees ⟨g, t⟩ (by simp)
          obtain ⟨t0, x, rfl⟩ : ∃ t0 x, t = t0 ++ [x] := ⟨_, _, (List.dropLast_append_getLast htne).symm⟩
          rw [List.map_append, List.map_cons, List.map_nil, ← List.append_assoc] at h
          obtain ⟨h3, h4⟩ := List.append_inj' h rfl
          have : x = (e, i) := by
            have := List.singleton_injective h4
            simpa using this
          subst this
          exact ⟨t0, Or.inr rfl, hmem0 t0 h3.symm, h3.symm⟩
      have hft : findTree g (ts ++ [⟨g, t⟩]) = some (ts ++ [⟨g, t⟩]) := by
        simp [findTree]
      simp only [hft, Option.bind_some, addToRemote_spec hS he ht ht0, Option.pure_def]
      refine ⟨_, rfl, ?_⟩
      have ho := hrg.order
      have hgood : (⟨rk, n + (t0.length + 1 - t.length), ts ++ [⟨g, t0 ++ [(e, i)]⟩]⟩ : Remote T).Good := by
        refine good_append h2 (fun u hu => hrg.trees u (by simp [hu])) ?_ (by simp) ?_
        · change ((ts ++ [(⟨g, t⟩ : RemoteTree T)]).map (fun t => t.gtreeid)).Pairwise (· < ·) at ho
          rw [List.map_append, List.pairwise_append] at ho
          exact ho.1
        · have hn := hrg.count
          rw [hsq] at hn
          replace hn : n = (ts.flatMap RemoteTree.seq ++ t.map (Sigma.mk g)).length := hn
          rw [hn]
          rcases ht0 with rfl | rfl
          · simp; omega
          · simp
      obtain ⟨p1, p2, p3⟩ := hG.good.set hpos (by rfl) hgood
      refine finish p1 (p2.trans ?_) p3
      rw [hb0]
      simp [Remote.seq, RemoteTree.seq]
    · -- the tree is new for the process
      replace h1 : ∀ u ∈ trees, u.gtreeid < g := h1
      have hno : ∀ p : (T g).E × Nat, (⟨g, p⟩ : Sent T) ∉ (⟨rk, n, trees⟩ : Remote T).seq := by
        intro p hp
        obtain ⟨u, hu, hp⟩ := List.mem_flatMap.1 hp
        obtain ⟨_, _, he⟩ := List.mem_map.1 hp
        have := congrArg Sigma.fst he
        have := h1 u hu
        simp at *
        omega
      have hb0 : base rk = (⟨rk, n, trees⟩ : Remote T).seq := by
        rcases hbase with h | h
        · rw [← h, hseq]
        · rw [hseq] at h
          exact absurd (by rw [h]; simp) (hno (e, i))
      have hft : findTree g trees = some (trees ++ [⟨g, []⟩]) := by
        obtain ⟨ts, u, h⟩ : ∃ ts u, trees = ts ++ [u] := ⟨_, _, (List.dropLast_append_getLast hrg.nonempty).symm⟩
        subst h
        have := h1 u (by simp)
        simp [findTree, show u.gtreeid ≠ g by omega]
      simp only [hft, Option.bind_some, addToRemote_spec (X := X) hS he (i := i) (t := []) (t0 := []) (by simp) (Or.inl rfl),
        Option.pure_def]
      refine ⟨_, rfl, ?_⟩
      have hgood : (⟨rk, n + (([] : List ((T g).E × Nat)).length + 1 - ([] : List ((T g).E × Nat)).length), trees ++ [⟨g, [] ++ [(e, i)]⟩]⟩ : Remote T).Good := by
        refine good_append h1 hrg.trees hrg.order (by simp) ?_
        have hn := hrg.count
        replace hn : n = (trees.flatMap RemoteTree.seq).length := hn
        simp [hn]
      obtain ⟨p1, p2, p3⟩ := hG.good.set hpos (by rfl) hgood
      refine finish p1 (p2.trans ?_) p3
      rw [hb0]
      simp [Remote.seq, RemoteTree.seq]

/-- The element is added for all processes of the array but the own one. -/
theorem addRemotes_spec {g : Nat} (hS : (X.scheme g).Lawful) {e : (T g).E} (he : (T g).Valid e) {i : Nat} {base : Int → List (Sent T)}
    (hb : Base g e base) : ∀ (owners : List Int) {M : Int → Prop} {G : Remotes T}, Added g e i base M G →
    ∃ G', addRemotes X g e i owners G = some G' ∧ Added g e i base (fun q => M q ∨ (q ∈ owners ∧ q ≠ X.rank)) G'
  | [], M, G, hG => by
    refine ⟨G, rfl, hG.good, ?_, ?_⟩
    · intro q hq; exact hG.yes q (by simpa using hq)
    · intro q hq; exact hG.no q (by simpa using hq)
  | r :: owners, M, G, hG => by
    unfold addRemotes
    rw [List.foldlM_cons]
    by_cases hr : r = X.rank
    · simp only [hr, ne_eq, not_true_eq_false, if_false, Option.bind_eq_bind, Option.bind_some]
      obtain ⟨G', h1, h2⟩ := addRemotes_spec hS he hb owners hG
      refine ⟨G', h1, h2.good, ?_, ?_⟩
      · intro q hq
        refine h2.yes q ?_
        rcases hq with h | ⟨h, h'⟩
        · exact Or.inl h
        · rcases List.mem_cons.1 h with h | h
          · exact absurd h h'
          · exact Or.inr ⟨h, h'⟩
      · intro q hq
        refine h2.no q (fun h => hq ?_)
        rcases h with h | ⟨h, h'⟩
        · exact Or.inl h
        · exact Or.inr ⟨List.mem_cons_of_mem _ h, h'⟩
    · obtain ⟨G1, h1, h2⟩ := addRemote_spec hS he hb hG r
      simp only [ne_eq, hr, not_false_eq_true, if_true, h1, Option.bind_eq_bind, Option.bind_some]
      obtain ⟨G', h3, h4⟩ := addRemotes_spec hS he hb owners h2
      refine ⟨G', h3, h4.good, ?_, ?_⟩
      · intro q hq
        refine h4.yes q ?_
        rcases hq with h | ⟨h, h'⟩
        · exact Or.inl (Or.inl h)
        · rcases List.mem_cons.1 h with h | h
          · exact Or.inl (Or.inr h)
          · exact Or.inr ⟨h, h'⟩
      · intro q hq
        refine h4.no q (fun h => hq ?_)
        rcases h with (h | rfl) | ⟨h, h'⟩
        · exact Or.inl h
        · exact Or.inr ⟨by simp, hr⟩
        · exact Or.inr ⟨List.mem_cons_of_mem _ h, h'⟩

end T8.Ghost
