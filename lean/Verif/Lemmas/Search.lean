/-
Lemmas about the top-down search.
-/
import Verif.Model.Search
import Verif.Lemmas.LeafSearch
import Mathlib.Tactic.Tauto

namespace T8.Search
open T8.RTree T8.Leaf T8.Populate

/-! ### Records -/

section
variable {T : RTree}

theorem searched_nil {tree : Nat} {ls : List T.E} {e : T.E} {A : Option (List Nat)} (h : (¬ ∃ x ∈ ls, T.Desc e x) ∨ A = some []) :
    Searched tree ls e A [] where
  calls := by simp
  order := List.Pairwise.nil
  checked := by
    intro x
    constructor
    · rintro ⟨r, c, _, h⟩; cases h
    · rintro ⟨h1, ⟨y, hy, h2⟩, h3, _⟩
      rcases h with h | h
      · exact absurd ⟨y, hy, h1.trans h2⟩ h
      · exact absurd h h3
  tested := by
    intro x q
    constructor
    · rintro ⟨r, c, _, h⟩; cases h
    · rintro ⟨_, ⟨c, _, h⟩, _⟩; cases h

section
variable {tree : Nat} {ls : List T.E} {e : T.E} {A : Option (List Nat)} {c : Call T} {r : Bool} {batch L : List (Event T)}
  (hce : c.elem = e) (hb : ∀ ev ∈ batch, ∃ q s, ev = Event.query c q s)
  (hL : ∀ ev ∈ L, IsCall tree ls ev.call ∧ T.Desc e ev.call.elem ∧ ev.call.elem ≠ e)

include hce hb hL

theorem checked_self {s : Bool} : Checked (.check c r :: (batch ++ L)) e s ↔ s = r := by
  constructor
  · rintro ⟨d, hd, hm⟩
    rcases List.mem_cons.1 hm with h | h
    · injection h
    · rcases List.mem_append.1 h with h | h
      · obtain ⟨q, s', h'⟩ := hb _ h; cases h'
      · exact absurd hd (hL _ h).2.2
  · rintro rfl
    exact ⟨c, hce, by simp⟩

omit hL in
theorem checked_below {x : T.E} {s : Bool} (hx : x ≠ e) : Checked (.check c r :: (batch ++ L)) x s ↔ Checked L x s := by
  constructor
  · rintro ⟨d, hd, hm⟩
    rcases List.mem_cons.1 hm with h | h
    · injection h with h1 _
      exact absurd (hd.symm.trans (h1 ▸ hce)) hx
    · rcases List.mem_append.1 h with h | h
      · obtain ⟨q, s', h'⟩ := hb _ h; cases h'
      · exact ⟨d, hd, h⟩
  · rintro ⟨d, hd, hm⟩
    exact ⟨d, hd, by simp [hm]⟩

theorem tested_self {q : Nat} {s : Bool} : Tested (.check c r :: (batch ++ L)) e q s ↔ Event.query c q s ∈ batch := by
  constructor
  · rintro ⟨d, hd, hm⟩
    rcases List.mem_cons.1 hm with h | h
    · cases h
    · rcases List.mem_append.1 h with h | h
      · obtain ⟨q, s', h'⟩ := hb _ h
        injection h' with h1
        exact h1 ▸ h
      · exact absurd hd (hL _ h).2.2
  · intro h
    exact ⟨c, hce, by simp [h]⟩

omit hL in
theorem tested_below {x : T.E} {q : Nat} {s : Bool} (hx : x ≠ e) :
    Tested (.check c r :: (batch ++ L)) x q s ↔ Tested L x q s := by
  constructor
  · rintro ⟨d, hd, hm⟩
    rcases List.mem_cons.1 hm with h | h
    · cases h
    · rcases List.mem_append.1 h with h | h
      · obtain ⟨q, s', h'⟩ := hb _ h
        injection h' with h1
        exact absurd (hd.symm.trans (h1 ▸ hce)) hx
      · exact ⟨d, hd, h⟩
  · rintro ⟨d, hd, hm⟩
    exact ⟨d, hd, by simp [hm]⟩

/-- The record of a search below `e`, put together from the calls on `e` and those below. -/
theorem searched_step (he : T.Valid e) (hc : IsCall tree ls c) (hne : ∃ x ∈ ls, T.Desc e x) (hA : A ≠ some [])
    (hbo : batch.Pairwise Earlier)
    (hbq : ∀ q, (∃ s, Event.query c q s ∈ batch) ↔ r = true ∧ ∃ l, A = some l ∧ q ∈ l)
    (hLo : L.Pairwise Earlier)
    (hLc : ∀ x, x ≠ e → T.Desc e x → ((∃ s, Checked L x s) ↔ (∃ y ∈ ls, T.Desc x y) ∧ r = true ∧
      (A ≠ none → ∃ q, Event.query c q true ∈ batch) ∧
      ∀ a, T.Desc e a → T.Desc a x → a ≠ x → a ≠ e → Checked L a true ∧ (A ≠ none → ∃ q, Tested L a q true)))
    (hLt : ∀ x q, x ≠ e → T.Desc e x → ((∃ s, Tested L x q s) ↔ Event.query c q true ∈ batch ∧ Checked L x true ∧
      ∀ a, T.Desc e a → T.Desc a x → a ≠ x → a ≠ e → Tested L a q true)) :
    Searched tree ls e A (.check c r :: (batch ++ L)) where
  calls := by
    intro ev hev
    rcases List.mem_cons.1 hev with h | h
    · subst h
      refine ⟨hc, ?_⟩
      show T.Desc e c.elem
      rw [hce]; exact Desc.refl
    · rcases List.mem_append.1 h with h | h
      · obtain ⟨q, s, rfl⟩ := hb _ h
        refine ⟨hc, ?_⟩
        show T.Desc e c.elem
        rw [hce]; exact Desc.refl
      · exact ⟨(hL _ h).1, (hL _ h).2.1⟩
  order := by
    have hlt : ∀ ev ∈ L, T.Lt c.elem ev.call.elem := by
      intro ev hev
      right
      rw [hce]
      exact ⟨(hL _ hev).2.1, fun h => (hL _ hev).2.2 h.symm⟩
    refine List.Pairwise.cons ?_ (List.pairwise_append.2 ⟨hbo, hLo, ?_⟩)
    · intro ev hev
      rcases List.mem_append.1 hev with h | h
      · obtain ⟨q, s, rfl⟩ := hb _ h
        exact Or.inr rfl
      · have := hlt ev h
        cases ev with
        | check d s => exact this
        | query d q s => exact Or.inl this
    · intro b hbm ev hev
      obtain ⟨q, s, rfl⟩ := hb _ hbm
      have := hlt ev hev
      cases ev with
      | check d s => exact this
      | query d q s => exact Or.inl this
  checked := by
    intro x
    by_cases hx : x = e
    · subst hx
      constructor
      · intro _
        refine ⟨Desc.refl, hne, hA, ?_⟩
        intro a h1 h2 h3
        exfalso
        have hva := h1.valid he
        have l1 := h1.level_le he
        exact h3 (h2.eq_of_level hva (by omega)).symm
      · intro _
        exact ⟨r, (checked_self hce hb hL).2 rfl⟩
    · constructor
      · rintro ⟨s, hs⟩
        rw [checked_below hce hb hx] at hs
        have hd : T.Desc e x := by
          obtain ⟨d, hd, hm⟩ := hs
          have := (hL _ hm).2.1
          rwa [← hd]
        obtain ⟨h1, h2, h3, h4⟩ := (hLc x hx hd).1 ⟨s, hs⟩
        refine ⟨hd, h1, hA, ?_⟩
        intro a ha hax hne'
        by_cases hae : a = e
        · subst hae
          rw [checked_self hce hb hL]
          refine ⟨h2.symm, fun hAn => ?_⟩
          obtain ⟨q, hq⟩ := h3 hAn
          exact ⟨q, (tested_self hce hb hL).2 hq⟩
        · rw [checked_below hce hb hae]
          obtain ⟨h5, h6⟩ := h4 a ha hax hne' hae
          refine ⟨h5, fun hAn => ?_⟩
          obtain ⟨q, hq⟩ := h6 hAn
          exact ⟨q, (tested_below hce hb hae).2 hq⟩
      · rintro ⟨hd, h1, _, h4⟩
        obtain ⟨k1, k2⟩ := h4 e Desc.refl hd (fun h => hx h.symm)
        have hr : r = true := ((checked_self hce hb hL).1 k1).symm
        obtain ⟨s, hs⟩ := (hLc x hx hd).2 ⟨h1, hr, fun hAn => by
            obtain ⟨q, hq⟩ := k2 hAn
            exact ⟨q, (tested_self hce hb hL).1 hq⟩, by
            intro a ha hax hne' hae
            obtain ⟨h5, h6⟩ := h4 a ha hax hne'
            refine ⟨(checked_below hce hb hae).1 h5, fun hAn => ?_⟩
            obtain ⟨q, hq⟩ := h6 hAn
            exact ⟨q, (tested_below hce hb hae).1 hq⟩⟩
        exact ⟨s, (checked_below hce hb hx).2 hs⟩
  tested := by
    intro x q
    by_cases hx : x = e
    · subst hx
      constructor
      · rintro ⟨s, hs⟩
        rw [tested_self hce hb hL] at hs
        obtain ⟨h1, h2⟩ := (hbq q).1 ⟨s, hs⟩
        refine ⟨h2, (checked_self hce hb hL).2 h1.symm, ?_⟩
        intro a k1 k2 k3
        exfalso
        have hva := k1.valid he
        have l1 := k1.level_le he
        exact k3 (k2.eq_of_level hva (by omega)).symm
      · rintro ⟨h1, h2, _⟩
        obtain ⟨s, hs⟩ := (hbq q).2 ⟨((checked_self hce hb hL).1 h2).symm, h1⟩
        exact ⟨s, (tested_self hce hb hL).2 hs⟩
    · constructor
      · rintro ⟨s, hs⟩
        rw [tested_below hce hb hx] at hs
        have hd : T.Desc e x := by
          obtain ⟨d, hd, hm⟩ := hs
          have := (hL _ hm).2.1
          rwa [← hd]
        obtain ⟨h1, h2, h3⟩ := (hLt x q hx hd).1 ⟨s, hs⟩
        refine ⟨((hbq q).1 ⟨_, h1⟩).2, (checked_below hce hb hx).2 h2, ?_⟩
        intro a ha hax hne'
        by_cases hae : a = e
        · subst hae
          exact (tested_self hce hb hL).2 h1
        · exact (tested_below hce hb hae).2 (h3 a ha hax hne' hae)
      · rintro ⟨_, h2, h3⟩
        have h2' := (checked_below hce hb hx).1 h2
        have hd : T.Desc e x := by
          obtain ⟨d, hd, hm⟩ := h2'
          have := (hL _ hm).2.1
          rwa [← hd]
        obtain ⟨s, hs⟩ := (hLt x q hx hd).2 ⟨(tested_self hce hb hL).1 (h3 e Desc.refl hd (fun h => hx h.symm)), h2', by
          intro a ha hax hne' hae
          exact (tested_below hce hb hae).1 (h3 a ha hax hne')⟩
        exact ⟨s, (tested_below hce hb hx).2 hs⟩

end

variable {tree : Nat} {ls : List T.E} {e : T.E} {A : Option (List Nat)} {c : Call T} {r : Bool} {batch : List (Event T)}

/-- The search stops at `e`. -/
theorem searched_stop (he : T.Valid e) (hce : c.elem = e) (hc : IsCall tree ls c) (hne : ∃ x ∈ ls, T.Desc e x) (hA : A ≠ some [])
    (hb : ∀ ev ∈ batch, ∃ q s, ev = Event.query c q s) (hbo : batch.Pairwise Earlier)
    (hbq : ∀ q, (∃ s, Event.query c q s ∈ batch) ↔ r = true ∧ ∃ l, A = some l ∧ q ∈ l)
    (hstop : ∀ x, x ≠ e → T.Desc e x → (∃ y ∈ ls, T.Desc x y) → r = true → (A ≠ none → ∃ q, Event.query c q true ∈ batch) → False) :
    Searched tree ls e A (.check c r :: batch) := by
  have := searched_step (L := []) (r := r) hce hb (by simp) he hc hne hA hbo hbq List.Pairwise.nil
    (by
      intro x hx hd
      constructor
      · rintro ⟨s, d, _, hm⟩; cases hm
      · rintro ⟨h1, h2, h3, _⟩
        exact (hstop x hx hd h1 h2 h3).elim)
    (by
      intro x q hx hd
      constructor
      · rintro ⟨s, d, _, hm⟩; cases hm
      · rintro ⟨_, ⟨d, _, hm⟩, _⟩; cases hm)
  rwa [List.append_nil] at this

/-- The search goes on with the children of `e`. -/
theorem searched_children (he : T.Valid e) (hl : T.level e < T.maxLevel) (hce : c.elem = e) (hc : IsCall tree ls c)
    (hne : ∃ x ∈ ls, T.Desc e x) (hA : A ≠ some [])
    (hb : ∀ ev ∈ batch, ∃ q s, ev = Event.query c q s) (hbo : batch.Pairwise Earlier)
    (hbq : ∀ q, (∃ s, Event.query c q s ∈ batch) ↔ ∃ l, A = some l ∧ q ∈ l)
    {A' : Option (List Nat)} (hnone : A' = none ↔ A = none)
    (hA' : ∀ q, (∃ l, A' = some l ∧ q ∈ l) ↔ Event.query c q true ∈ batch)
    {logs : Nat → List (Event T)} (hlogs : ∀ i, i < T.nc e → Searched tree ls (T.child e i) A' (logs i)) :
    Searched tree ls e A (.check c true :: (batch ++ (List.range (T.nc e)).flatMap logs)) := by
  have hdesc : ∀ {i : Nat} {ev : Event T}, i < T.nc e → ev ∈ logs i → T.Desc (T.child e i) ev.call.elem :=
    fun hi hm => ((hlogs _ hi).calls _ hm).2
  have hvc : ∀ {i : Nat}, i < T.nc e → T.Valid (T.child e i) := fun hi => T.valid_child _ _ he hl hi
  have hmem : ∀ ev, ev ∈ (List.range (T.nc e)).flatMap logs ↔ ∃ i, i < T.nc e ∧ ev ∈ logs i := by
    intro ev
    simp [List.mem_flatMap]
  -- a record about an element below child `i` is in the record of this child
  have hck : ∀ {i : Nat} {x : T.E} {s : Bool}, i < T.nc e → T.Desc (T.child e i) x →
      (Checked ((List.range (T.nc e)).flatMap logs) x s ↔ Checked (logs i) x s) := by
    intro i x s hi hd
    constructor
    · rintro ⟨d, hd', hm⟩
      obtain ⟨j, hj, hm⟩ := (hmem _).1 hm
      have : T.Desc (T.child e j) x := hd' ▸ hdesc hj hm
      obtain rfl := desc_child_unique he hl hi hj hd this
      exact ⟨d, hd', hm⟩
    · rintro ⟨d, hd', hm⟩
      exact ⟨d, hd', (hmem _).2 ⟨i, hi, hm⟩⟩
  have hts : ∀ {i : Nat} {x : T.E} {q : Nat} {s : Bool}, i < T.nc e → T.Desc (T.child e i) x →
      (Tested ((List.range (T.nc e)).flatMap logs) x q s ↔ Tested (logs i) x q s) := by
    intro i x q s hi hd
    constructor
    · rintro ⟨d, hd', hm⟩
      obtain ⟨j, hj, hm⟩ := (hmem _).1 hm
      have : T.Desc (T.child e j) x := hd' ▸ hdesc hj hm
      obtain rfl := desc_child_unique he hl hi hj hd this
      exact ⟨d, hd', hm⟩
    · rintro ⟨d, hd', hm⟩
      exact ⟨d, hd', (hmem _).2 ⟨i, hi, hm⟩⟩
  -- elements between `e` and an element below child `i`
  have hbetween : ∀ {i : Nat} {x a : T.E}, i < T.nc e → T.Desc (T.child e i) x → T.Desc e a → T.Desc a x → a ≠ e →
      T.Desc (T.child e i) a := by
    intro i x a hi hd ha hax hae
    rcases desc_cases he ha with h | ⟨_, j, hj, h⟩
    · exact absurd h hae
    · obtain rfl := desc_child_unique he hl hi hj hd (h.trans hax)
      exact h
  have hnotself : ∀ {i : Nat} {a : T.E}, i < T.nc e → T.Desc (T.child e i) a → a ≠ e := by
    intro i a hi hd h
    have h1 := hd.level_le (hvc hi)
    rw [T.level_child _ _ he hl hi, h] at h1
    omega
  have hq' : A' ≠ some [] ↔ (A ≠ none → ∃ q, Event.query c q true ∈ batch) := by
    constructor
    · intro h hn
      cases hA'' : A' with
      | none => exact absurd (hnone.1 hA'') hn
      | some l =>
        cases l with
        | nil => exact absurd hA'' h
        | cons q l => exact ⟨q, (hA' q).1 ⟨_, hA'', by simp⟩⟩
    · intro h hn
      obtain ⟨q, hq⟩ := h (fun hc => by rw [hnone.2 hc] at hn; cases hn)
      obtain ⟨l, h1, h2⟩ := (hA' q).2 hq
      rw [hn] at h1
      injection h1 with h1
      subst h1
      cases h2
  refine searched_step hce hb ?_ he hc hne hA hbo (fun q => by rw [hbq]; simp) ?_ ?_ ?_
  · intro ev hev
    obtain ⟨i, hi, hm⟩ := (hmem _).1 hev
    exact ⟨((hlogs i hi).calls _ hm).1, (Desc.child_self hl hi).trans (hdesc hi hm), hnotself hi (hdesc hi hm)⟩
  · rw [List.pairwise_flatMap]
    refine ⟨fun i hi => (hlogs i (List.mem_range.1 hi)).order, ?_⟩
    refine List.Pairwise.imp_of_mem ?_ List.pairwise_lt_range
    intro i j hi hj hij x hx y hy
    have hi := List.mem_range.1 hi
    have hj := List.mem_range.1 hj
    have hlt : T.Lt x.call.elem y.call.elem := Or.inl ((before_children he hl hij hj).desc (hdesc hi hx) (hdesc hj hy))
    cases x with
    | check d s =>
      cases y with
      | check d' s' => exact hlt
      | query d' q' s' => exact Or.inl hlt
    | query d q s =>
      cases y with
      | check d' s' => exact hlt
      | query d' q' s' => exact Or.inl hlt
  · intro x hx hd
    rcases desc_cases he hd with h | ⟨_, i, hi, hdi⟩
    · exact absurd h hx
    · have key := (hlogs i hi).checked x
      constructor
      · rintro ⟨s, hs⟩
        obtain ⟨_, k2, k3, k4⟩ := key.1 ⟨s, (hck hi hdi).1 hs⟩
        refine ⟨k2, rfl, hq'.1 k3, ?_⟩
        intro a ha hax hne' hae
        have hda := hbetween hi hdi ha hax hae
        obtain ⟨h5, h6⟩ := k4 a hda hax hne'
        refine ⟨(hck hi hda).2 h5, fun hn => ?_⟩
        obtain ⟨q, hq⟩ := h6 (fun hc => hn (hnone.1 hc))
        exact ⟨q, (hts hi hda).2 hq⟩
      · rintro ⟨k2, _, k3, k4⟩
        obtain ⟨s, hs⟩ := key.2 ⟨hdi, k2, hq'.2 k3, by
          intro a hda hax hne'
          obtain ⟨h5, h6⟩ := k4 a ((Desc.child_self hl hi).trans hda) hax hne' (hnotself hi hda)
          refine ⟨(hck hi hda).1 h5, fun hn => ?_⟩
          obtain ⟨q, hq⟩ := h6 (fun hc => hn (hnone.2 hc))
          exact ⟨q, (hts hi hda).1 hq⟩⟩
        exact ⟨s, (hck hi hdi).2 hs⟩
  · intro x q hx hd
    rcases desc_cases he hd with h | ⟨_, i, hi, hdi⟩
    · exact absurd h hx
    · have key := (hlogs i hi).tested x q
      constructor
      · rintro ⟨s, hs⟩
        obtain ⟨k1, k2, k3⟩ := key.1 ⟨s, (hts hi hdi).1 hs⟩
        refine ⟨(hA' q).1 k1, (hck hi hdi).2 k2, ?_⟩
        intro a ha hax hne' hae
        have hda := hbetween hi hdi ha hax hae
        exact (hts hi hda).2 (k3 a hda hax hne')
      · rintro ⟨k1, k2, k3⟩
        obtain ⟨s, hs⟩ := key.2 ⟨(hA' q).2 k1, (hck hi hdi).1 k2, by
          intro a hda hax hne'
          exact (hts hi hda).1 (k3 a ((Desc.child_self hl hi).trans hda) hax hne' (hnotself hi hda))⟩
        exact ⟨s, (hts hi hdi).2 hs⟩

/-! ### Queries -/

theorem mem_answers {c : Call T} {active : List Nat} {m : Nat → Bool} {ev : Event T} :
    ev ∈ answers c active m ↔ ∃ (q i : Nat), active[i]? = some q ∧ ev = Event.query c q (m i) := by
  simp only [answers, List.mem_map, Prod.exists, List.mem_zipIdx_iff_getElem?]
  constructor
  · rintro ⟨q, i, h, rfl⟩; exact ⟨q, i, h, rfl⟩
  · rintro ⟨q, i, h, rfl⟩; exact ⟨q, i, h, rfl⟩

theorem mem_matching {active : List Nat} {m : Nat → Bool} {q : Nat} :
    q ∈ matching active m ↔ ∃ i : Nat, active[i]? = some q ∧ m i = true := by
  simp only [matching, List.mem_map, List.mem_filter, Prod.exists, List.mem_zipIdx_iff_getElem?]
  constructor
  · rintro ⟨a, i, ⟨h1, h2⟩, rfl⟩; exact ⟨i, h1, h2⟩
  · rintro ⟨i, h1, h2⟩; exact ⟨q, i, ⟨h1, h2⟩, rfl⟩

theorem answers_order {c : Call T} {active : List Nat} {m : Nat → Bool} (h : active.Pairwise (· < ·)) :
    (answers c active m).Pairwise Earlier := by
  rw [answers, List.pairwise_map]
  have : (active.zipIdx.map Prod.fst).Pairwise (· < ·) := by rwa [List.zipIdx_map_fst]
  rw [List.pairwise_map] at this
  exact this.imp (fun hlt => Or.inr ⟨rfl, hlt⟩)

theorem matching_sublist {active : List Nat} {m : Nat → Bool} : (matching active m).Sublist active := by
  have : (matching active m).Sublist (active.zipIdx.map Prod.fst) := List.filter_sublist.map _
  rwa [List.zipIdx_map_fst] at this

theorem answers_query {c : Call T} {active : List Nat} {m : Nat → Bool} {q : Nat} :
    (∃ s, Event.query c q s ∈ answers c active m) ↔ q ∈ active := by
  constructor
  · rintro ⟨s, h⟩
    obtain ⟨q', i, h1, h2⟩ := mem_answers.1 h
    injection h2 with _ h2
    subst h2
    exact List.mem_of_getElem? h1
  · intro h
    obtain ⟨i, hi⟩ := List.getElem?_of_mem h
    exact ⟨m i, mem_answers.2 ⟨q, i, hi, rfl⟩⟩

theorem answers_matching {c : Call T} {active : List Nat} {m : Nat → Bool} {q : Nat} :
    q ∈ matching active m ↔ Event.query c q true ∈ answers c active m := by
  rw [mem_matching, mem_answers]
  constructor
  · rintro ⟨i, h1, h2⟩; exact ⟨q, i, h1, by rw [h2]⟩
  · rintro ⟨q', i, h1, h2⟩
    injection h2 with _ h2 h3
    subst h2
    exact ⟨i, h1, h3.symm⟩

/-! ### Parts of the leaf array -/

theorem PartBelow.mem {ls view : List T.E} {e : T.E} {first : Nat} (h : PartBelow ls e view first) {x : T.E} :
    x ∈ view ↔ x ∈ ls ∧ T.Desc e x := by
  obtain ⟨A, B, rfl, _, h1, h2, h3⟩ := h
  constructor
  · intro hx; exact ⟨by simp [hx], h2 x hx⟩
  · rintro ⟨hx, hd⟩
    rcases List.mem_append.1 hx with hx | hx
    · rcases List.mem_append.1 hx with hx | hx
      · exact absurd hd (h1 x hx)
      · exact hx
    · exact absurd hd (h3 x hx)

theorem PartBelow.sublist {ls view : List T.E} {e : T.E} {first : Nat} (h : PartBelow ls e view first) : view.Sublist ls := by
  obtain ⟨A, B, rfl, _⟩ := h
  exact ((List.sublist_append_right A view).trans (List.sublist_append_left _ B))

theorem PartBelow.all {ls : List T.E} {e : T.E} (h : ∀ x ∈ ls, T.Desc e x) : PartBelow ls e ls 0 :=
  ⟨[], [], by simp, rfl, by simp, h, by simp⟩

theorem PartBelow.child {ls view : List T.E} {e : T.E} {first a b i : Nat} (h : PartBelow ls e view first)
    (hl : T.level e < T.maxLevel) (hi : i < T.nc e) (hab : a ≤ b) (hb : b ≤ view.length)
    (hs : ∀ (j : Nat) (x : T.E), view[j]? = some x → ((a ≤ j ∧ j < b) ↔ T.Desc (T.child e i) x)) :
    PartBelow ls (T.child e i) ((view.drop a).take (b - a)) (a + first) := by
  obtain ⟨A, B, h0, hA, h1, h2, h3⟩ := h
  have hde : ∀ x, T.Desc (T.child e i) x → T.Desc e x := fun x hx => (Desc.child_self hl hi).trans hx
  refine ⟨A ++ view.take a, view.drop b ++ B, ?_, ?_, ?_, ?_, ?_⟩
  · rw [h0]
    have : view = view.take a ++ ((view.drop a).take (b - a) ++ view.drop b) := by
      have e1 : view.drop b = (view.drop a).drop (b - a) := by rw [List.drop_drop]; congr 1; omega
      rw [e1, List.take_append_drop, List.take_append_drop]
    conv => lhs; rw [this]
    simp only [List.append_assoc]
  · rw [List.length_append, List.length_take]; omega
  · intro x hx hd
    rcases List.mem_append.1 hx with hx | hx
    · exact h1 x hx (hde x hd)
    · obtain ⟨j, hj⟩ := List.getElem?_of_mem hx
      rw [List.getElem?_take] at hj
      split at hj
      · have := (hs j x hj).2 hd; omega
      · cases hj
  · intro x hx
    obtain ⟨j, hj⟩ := List.getElem?_of_mem hx
    rw [List.getElem?_take] at hj
    split at hj
    · rw [List.getElem?_drop] at hj
      exact (hs _ x hj).1 (by omega)
    · cases hj
  · intro x hx hd
    rcases List.mem_append.1 hx with hx | hx
    · obtain ⟨j, hj⟩ := List.getElem?_of_mem hx
      rw [List.getElem?_drop] at hj
      have := (hs _ x hj).2 hd; omega
    · exact h3 x hx (hde x hd)

/-- If `e` is a leaf, it is the only one below itself. -/
theorem PartBelow.leaf {ls view : List T.E} {e : T.E} {first : Nat} (h : PartBelow ls e view first) (ho : T.Ordered ls)
    (hm : e ∈ ls) : view = [e] := by
  have hme : e ∈ view := h.mem.2 ⟨hm, Desc.refl⟩
  have hov := ho.sublist h.sublist
  have hall : ∀ x ∈ view, x = e := by
    intro x hx
    obtain ⟨i, hi⟩ := List.getElem?_of_mem hx
    obtain ⟨j, hj⟩ := List.getElem?_of_mem hme
    have hd := (h.mem.1 hx).2
    rcases Nat.lt_trichotomy i j with hlt | heq | hlt
    · exact absurd hd (Ordered.before hov hi hj hlt).not_desc.2
    · subst heq; rw [hi] at hj; exact Option.some.inj hj
    · exact absurd hd (Ordered.before hov hj hi hlt).not_desc.1
  cases view with
  | nil => cases hme
  | cons x v =>
    have hx := hall x (by simp)
    cases v with
    | nil => rw [hx]
    | cons y v =>
      have hy := hall y (by simp)
      have := List.rel_of_pairwise_cons hov.2 (a' := y) (by simp)
      rw [hx, hy] at this
      exact absurd this Before.irrefl

theorem isOnlyLeaf_spec {S : Scheme T} (hS : S.Lawful) {all view : List T.E} {e : T.E} {first : Nat} (ho : T.Ordered all)
    (he : T.Valid e) (hp : PartBelow all e view first) :
    ∃ b, isOnlyLeaf S all e view = some b ∧ (b = true ↔ e ∈ all) := by
  by_cases h1 : view.length = 1
  · obtain ⟨x, rfl⟩ := List.length_eq_one_iff.1 h1
    have hx := hp.mem.1 (List.mem_singleton.2 rfl)
    have hlev := hx.2.level_le he
    rw [isOnlyLeaf, if_pos h1]
    have h0 : rd [x] 0 = some x := rfl
    simp only [h0, Option.bind_eq_bind, Option.bind_some, assertO_true hlev]
    by_cases heq : T.level e = T.level x
    · have hxe := hx.2.eq_of_level he (by omega)
      subst hxe
      have hne : all ≠ [] := fun h => by rw [h] at hx; cases hx.1
      rcases arrayFind_spec hS ho hne he with ⟨_, h3⟩ | ⟨k, h3, _⟩
      · exact absurd hx.1 h3
      · rw [if_pos rfl, h3]
        simp only [Option.bind_some]
        rw [assertO_true (by omega), assertO_true ((hS.isEqual x x he he).2 rfl)]
        exact ⟨true, rfl, by simp [hx.1]⟩
    · rw [if_neg heq]
      refine ⟨false, rfl, ?_⟩
      constructor
      · intro h; cases h
      · intro hm
        have := hp.leaf ho hm
        injection this with h2
        rw [h2] at heq
        exact absurd rfl heq
  · rw [isOnlyLeaf, if_neg h1]
    refine ⟨false, rfl, ?_⟩
    constructor
    · intro h; cases h
    · intro hm
      rw [hp.leaf ho hm] at h1
      exact absurd rfl h1

end

/-! ### Answers -/

section
variable {C : Type} {T : C → RTree} {search : SearchFn T} {query : Option (QueryFn T)} {cls : C}

theorem Answered.append {h : History T} {l1 l2 : List (Event (T cls))} (h1 : Answered search query cls h l1) :
    Answered search query cls (h ++ l1.map (Sigma.mk cls)) l2 → Answered search query cls h (l1 ++ l2) := by
  induction h1 with
  | nil h => intro h2; simpa using h2
  | check h c log hq _ ih =>
    intro h2
    refine Answered.check h c (log ++ l2) hq (ih ?_)
    simpa using h2
  | accept h c f active batch log hq hs hb _ ih =>
    intro h2
    have := Answered.accept h c f active batch (log ++ l2) hq hs hb (ih (by simpa using h2))
    simpa using this

theorem Answered.flatMap {h : History T} {logs : Nat → List (Event (T cls))} : ∀ {n : Nat},
    (∀ i, i < n → Answered search query cls (h ++ ((List.range i).flatMap logs).map (Sigma.mk cls)) (logs i)) →
    Answered search query cls h ((List.range n).flatMap logs)
  | 0, _ => Answered.nil h
  | n + 1, hl => by
    rw [List.range_succ, List.flatMap_append]
    refine (Answered.flatMap (fun i hi => hl i (by omega))).append ?_
    simpa using hl n (by omega)

theorem fold_spec {σ : Type} (hist : σ → History T) {step : σ → Nat → Option σ} {P : Nat → History T → List (Event (T cls)) → Prop} :
    ∀ {n : Nat}, (∀ i, i < n → ∀ s, ∃ s' log, step s i = some s' ∧ hist s' = hist s ++ log.map (Sigma.mk cls) ∧ P i (hist s) log) →
    ∀ s, ∃ s', ∃ logs : Nat → List (Event (T cls)), (List.range n).foldlM step s = some s' ∧
      hist s' = hist s ++ ((List.range n).flatMap logs).map (Sigma.mk cls) ∧
      ∀ i, i < n → P i (hist s ++ ((List.range i).flatMap logs).map (Sigma.mk cls)) (logs i)
  | 0, _, s => ⟨s, fun _ => [], rfl, by simp, by intro i hi; omega⟩
  | n + 1, hstep, s => by
    obtain ⟨s1, logs, h1, h2, h3⟩ := fold_spec hist (n := n) (fun i hi => hstep i (by omega)) s
    obtain ⟨s2, log, k1, k2, k3⟩ := hstep n (by omega) s1
    have hsame : ∀ i, i ≤ n → (List.range i).flatMap (fun j => if j = n then log else logs j) = (List.range i).flatMap logs := by
      intro i hi
      refine List.flatMap_congr ?_
      intro j hj
      have := List.mem_range.1 hj
      rw [if_neg (by omega)]
    refine ⟨s2, fun j => if j = n then log else logs j, ?_, ?_, ?_⟩
    · rw [List.range_succ, List.foldlM_append, h1]
      simp [k1]
    · rw [List.range_succ, List.flatMap_append, hsame n le_rfl, k2, h2]
      simp
    · intro i hi
      rw [hsame i (by omega)]
      by_cases hin : i = n
      · subst hin
        dsimp only
        rw [if_pos rfl, ← h2]
        exact k3
      · dsimp only
        rw [if_neg hin]
        exact h3 i (by omega)

/-! ### The recursion -/

variable {S : ∀ c, Scheme (T c)} (hS : ∀ c, (S c).Lawful)
include hS

theorem searchRecursion_spec (search : SearchFn T) (query : Option (QueryFn T)) (ltreeid : Nat) (cls : C) {all : List (T cls).E}
    (ho : (T cls).Ordered all) : ∀ {n : Nat} {e : (T cls).E} {view : List (T cls).E} {first : Nat} {active : List Nat}
    (h : History T), (T cls).maxLevel - (T cls).level e = n → (T cls).Valid e → PartBelow all e view first →
    active.Pairwise (· < ·) →
    ∃ log, searchRecursion S search query ltreeid cls all e view first active h = some (h ++ log.map (Sigma.mk cls)) ∧
      Searched ltreeid all e (query.map (fun _ => active)) log ∧ Answered search query cls h log := by
  intro n
  induction n using Nat.strongRecOn with
  | _ n ih =>
  intro e view first active h hn he hp hact
  rw [searchRecursion]
  by_cases hlen : view.length = 0
  · rw [if_pos hlen]
    refine ⟨[], by simp, searched_nil (Or.inl ?_), Answered.nil h⟩
    rintro ⟨x, hx, hd⟩
    have := hp.mem.2 ⟨hx, hd⟩
    rw [List.length_eq_zero_iff.1 hlen] at this
    cases this
  · rw [if_neg hlen]
    have hne : ∃ x ∈ all, (T cls).Desc e x := by
      cases view with
      | nil => exact absurd rfl hlen
      | cons x v => exact ⟨x, hp.mem.1 (by simp)⟩
    dsimp only
    by_cases hstop : query.isSome ∧ (if query.isNone then 0 else active.length) = 0
    · rw [if_pos hstop]
      refine ⟨[], by simp, searched_nil (Or.inr ?_), Answered.nil h⟩
      cases query with
      | none => cases hstop.1
      | some f =>
        have := hstop.2
        simp only [Option.isNone_some, Bool.false_eq_true, if_false] at this
        rw [List.length_eq_zero_iff.1 this]
        rfl
    · rw [if_neg hstop]
      have hA : query.map (fun _ => active) ≠ some [] := by
        cases query with
        | none => simp
        | some f =>
          intro hc
          apply hstop
          simp only [Option.map_some, Option.some.injEq] at hc
          subst hc
          simp
      obtain ⟨isLeaf, h1, h2⟩ := isOnlyLeaf_spec (hS cls) ho he hp
      rw [h1]
      simp only [Option.bind_eq_bind, Option.bind_some]
      generalize hcdef : (⟨ltreeid, e, isLeaf, view, first⟩ : Call (T cls)) = c
      have hce : c.elem = e := by rw [← hcdef]
      have hcl : c.isLeaf = isLeaf := by rw [← hcdef]
      have hc : IsCall ltreeid all c := by
        rw [← hcdef]
        exact ⟨rfl, h2, hp⟩
      cases hret : search h cls c with
      | false =>
        rw [Bool.not_false, if_pos rfl]
        refine ⟨[.check c false], by simp, ?_, ?_⟩
        · refine searched_stop (batch := []) he hce hc hne hA (by simp) List.Pairwise.nil ?_ ?_
          · intro q; simp
          · intro x _ _ _ hr; cases hr
        · have := Answered.check (query := query) (search := search) h c [] (Or.inr hret) (Answered.nil _)
          rw [hret] at this
          exact this
      | true =>
        rw [Bool.not_true, if_neg (by simp)]
        -- the queries
        have hq : ∃ batch A', (testQueries query cls c active (h ++ [⟨cls, Event.check c true⟩])).1 =
              h ++ (Event.check c true :: batch).map (Sigma.mk cls) ∧
            (testQueries query cls c active (h ++ [⟨cls, Event.check c true⟩])).2 = A' ∧
            A'.Pairwise (· < ·) ∧
            (∀ ev ∈ batch, ∃ q s, ev = Event.query c q s) ∧ batch.Pairwise Earlier ∧
            (∀ q, (∃ s, Event.query c q s ∈ batch) ↔ ∃ l, query.map (fun _ => active) = some l ∧ q ∈ l) ∧
            (isLeaf = false → ∀ q, (∃ l, query.map (fun _ => A') = some l ∧ q ∈ l) ↔ Event.query c q true ∈ batch) ∧
            (∀ log, Answered search query cls (h ++ (Event.check c true :: batch).map (Sigma.mk cls)) log →
              Answered search query cls h (.check c true :: (batch ++ log))) := by
          cases query with
          | none =>
            refine ⟨[], [], by simp [testQueries], rfl, List.Pairwise.nil, by simp, List.Pairwise.nil, by simp, by simp, ?_⟩
            intro log hlog
            have := Answered.check (query := none) (search := search) h c log (Or.inl rfl) (by rw [hret]; simpa using hlog)
            rw [hret] at this
            exact this
          | some f =>
            refine ⟨answers c active (f (h ++ [⟨cls, .check c true⟩]) cls c active), _, ?_, rfl, ?_, ?_, answers_order hact, ?_, ?_, ?_⟩
            · simp [testQueries]
            · simp only [testQueries]
              split
              · exact List.Pairwise.nil
              · exact hact.sublist matching_sublist
            · intro ev hev
              obtain ⟨q, i, _, rfl⟩ := mem_answers.1 hev
              exact ⟨q, _, rfl⟩
            · intro q
              rw [answers_query]
              simp
            · intro hleaf q
              rw [← answers_matching]
              simp [testQueries, hcl, hleaf]
            · intro log hlog
              exact Answered.accept h c f active _ log rfl hret rfl (by simpa using hlog)
        obtain ⟨batch, A', q1, q2, q3, q4, q5, q6, q7, q8⟩ := hq
        rw [q1, q2]
        have hfin : ∀ L, Answered search query cls (h ++ (Event.check c true :: batch).map (Sigma.mk cls)) L →
            Searched ltreeid all e (query.map (fun _ => active)) (Event.check c true :: (batch ++ L)) →
            ∃ log, some (h ++ (Event.check c true :: batch).map (Sigma.mk cls) ++ L.map (Sigma.mk cls)) =
                some (h ++ log.map (Sigma.mk cls)) ∧
              Searched ltreeid all e (query.map (fun _ => active)) log ∧ Answered search query cls h log := by
          intro L hL1 hL2
          exact ⟨_, by simp, hL2, q8 L hL1⟩
        cases isLeaf with
        | true =>
          rw [if_pos rfl]
          have := hfin [] (Answered.nil _) (by
            rw [List.append_nil]
            refine searched_stop he hce hc hne hA q4 q5 (by intro q; rw [q6]; simp) ?_
            intro x hx hd hxl _ _
            obtain ⟨y, hy, hdy⟩ := hxl
            have hl := hp.leaf ho (h2.1 rfl)
            have hyv := hp.mem.2 ⟨hy, hd.trans hdy⟩
            rw [hl] at hyv
            have := List.mem_singleton.1 hyv
            subst this
            have l1 := hd.level_le he
            have l2 := hdy.level_le (hd.valid he)
            exact hx (hd.eq_of_level he (by omega)))
          simpa using this
        | false =>
          rw [if_neg (by simp)]
          have hnl : e ∉ all := fun hm => by have := h2.2 hm; cases this
          by_cases hact0 : (if query.isNone then 0 else active.length) > 0 ∧ A'.length = 0
          · rw [if_pos hact0]
            have := hfin [] (Answered.nil _) (by
              rw [List.append_nil]
              refine searched_stop he hce hc hne hA q4 q5 (by intro q; rw [q6]; simp) ?_
              intro x _ _ _ _ hex
              cases query with
              | none => simp at hact0
              | some f =>
                obtain ⟨q, hq⟩ := hex (by simp)
                obtain ⟨l, hl1, hl2⟩ := (q7 rfl q).2 hq
                have := List.length_eq_zero_iff.1 hact0.2
                subst this
                simp only [Option.map_some, Option.some.injEq] at hl1
                subst hl1
                cases hl2)
            simpa using this
          · rw [if_neg hact0]
            have hview : ∀ x ∈ view, (T cls).Desc e x ∧ x ≠ e := by
              intro x hx
              have := hp.mem.1 hx
              exact ⟨this.2, fun hxe => hnl (hxe ▸ this.1)⟩
            have hl : (T cls).level e < (T cls).maxLevel := by
              obtain ⟨x, hx, hd⟩ := hne
              rcases desc_cases he hd with h | h
              · subst h; exact absurd hx hnl
              · exact h.1
            obtain ⟨offs, o1, o2, o3, o4, o5⟩ := splitArray_spec (hS cls) he (ho.sublist hp.sublist) hview
            rw [o1]
            simp only [Option.bind_some]
            obtain ⟨s', logs, f1, f2, f3⟩ := fold_spec (T := T) (cls := cls) (fun h : History T => h)
              (P := fun i h log => Searched ltreeid all ((T cls).child e i) (query.map (fun _ => A')) log ∧
                Answered search query cls h log)
              (step := fun h i => (offs[i]?).bind (fun indexa => (offs[i + 1]?).bind (fun indexb =>
                if indexa < indexb then searchRecursion S search query ltreeid cls all ((T cls).child e i)
                  (List.take (indexb - indexa) (List.drop indexa view)) (indexa + first) A' h else some h)))
              (n := (T cls).nc e)
              (by
                intro i hi h'
                obtain ⟨a, b, oa, ob, hab, hb, hs⟩ := o5 i hi
                rw [oa, ob]
                simp only [Option.bind_some]
                have hpc := hp.child hl hi hab hb hs
                by_cases hlt : a < b
                · rw [if_pos hlt]
                  obtain ⟨log, r1, r2, r3⟩ := ih _ (by rw [(T cls).level_child _ _ he hl hi]; omega) h' rfl
                    ((T cls).valid_child _ _ he hl hi) hpc q3
                  exact ⟨_, log, r1, rfl, r2, r3⟩
                · rw [if_neg hlt]
                  refine ⟨_, [], rfl, by simp, searched_nil (Or.inl ?_), Answered.nil _⟩
                  rintro ⟨x, hx, hd⟩
                  have := hpc.mem.2 ⟨hx, hd⟩
                  rw [show b - a = 0 by omega] at this
                  simp at this)
              (h ++ (Event.check c true :: batch).map (Sigma.mk cls))
            rw [f1, f2]
            refine hfin _ (Answered.flatMap (fun i hi => (f3 i hi).2)) ?_
            refine searched_children he hl hce hc hne hA q4 q5 q6 ?_ (q7 rfl) (fun i hi => (f3 i hi).1)
            cases query <;> simp

omit hS in
/-- The methods of a search object do what the recursion with the query callback `query` does. -/
structure Simulates (M : QueryMethods T) (query : Option (QueryFn T)) : Prop where
  none_stop : query = none → ∀ active, M.stop active = false
  none_check : query = none → ∀ cls c active h, (M.check cls c active h).1 = h
  some_stop : query ≠ none → ∀ active, M.stop active = active.isEmpty
  some_check : ∀ f, query = some f → ∀ cls c active h, active ≠ [] → M.check cls c active h =
    (h ++ (answers c active (f h cls c active)).map (Sigma.mk cls), matching active (f h cls c active))
  some_update : query ≠ none → ∀ active new, M.update active new = new

theorem baseRecursion_spec (search : SearchFn T) {M : QueryMethods T} {query : Option (QueryFn T)} (hM : Simulates M query)
    (ltreeid : Nat) (cls : C) {all : List (T cls).E} (ho : (T cls).Ordered all) :
    ∀ {n : Nat} {e : (T cls).E} {view : List (T cls).E} {first : Nat} (s : History T × List Nat),
    (T cls).maxLevel - (T cls).level e = n → (T cls).Valid e → PartBelow all e view first →
    (query ≠ none → s.2.Pairwise (· < ·)) →
    ∃ s' log, baseRecursion S search M ltreeid cls all e view first s = some s' ∧ s'.1 = s.1 ++ log.map (Sigma.mk cls) ∧
      Searched ltreeid all e (query.map (fun _ => s.2)) log ∧ Answered search query cls s.1 log := by
  intro n
  induction n using Nat.strongRecOn with
  | _ n ih =>
  rintro e view first ⟨h, active⟩ hn he hp hact
  dsimp only at hact ⊢
  rw [baseRecursion]
  by_cases hlen : view.length = 0
  · rw [if_pos hlen]
    refine ⟨_, [], rfl, by simp, searched_nil (Or.inl ?_), Answered.nil h⟩
    rintro ⟨x, hx, hd⟩
    have := hp.mem.2 ⟨hx, hd⟩
    rw [List.length_eq_zero_iff.1 hlen] at this
    cases this
  · rw [if_neg hlen]
    have hne : ∃ x ∈ all, (T cls).Desc e x := by
      cases view with
      | nil => exact absurd rfl hlen
      | cons x v => exact ⟨x, hp.mem.1 (by simp)⟩
    dsimp only
    by_cases hstop : M.stop active = true
    · rw [if_pos hstop]
      refine ⟨_, [], rfl, by simp, searched_nil (Or.inr ?_), Answered.nil h⟩
      cases query with
      | none => rw [hM.none_stop rfl] at hstop; cases hstop
      | some f =>
        rw [hM.some_stop (by simp)] at hstop
        rw [List.isEmpty_iff.1 hstop]
        rfl
    · rw [if_neg hstop]
      have hA0 : query ≠ none → active ≠ [] := by
        intro hq hc
        rw [hM.some_stop hq, hc] at hstop
        exact hstop rfl
      have hA : query.map (fun _ => active) ≠ some [] := by
        cases query with
        | none => simp
        | some f =>
          intro hc
          simp only [Option.map_some, Option.some.injEq] at hc
          exact hA0 (by simp) hc
      obtain ⟨isLeaf, h1, h2⟩ := isOnlyLeaf_spec (hS cls) ho he hp
      rw [h1]
      simp only [Option.bind_eq_bind, Option.bind_some]
      generalize hcdef : (⟨ltreeid, e, isLeaf, view, first⟩ : Call (T cls)) = c
      have hce : c.elem = e := by rw [← hcdef]
      have hc : IsCall ltreeid all c := by
        rw [← hcdef]
        exact ⟨rfl, h2, hp⟩
      cases hret : search h cls c with
      | false =>
        rw [Bool.not_false, if_pos rfl]
        refine ⟨_, [.check c false], rfl, by simp, ?_, ?_⟩
        · refine searched_stop (batch := []) he hce hc hne hA (by simp) List.Pairwise.nil ?_ ?_
          · intro q; simp
          · intro x _ _ _ hr; cases hr
        · have := Answered.check (query := query) (search := search) h c [] (Or.inr hret) (Answered.nil _)
          rw [hret] at this
          exact this
      | true =>
        rw [Bool.not_true, if_neg (by simp)]
        -- the queries
        have hq : ∃ batch A', M.check cls c active (h ++ [⟨cls, Event.check c true⟩]) =
              (h ++ (Event.check c true :: batch).map (Sigma.mk cls), A') ∧
            (query ≠ none → A'.Pairwise (· < ·)) ∧
            (∀ ev ∈ batch, ∃ q s, ev = Event.query c q s) ∧ batch.Pairwise Earlier ∧
            (∀ q, (∃ s, Event.query c q s ∈ batch) ↔ ∃ l, query.map (fun _ => active) = some l ∧ q ∈ l) ∧
            (∀ q, (∃ l, query.map (fun _ => A') = some l ∧ q ∈ l) ↔ Event.query c q true ∈ batch) ∧
            (∀ log, Answered search query cls (h ++ (Event.check c true :: batch).map (Sigma.mk cls)) log →
              Answered search query cls h (.check c true :: (batch ++ log))) := by
          cases query with
          | none =>
            refine ⟨[], (M.check cls c active (h ++ [⟨cls, Event.check c true⟩])).2, ?_, by simp, by simp, List.Pairwise.nil,
              by simp, by simp, ?_⟩
            · refine Prod.ext ?_ rfl
              rw [hM.none_check rfl]
              rfl
            · intro log hlog
              have := Answered.check (query := none) (search := search) h c log (Or.inl rfl) (by rw [hret]; simpa using hlog)
              rw [hret] at this
              exact this
          | some f =>
            have hact' := hact (by simp)
            refine ⟨answers c active (f (h ++ [⟨cls, .check c true⟩]) cls c active),
              matching active (f (h ++ [⟨cls, .check c true⟩]) cls c active),
              (hM.some_check f rfl cls c active _ (hA0 (by simp))).trans ?_, ?_, ?_, answers_order hact', ?_, ?_, ?_⟩
            · simp
            · intro _
              exact hact'.sublist matching_sublist
            · intro ev hev
              obtain ⟨q, i, _, rfl⟩ := mem_answers.1 hev
              exact ⟨q, _, rfl⟩
            · intro q
              rw [answers_query]
              simp
            · intro q
              rw [← answers_matching]
              simp
            · intro log hlog
              exact Answered.accept h c f active _ log rfl hret rfl (by simpa using hlog)
        obtain ⟨batch, A', q1, q3, q4, q5, q6, q7, q8⟩ := hq
        rw [q1]
        dsimp only
        cases isLeaf with
        | true =>
          rw [if_pos rfl]
          refine ⟨_, _, rfl, rfl, ?_, ?_⟩
          · refine searched_stop he hce hc hne hA q4 q5 (by intro q; rw [q6]; simp) ?_
            intro x hx hd hxl _ _
            obtain ⟨y, hy, hdy⟩ := hxl
            have hl := hp.leaf ho (h2.1 rfl)
            have hyv := hp.mem.2 ⟨hy, hd.trans hdy⟩
            rw [hl] at hyv
            have := List.mem_singleton.1 hyv
            subst this
            have l1 := hd.level_le he
            have l2 := hdy.level_le (hd.valid he)
            exact hx (hd.eq_of_level he (by omega))
          · have := q8 [] (Answered.nil _)
            rwa [List.append_nil] at this
        | false =>
          rw [if_neg (by simp)]
          have hnl : e ∉ all := fun hm => by have := h2.2 hm; cases this
          have hview : ∀ x ∈ view, (T cls).Desc e x ∧ x ≠ e := by
            intro x hx
            have := hp.mem.1 hx
            exact ⟨this.2, fun hxe => hnl (hxe ▸ this.1)⟩
          have hl : (T cls).level e < (T cls).maxLevel := by
            obtain ⟨x, hx, hd⟩ := hne
            rcases desc_cases he hd with h | h
            · subst h; exact absurd hx hnl
            · exact h.1
          obtain ⟨offs, o1, o2, o3, o4, o5⟩ := splitArray_spec (hS cls) he (ho.sublist hp.sublist) hview
          rw [o1]
          simp only [Option.bind_some]
          obtain ⟨s', logs, f1, f2, f3⟩ := fold_spec (T := T) (cls := cls) (fun s : History T × List Nat => s.1)
            (P := fun i h log => Searched ltreeid all ((T cls).child e i) (query.map (fun _ => A')) log ∧
              Answered search query cls h log)
            (step := fun s i => (offs[i]?).bind (fun indexa => (offs[i + 1]?).bind (fun indexb =>
              if indexa < indexb then baseRecursion S search M ltreeid cls all ((T cls).child e i)
                (List.take (indexb - indexa) (List.drop indexa view)) (indexa + first) (s.1, M.update s.2 A') else some s)))
            (n := (T cls).nc e)
            (by
              intro i hi s
              obtain ⟨a, b, oa, ob, hab, hb, hs⟩ := o5 i hi
              rw [oa, ob]
              simp only [Option.bind_some]
              have hpc := hp.child hl hi hab hb hs
              by_cases hlt : a < b
              · rw [if_pos hlt]
                obtain ⟨s', log, r1, r2, r3, r4⟩ := ih _ (by rw [(T cls).level_child _ _ he hl hi]; omega)
                  (s.1, M.update s.2 A') rfl ((T cls).valid_child _ _ he hl hi) hpc
                  (fun hq => by dsimp only; rw [hM.some_update hq]; exact q3 hq)
                refine ⟨s', log, r1, r2, ?_, r4⟩
                cases query with
                | none => exact r3
                | some f =>
                  rw [hM.some_update (by simp)] at r3
                  exact r3
              · rw [if_neg hlt]
                refine ⟨_, [], rfl, by simp, searched_nil (Or.inl ?_), Answered.nil _⟩
                rintro ⟨x, hx, hd⟩
                have := hpc.mem.2 ⟨hx, hd⟩
                rw [show b - a = 0 by omega] at this
                simp at this)
            (h ++ (Event.check c true :: batch).map (Sigma.mk cls), active)
          rw [f1]
          refine ⟨s', _, rfl, ?_, searched_children he hl hce hc hne hA q4 q5 q6 ?_ q7 (fun i hi => (f3 i hi).1),
            q8 _ (Answered.flatMap (fun i hi => (f3 i hi).2))⟩
          · rw [f2]
            simp
          · cases query <;> simp

/-! ### Trees -/

omit hS in
/-- The nearest common ancestor of the first and the last leaf is an ancestor of all leaves. -/
theorem nca_all {T : RTree} {ls : List T.E} (ho : T.Ordered ls) {x y e : T.E} (hx : ls[0]? = some x)
    (hy : ls[ls.length - 1]? = some y) (he : T.Valid e) (h : T.IsNca e x y) : ∀ z ∈ ls, T.Desc e z := by
  intro z hz
  obtain ⟨k, hk⟩ := List.getElem?_of_mem hz
  have hkl := (List.getElem?_eq_some_iff.1 hk).1
  by_cases h0 : k = 0
  · subst h0; rw [hk] at hx; cases hx; exact h.1
  · by_cases h1 : k = ls.length - 1
    · subst h1; rw [hk] at hy; cases hy; exact h.2.1
    · have b1 := Ordered.before ho hx hk (by omega)
      have b2 := Ordered.before ho hk hy (by omega)
      rcases position_cases he (ho.1 z hz) with hd | hd | hb | hb
      · exact hd
      · exact absurd (hd.trans h.1) b1.not_desc.2
      · exact absurd (hb.desc h.2.1 Desc.refl) b2.asymm
      · exact absurd (hb.desc Desc.refl h.1) b1.asymm

end

end T8.Search
