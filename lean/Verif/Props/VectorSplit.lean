/-
C42: `vector_split` computes category offsets.
-/
import Verif.Model.VectorSplit
import Mathlib.Tactic.Linarith
import Mathlib.Tactic.Ring

namespace T8.VectorSplit
variable {α : Type}

theorem fill_eq {o : List Nat} {a b v : Nat} (h : b ≤ o.length) :
    ∃ o', fill o a b v = some o' ∧ o'.length = o.length ∧
      ∀ k, o'[k]? = if a ≤ k ∧ k < b then (if k < o.length then some v else none) else o[k]? := by
  refine ⟨_, by rw [fill, show assertO (b ≤ o.length) = some () from assertO_true h]; rfl, by simp, fun k => ?_⟩
  rw [List.getElem?_mapIdx]
  by_cases hk : k < o.length
  · rw [List.getElem?_eq_getElem hk]
    simp only [Option.map_some]
    split_ifs <;> rfl
  · rw [List.getElem?_eq_none (by omega)]
    simp only [Option.map_none]
    split_ifs <;> rfl

/-- Entry `b` is an upper bound for the position where category `k` starts. -/
def Upper (cat : α → Nat) (vals : List α) (k b : Nat) : Prop :=
  b ≤ vals.length ∧ ∀ j x, b ≤ j → vals[j]? = some x → k ≤ cat x

/-- Entry `b` is the position where category `k` starts. -/
def Exact (cat : α → Nat) (vals : List α) (k b : Nat) : Prop :=
  b ≤ vals.length ∧ ∀ j x, vals[j]? = some x → (cat x < k ↔ j < b)

/-- The invariant of both loops. -/
structure Inv (cat : α → Nat) (vals : List α) (n : Nat) (s : State) : Prop where
  step_pos : 0 < s.step
  step_le : s.step ≤ n
  low_le : s.low ≤ s.high
  high_le : s.high ≤ vals.length
  len : s.offsets.length = n + 1
  lower : s.step < n → ∀ j x, j < s.low → vals[j]? = some x → cat x < s.step
  high : s.step < n → s.offsets[s.step]? = some s.high
  upper : ∀ k b, s.step ≤ k → k ≤ n → s.offsets[k]? = some b → Upper cat vals k b
  exact : ∀ k b, k < s.step → s.offsets[k]? = some b → Exact cat vals k b

theorem advance_loop (cat : α → Nat) (vals : List α) (n : Nat) (s : State) (hs : Inv cat vals n s) :
    ∃ s', whileO (fun s : State => some (decide (s.low = s.high) && decide (s.step ≠ n))) (advance n) s = some s' ∧
      Inv cat vals n s' ∧ (s'.step < n → s'.low < s'.high) ∧
      s.step ≤ s'.step ∧ (s'.step = s.step → s'.low = s.low ∧ s'.high = s.high) := by
  have key := whileO_spec
    (cond := fun s : State => some (decide (s.low = s.high) && decide (s.step ≠ n))) (body := advance n)
    (I := fun t => Inv cat vals n t ∧ s.step ≤ t.step ∧ (t.step = s.step → t.low = s.low ∧ t.high = s.high))
    (m := fun t => n - t.step) ?_ s ⟨hs, le_rfl, fun _ => ⟨rfl, rfl⟩⟩
  · obtain ⟨s', h1, ⟨h2, h3, h4⟩, h5⟩ := key
    refine ⟨s', h1, h2, fun h => ?_, h3, h4⟩
    have := h2.low_le
    simp only [Option.some.injEq, Bool.and_eq_false_iff, decide_eq_false_iff_not, not_not] at h5
    omega
  · rintro t ⟨ht, hst, hst'⟩
    by_cases hc : t.low = t.high ∧ t.step ≠ n
    · right
      have hlt : t.step < n := lt_of_le_of_ne ht.step_le hc.2
      refine ⟨by simp [hc], ?_⟩
      have hex : Exact cat vals t.step t.high := by
        obtain ⟨hu1, hu2⟩ := ht.upper t.step t.high le_rfl hlt.le (ht.high hlt)
        refine ⟨hu1, fun j x hx => ⟨fun h => ?_, fun h => ht.lower hlt j x (by omega) hx⟩⟩
        by_contra hn
        have := hu2 j x (by omega) hx
        omega
      have hexact : ∀ k b, k < t.step + 1 → t.offsets[k]? = some b → Exact cat vals k b := by
        intro k b hk hb
        rcases Nat.lt_succ_iff_lt_or_eq.1 hk with h | h
        · exact ht.exact k b h hb
        · subst h
          rw [ht.high hlt] at hb
          obtain rfl := Option.some.inj hb
          exact hex
      by_cases he : t.step + 1 = n
      · refine ⟨{ t with step := t.step + 1 }, by simp [advance, he], ⟨⟨?_, ?_, ht.low_le, ht.high_le, ht.len, ?_, ?_, ?_, hexact⟩,
          ?_, ?_⟩, ?_⟩
        · show 0 < t.step + 1; omega
        · show t.step + 1 ≤ n; omega
        · intro h; change t.step + 1 < n at h; omega
        · intro h; change t.step + 1 < n at h; omega
        · intro k b hk; exact ht.upper k b (by change t.step + 1 ≤ k at hk; omega)
        · show s.step ≤ t.step + 1; omega
        · intro h; change t.step + 1 = s.step at h; omega
        · show n - (t.step + 1) < n - t.step; omega
      · have hb : t.step + 1 < t.offsets.length := by rw [ht.len]; omega
        have hget := List.getElem?_eq_getElem hb
        obtain ⟨hu1, hu2⟩ := ht.upper _ _ (by omega) (by omega) hget
        refine ⟨{ t with step := t.step + 1, high := t.offsets[t.step + 1] }, ?_, ⟨⟨?_, ?_, ?_, hu1, ht.len, ?_, ?_, ?_, hexact⟩,
          ?_, ?_⟩, ?_⟩
        · rw [advance, if_neg he, hget]; rfl
        · show 0 < t.step + 1; omega
        · show t.step + 1 ≤ n; omega
        · show t.low ≤ t.offsets[t.step + 1]
          by_contra hlt'
          have hlen : t.offsets[t.step + 1] < vals.length := by have := hex.1; omega
          have h1 := hu2 _ _ le_rfl (List.getElem?_eq_getElem hlen)
          have h2 := ht.lower hlt _ _ (by omega) (List.getElem?_eq_getElem hlen)
          omega
        · intro _ j x hj hx
          show cat x < t.step + 1
          have := ht.lower hlt j x hj hx; omega
        · intro _; exact hget
        · intro k b hk; exact ht.upper k b (by change t.step + 1 ≤ k at hk; omega)
        · show s.step ≤ t.step + 1; omega
        · intro h; change t.step + 1 = s.step at h; omega
        · show n - (t.step + 1) < n - t.step; omega
    · left
      simp only [Option.some.injEq, Bool.and_eq_false_iff, decide_eq_false_iff_not, not_not]
      by_cases h : t.low = t.high
      · right; by_contra hn; exact hc ⟨h, hn⟩
      · left; exact h

theorem search_eq (cat : α → Nat) (vals : List α) (hmono : ∀ (i j : Nat) (x y : α), i ≤ j → vals[i]? = some x → vals[j]? = some y → cat x ≤ cat y)
    (n : Nat) (hcat : ∀ x ∈ vals, cat x ≤ n) (s : State) (hs : Inv cat vals n s) (hstep : s.step < n)
    (hlh : s.low < s.high) :
    ∃ s', search cat vals n s = some s' ∧ Inv cat vals n s' ∧ s'.step = s.step ∧ s'.high - s'.low < s.high - s.low := by
  obtain ⟨hu1, hu2⟩ := hs.upper _ _ le_rfl hstep.le (hs.high hstep)
  have hmid : midpoint s.low s.high = s.low + (s.high - s.low) / 2 := by rw [midpoint, if_pos hlh.le]
  have hg1 : midpoint s.low s.high < s.high := by omega
  have hg2 : s.low ≤ midpoint s.low s.high := by omega
  obtain ⟨x, hget⟩ : ∃ x, vals[midpoint s.low s.high]? = some x :=
    ⟨_, List.getElem?_eq_getElem (by omega)⟩
  have hle := hcat _ (List.mem_of_getElem? hget)
  unfold search
  simp only [hget, Option.bind_eq_bind, Option.bind_some]
  rw [show assertO (cat x ≤ n) = some () from assertO_true hle, Option.bind_some]
  generalize midpoint s.low s.high = g at *
  by_cases hc : cat x < s.step
  · rw [if_pos hc]
    refine ⟨_, rfl, ⟨hs.step_pos, hs.step_le, ?_, hs.high_le, hs.len, ?_, hs.high, hs.upper, hs.exact⟩, rfl, ?_⟩
    · show g + 1 ≤ s.high; omega
    · intro h j y hj hy
      change j < g + 1 at hj
      have := hmono j g y x (by omega) hy hget
      show cat y < s.step
      omega
    · show s.high - (g + 1) < _; omega
  · rw [if_neg hc]
    obtain ⟨o', h1, h2, h3⟩ := fill_eq (o := s.offsets) (a := s.step) (b := cat x + 1) (v := g) (by rw [hs.len]; omega)
    rw [h1, Option.bind_some]
    have hlen := hs.len
    refine ⟨_, rfl, ⟨hs.step_pos, hs.step_le, ?_, ?_, ?_, hs.lower, ?_, ?_, ?_⟩, rfl, ?_⟩
    · show s.low ≤ g; exact hg2
    · show g ≤ _; have := hs.high_le; omega
    · show o'.length = n + 1; omega
    · intro _
      show o'[s.step]? = some g
      rw [h3, if_pos (by omega), if_pos (by omega)]
    · intro k b hk hkn hb
      change o'[k]? = some b at hb
      rw [h3] at hb
      split_ifs at hb with c1 c2
      · obtain rfl := Option.some.inj hb
        refine ⟨by omega, fun j y hj hy => ?_⟩
        have := hmono g j x y hj hget hy
        omega
      · exact hs.upper k b hk hkn hb
    · intro k b hk hb
      change o'[k]? = some b at hb
      change k < s.step at hk
      rw [h3, if_neg (by omega)] at hb
      exact hs.exact k b hk hb
    · show g - s.low < _; omega

/-- C42. If the categories do not decrease along the range and are smaller than the number `n` of categories (and the
sizes fit into `TCategory`), then `vector_split` ends, performs no invalid access, and position `j` has category `k`
if and only if `offsets[k] ≤ j < offsets[k + 1]`. -/
theorem C42_vector_split (w : Nat) (cat : α → Nat) (vals : List α) (offsets : List Nat) (n : Nat)
    (hn : 0 < n) (hlen : offsets.length = n + 1) (hw1 : vals.length < 2 ^ w) (hw2 : n < 2 ^ w)
    (hmono : vals.Pairwise (fun x y => cat x ≤ cat y)) (hcat : ∀ x ∈ vals, cat x < n) :
    ∃ o : List Nat, vectorSplit w cat vals offsets = some o ∧ o.length = n + 1 ∧
      o[0]? = some 0 ∧ o[n]? = some vals.length ∧
      ∀ k a b, k < n → o[k]? = some a → o[k + 1]? = some b →
        ∀ j x, vals[j]? = some x → (cat x = k ↔ a ≤ j ∧ j < b) := by
  have hne : offsets ≠ [] := by intro h; simp [h] at hlen
  have hmono' : ∀ (i j : Nat) (x y : α), i ≤ j → vals[i]? = some x → vals[j]? = some y → cat x ≤ cat y := by
    intro i j x y hij hx hy
    obtain ⟨hi, rfl⟩ := List.getElem?_eq_some_iff.1 hx
    obtain ⟨hj, rfl⟩ := List.getElem?_eq_some_iff.1 hy
    rcases Nat.eq_or_lt_of_le hij with rfl | h
    · exact le_rfl
    · exact (List.pairwise_iff_getElem.1 hmono) i j hi hj h
  unfold vectorSplit
  rw [show assertO (offsets ≠ []) = some () from assertO_true hne]
  simp only [hlen, Nat.add_sub_cancel, Nat.mod_eq_of_lt hw1, Nat.mod_eq_of_lt hw2, Option.bind_eq_bind, Option.bind_some]
  have ho0 : ∀ k, ((List.replicate (n + 1) vals.length).set 0 0)[k]? =
      if k = 0 then some 0 else if k < n + 1 then some vals.length else none := by
    intro k
    rw [List.getElem?_set]
    by_cases hk : k = 0
    · subst hk; simp
    · rw [if_neg (by omega), if_neg hk, List.getElem?_replicate]
  have fin : ∀ o : List Nat, o.length = n + 1 → o[0]? = some 0 → o[n]? = some vals.length →
      (∀ k b, k < n → o[k]? = some b → Exact cat vals k b) →
      o.length = n + 1 ∧ o[0]? = some 0 ∧ o[n]? = some vals.length ∧
      ∀ k a b, k < n → o[k]? = some a → o[k + 1]? = some b →
        ∀ j x, vals[j]? = some x → (cat x = k ↔ a ≤ j ∧ j < b) := by
    intro o h1 h2 h3 h4
    refine ⟨h1, h2, h3, fun k a b hk ha hb j x hx => ?_⟩
    have e1 := (h4 k a hk ha).2 j x hx
    have e2 : cat x < k + 1 ↔ j < b := by
      rcases Nat.eq_or_lt_of_le hk with h | h
      · have : k + 1 = n := h
        rw [this] at hb ⊢
        rw [h3] at hb
        obtain rfl := Option.some.inj hb
        have := hcat x (List.mem_of_getElem? hx)
        obtain ⟨hj, _⟩ := List.getElem?_eq_some_iff.1 hx
        omega
      · exact (h4 (k + 1) b h hb).2 j x hx
    omega
  by_cases hc : vals.length = 0 ∨ n ≤ 1
  · rw [if_pos hc]
    refine ⟨_, rfl, fin _ (by simp) (by rw [ho0]; simp) (by rw [ho0, if_neg (by omega), if_pos (by omega)]) ?_⟩
    intro k b hk hb
    rw [ho0] at hb
    rcases hc with h | h
    · have : vals = [] := List.length_eq_zero_iff.1 h
      subst this
      split_ifs at hb <;> obtain rfl := Option.some.inj hb <;> exact ⟨by simp, by simp⟩
    · rw [if_pos (by omega)] at hb
      obtain rfl := Option.some.inj hb
      exact ⟨by omega, fun j x _ => by omega⟩
  · rw [if_neg hc]
    have hinv : ∀ s : State, s = ⟨0, vals.length, 1, (List.replicate (n + 1) vals.length).set 0 0⟩ →
        Inv cat vals n s := by
      rintro s rfl
      refine ⟨by simp, by show 1 ≤ n; omega, by simp, by simp, by simp, ?_, ?_, ?_, ?_⟩
      · intro _ j x hj; exact absurd hj (by simp)
      · intro _; show (_ : List Nat)[1]? = _; rw [ho0, if_neg (by omega), if_pos (by omega)]
      · intro k b hk hkn hb
        change 1 ≤ k at hk
        change (_ : List Nat)[k]? = _ at hb
        rw [ho0, if_neg (by omega), if_pos (by omega)] at hb
        obtain rfl := Option.some.inj hb
        refine ⟨le_rfl, fun j x hj hx => ?_⟩
        rw [List.getElem?_eq_none hj] at hx; simp at hx
      · intro k b hk hb
        change k < 1 at hk
        change (_ : List Nat)[k]? = _ at hb
        rw [ho0, if_pos (by omega)] at hb
        obtain rfl := Option.some.inj hb
        exact ⟨by omega, fun j x _ => by omega⟩
    -- the last entry is never changed
    have hsearch_last : ∀ s s', Inv cat vals n s → search cat vals n s = some s' →
        s.offsets[n]? = some vals.length → s'.offsets[n]? = some vals.length := by
      intro s s' hs h hl
      unfold search at h
      simp only [Option.bind_eq_bind, Option.bind_eq_some_iff] at h
      obtain ⟨x, hx, _, _, h⟩ := h
      have hxn := hcat x (List.mem_of_getElem? hx)
      split_ifs at h with hlt
      · obtain rfl := Option.some.inj h; exact hl
      · obtain ⟨o', ho', h⟩ := Option.bind_eq_some_iff.1 h
        obtain rfl := Option.some.inj h
        obtain ⟨o'', e1, e2, e3⟩ := fill_eq (o := s.offsets) (a := s.step) (b := cat x + 1) (v := midpoint s.low s.high) (by rw [hs.len]; omega)
        rw [e1] at ho'
        obtain rfl := Option.some.inj ho'
        show o''[n]? = _
        rw [e3, if_neg (by omega)]; exact hl
    have hadv_last : ∀ s s', whileO (fun s : State => some (decide (s.low = s.high) && decide (s.step ≠ n))) (advance n) s = some s' →
        s'.offsets = s.offsets := by
      intro s s' h
      refine (whileO_inv (fun t => t.offsets = s.offsets) ?_ s s' h rfl).1
      intro t t' ht _ hb
      unfold advance at hb
      split_ifs at hb
      · obtain rfl := Option.some.inj hb; exact ht
      · simp only [Option.bind_eq_bind, Option.bind_eq_some_iff] at hb
        obtain ⟨_, _, hb⟩ := hb
        obtain rfl := Option.some.inj hb; exact ht
    have key := whileO_spec
      (cond := fun s : State => some (decide (s.step < n)))
      (body := fun s => (search cat vals n s).bind fun s =>
        whileO (fun s : State => some (decide (s.low = s.high) && decide (s.step ≠ n))) (advance n) s)
      (I := fun s => Inv cat vals n s ∧ (s.step < n → s.low < s.high) ∧
        s.offsets[n]? = some vals.length)
      (m := fun s => (n - s.step) * (vals.length + 1) + (s.high - s.low)) ?_
      ⟨0, vals.length, 1, (List.replicate (n + 1) vals.length).set 0 0⟩
      ⟨hinv _ rfl, fun _ => by show 0 < vals.length; omega,
        by show (_ : List Nat)[n]? = _; rw [ho0, if_neg (by omega), if_pos (by omega)]⟩
    · obtain ⟨s', h1, ⟨h2, h3, h5⟩, h6⟩ := key
      rw [h1]
      simp only [Option.some.injEq, decide_eq_false_iff_not, not_lt] at h6
      have hstep : s'.step = n := by have := h2.step_le; omega
      refine ⟨_, rfl, fin _ h2.len ?_ h5 (fun k b hk hb => h2.exact k b (by omega) hb)⟩
      have h0 : 0 < s'.offsets.length := by rw [h2.len]; omega
      have hg := List.getElem?_eq_getElem h0
      have := h2.exact 0 _ (by omega) hg
      rw [hg]
      have hv : 0 < vals.length := by omega
      have h7 := this.2 0 _ (List.getElem?_eq_getElem hv)
      simp only [Nat.not_lt_zero, false_iff, not_lt] at h7
      rw [Nat.le_zero.1 h7]
    · rintro s ⟨i1, i2, i4⟩
      by_cases hs : s.step < n
      · right
        refine ⟨by simp [hs], ?_⟩
        obtain ⟨t, t1, t2, t3, t4⟩ := search_eq cat vals hmono' n (fun x hx => (hcat x hx).le) s i1 hs (i2 hs)
        obtain ⟨u, u1, u2, u3, u4, u5⟩ := advance_loop cat vals n t t2
        refine ⟨u, by rw [t1]; exact u1, ⟨u2, u3, ?_⟩, ?_⟩
        · rw [hadv_last t u u1]
          exact hsearch_last s t i1 t1 i4
        · rcases Nat.eq_or_lt_of_le u4 with h | h
          · obtain ⟨e1, e2⟩ := u5 h.symm
            rw [e1, e2, ← h, t3]; omega
          · have hul : u.high - u.low ≤ vals.length := by have := u2.high_le; omega
            have : (n - s.step) * (vals.length + 1) = (n - s.step - 1) * (vals.length + 1) + (vals.length + 1) := by
              rw [← Nat.succ_mul]; congr 1; omega
            have h2 : (n - u.step) * (vals.length + 1) ≤ (n - s.step - 1) * (vals.length + 1) :=
              Nat.mul_le_mul_right _ (by omega)
            omega
      · left; simp [hs]

/-- The hypotheses of `C42_vector_split` are met by values 1, 1, 4, 5, 5 split into six categories, some of them
empty; the offsets are then determined. -/
example : ∃ o : List Nat, vectorSplit 64 (fun x : Nat => x) [1, 1, 4, 5, 5] (List.replicate 7 9) = some o ∧
    o[0]? = some 0 ∧ o[6]? = some 5 := by
  obtain ⟨o, h1, -, h2, h3, -⟩ := C42_vector_split 64 (fun x : Nat => x) [1, 1, 4, 5, 5] (List.replicate 7 9) 6
    (by decide) (by decide) (by decide) (by decide) (by decide) (by decide)
  exact ⟨o, h1, h2, h3⟩

/-- The bound on the sizes cannot be dropped: the sizes are converted to the category type, here eight bits, so that
256 values of category 0 are reported as none. -/
theorem C42_narrow_type_truncates :
    vectorSplit 8 (fun _ : Unit => 0) (List.replicate 256 ()) [7, 7, 7] = some [0, 0, 0] := by
  decide +kernel

end T8.VectorSplit
