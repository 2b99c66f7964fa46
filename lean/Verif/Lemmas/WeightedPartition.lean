/-
The offsets of a partition by weights.
-/
import Verif.Model.PartitionOffset
import Verif.Spec.WeightedPartition
import Mathlib.Tactic.Linarith
import Mathlib.Tactic.Ring
import Mathlib.Tactic.Positivity
import Mathlib.Tactic.FieldSimp
import Mathlib.Data.Rat.Floor
import Mathlib.Algebra.Order.BigOperators.Group.List
import Mathlib.Data.List.GetD

namespace T8.PartitionOffset
open T8.Spec

/-- Under what circumstances rounding has no effect: `V` are the weights that can occur, `W` is the total weight. -/
structure Exact (fl : ℚ → ℚ) (P : Nat) (W : ℚ) (V : ℚ → Prop) : Prop where
  zero : V 0
  nonneg : ∀ a, V a → 0 ≤ a
  add : ∀ a b, V a → V b → a + b ≤ W → fl (a + b) = a + b ∧ V (a + b)
  cmp : ∀ a (i : Nat), V a → a ≤ W → i ≤ P → (fl (fl (W * fl (i : ℚ)) / fl (P : ℚ)) < a ↔ W * i < a * P)
  ceil : ∀ a, V a → a ≤ W → ⌈fl (fl (fl (P : ℚ) * a) / W)⌉ = ⌈P * a / W⌉

theorem firstId_eq (ws : Nat → List ℚ) (r : Nat) : firstId ws r = ((List.range r).flatMap ws).length := by
  induction r with
  | zero => rfl
  | succ r ih => rw [firstId, ih, List.range_succ, List.flatMap_append, List.length_append]; simp

theorem firstId_mono (ws : Nat → List ℚ) {r s : Nat} (h : r ≤ s) : firstId ws r ≤ firstId ws s := by
  induction h with
  | refl => exact le_rfl
  | step _ ih => exact ih.trans (by rw [firstId]; omega)

theorem flatMap_split (ws : Nat → List ℚ) {r P : Nat} (h : r < P) :
    ∃ rest, (List.range P).flatMap ws = (List.range r).flatMap ws ++ (ws r ++ rest) := by
  obtain ⟨k, rfl⟩ : ∃ k, P = r + 1 + k := ⟨P - (r + 1), by omega⟩
  refine ⟨((List.range k).map (fun i => r + 1 + i)).flatMap ws, ?_⟩
  rw [List.range_add, List.flatMap_append, List.range_succ, List.flatMap_append]
  simp

/-- The weight before an element of process `r`. -/
theorem weightBefore_rank (ws : Nat → List ℚ) {r P k : Nat} (h : r < P) (hk : k ≤ (ws r).length) :
    weightBefore ((List.range P).flatMap ws) (firstId ws r + k) =
      ((List.range r).flatMap ws).sum + ((ws r).take k).sum := by
  obtain ⟨rest, e⟩ := flatMap_split ws h
  rw [weightBefore, e, firstId_eq, List.take_length_add_append, List.sum_append, List.take_append_of_le_length hk]

theorem weightBefore_mono {L : List ℚ} (hL : ∀ x ∈ L, 0 ≤ x) {a b : Nat} (h : a ≤ b) : weightBefore L a ≤ weightBefore L b := by
  obtain ⟨k, rfl⟩ : ∃ k, b = a + k := ⟨b - a, by omega⟩
  rw [weightBefore, weightBefore, List.take_add, List.sum_append]
  have : 0 ≤ ((L.drop a).take k).sum := List.sum_nonneg (fun x hx => hL x (List.mem_of_mem_drop (List.mem_of_mem_take hx)))
  linarith

theorem weightBefore_le {L : List ℚ} (hL : ∀ x ∈ L, 0 ≤ x) (a : Nat) : weightBefore L a ≤ L.sum := by
  have := weightBefore_mono hL (a := a) (b := max a L.length) (le_max_left _ _)
  rwa [weightBefore, weightBefore, List.take_of_length_le (le_max_right a L.length)] at this

section
variable {fl : ℚ → ℚ} {P : Nat} {W : ℚ} {V : ℚ → Prop} (h : Exact fl P W V)
include h

theorem Exact.foldl (ws : List ℚ) : ∀ s, V s → (∀ x ∈ ws, V x) → s + ws.sum ≤ W →
    ws.foldl (fun s w => fl (s + w)) s = s + ws.sum ∧ V (s + ws.sum) := by
  induction ws with
  | nil => intro s hs _ _; simpa using hs
  | cons w ws ih =>
    intro s hs hw hle
    rw [List.sum_cons] at hle ⊢
    have hws : 0 ≤ ws.sum := List.sum_nonneg (fun x hx => h.nonneg x (hw x (List.mem_cons_of_mem _ hx)))
    obtain ⟨e, hv⟩ := h.add s w hs (hw w List.mem_cons_self) (by linarith)
    rw [List.foldl_cons, e, ← add_assoc]
    exact ih (s + w) hv (fun x hx => hw x (List.mem_cons_of_mem _ hx)) (by linarith)

theorem Exact.exscan (ws : Nat → List ℚ) (hV : ∀ r, r < P → ∀ x ∈ ws r, V x) : ∀ r, r < P →
    ((List.range (r + 1)).flatMap ws).sum ≤ W →
    exscan fl (fun r => localSum fl (ws r)) r = ((List.range r).flatMap ws).sum ∧ V ((List.range r).flatMap ws).sum ∧
    localSum fl (ws r) = (ws r).sum ∧ V (ws r).sum := by
  have hsum : ∀ r, ((List.range (r + 1)).flatMap ws).sum = ((List.range r).flatMap ws).sum + (ws r).sum := by
    intro r; rw [List.range_succ, List.flatMap_append, List.sum_append]; simp
  have hnn : ∀ r, r < P → 0 ≤ (ws r).sum := fun r hr => List.sum_nonneg (fun x hx => h.nonneg x (hV r hr x hx))
  have hnf : ∀ r, r ≤ P → 0 ≤ ((List.range r).flatMap ws).sum := by
    intro r hr
    apply List.sum_nonneg
    intro x hx
    obtain ⟨q, hq, hx⟩ := List.mem_flatMap.1 hx
    exact h.nonneg x (hV q (by have := List.mem_range.1 hq; omega) x hx)
  intro r
  induction r using Nat.strongRecOn with
  | _ r ih =>
    intro hr hle
    have hl : localSum fl (ws r) = (ws r).sum ∧ V (ws r).sum := by
      have := h.foldl (ws r) 0 h.zero (hV r hr) (by rw [hsum] at hle; have := hnf r hr.le; linarith)
      rwa [zero_add] at this
    match r, ih, hr, hle, hl with
    | 0, _, _, _, hl => exact ⟨by simp [PartitionOffset.exscan], by simpa using h.zero, hl⟩
    | 1, ih, hr, hle, hl =>
      obtain ⟨_, _, h3, h4⟩ := ih 0 (by omega) (by omega) (by rw [hsum 1] at hle; have := hnn 1 hr; linarith)
      refine ⟨?_, ?_, hl⟩
      · rw [PartitionOffset.exscan, h3]; simp
      · simpa using h4
    | r + 2, ih, hr, hle, hl =>
      have hle' : ((List.range (r + 1 + 1)).flatMap ws).sum ≤ W := by
        rw [hsum (r + 2)] at hle; have := hnn (r + 2) hr; linarith
      obtain ⟨h1, h2, h3, h4⟩ := ih (r + 1) (by omega) (by omega) hle'
      obtain ⟨e, hv⟩ := h.add _ _ h2 h4 (by rw [hsum] at hle'; exact hle')
      refine ⟨?_, ?_, hl⟩
      · rw [PartitionOffset.exscan, h1, h3, e, hsum (r + 1)]
      · rw [hsum (r + 1)]; exact hv
end

/-- The first process whose range starts behind the weight `a`. -/
def cutAt (P : Nat) (W a : ℚ) : Nat := ⌈P * a / W⌉.toNat

theorem cutAt_cast {P : Nat} {W a : ℚ} (hW : 0 < W) (ha : 0 ≤ a) : (cutAt P W a : ℤ) = ⌈P * a / W⌉ := by
  rw [cutAt, Int.toNat_of_nonneg]
  apply Int.ceil_nonneg
  positivity

theorem lt_cutAt {P : Nat} {W a : ℚ} (hW : 0 < W) (ha : 0 ≤ a) (i : Nat) : i < cutAt P W a ↔ W * i < a * P := by
  have : ((i : ℤ) < (cutAt P W a : ℤ)) ↔ W * i < a * P := by
    rw [cutAt_cast hW ha, Int.lt_ceil, lt_div_iff₀ hW]
    push_cast
    rw [mul_comm (i : ℚ) W, mul_comm (P : ℚ) a]
  exact_mod_cast this

theorem cutAt_mono {P : Nat} {W a b : ℚ} (hW : 0 < W) (hab : a ≤ b) : cutAt P W a ≤ cutAt P W b := by
  unfold cutAt
  apply Int.toNat_le_toNat
  apply Int.ceil_mono
  apply div_le_div_of_nonneg_right _ hW.le
  exact mul_le_mul_of_nonneg_left hab (by positivity)

theorem cutAt_zero (P : Nat) (W : ℚ) : cutAt P W 0 = 0 := by simp [cutAt]

theorem cutAt_top {P : Nat} {W : ℚ} (hW : 0 < W) : cutAt P W W = P := by
  rw [cutAt, mul_div_assoc, div_self hW.ne', mul_one]; simp

section
variable {fl : ℚ → ℚ} {P : Nat} {L : List ℚ} {V : ℚ → Prop} (h : Exact fl P L.sum V) (hW : 0 < L.sum)
  (hL : ∀ x ∈ L, 0 ≤ x)
  (own : Nat → Nat)

/-- What has been computed before element `e`, on the process that fills the entries from `rb` to before `re`. -/
structure Filled (P : Nat) (L : List ℚ) (own : Nat → Nat) (rb re e i : Nat) (s : State) : Prop where
  iproc : s.iproc = i
  length : s.offsets.length = re - rb
  entries : ∀ j, rb ≤ j → j < i → s.offsets[j - rb]? = some (own j : Int)

include h hW hL in
theorem setOffsets_spec {rb re e : Nat} (hrb : rb ≤ cutAt P L.sum (weightBefore L e))
    (hre : cutAt P L.sum (weightBefore L (e + 1)) ≤ re) (hV : V (weightBefore L (e + 1)))
    (hown : ∀ j, cutAt P L.sum (weightBefore L e) ≤ j → j < cutAt P L.sum (weightBefore L (e + 1)) → own j = e)
    (s : State) (hs : Filled P L own rb re e (cutAt P L.sum (weightBefore L e)) s) (hacc : s.acc = weightBefore L (e + 1))
    (hgid : s.gid = e) :
    ∃ s', setOffsets fl P L.sum rb re s = some s' ∧
      Filled P L own rb re (e + 1) (cutAt P L.sum (weightBefore L (e + 1))) s' ∧ s'.acc = weightBefore L (e + 1) ∧ s'.gid = e := by
  have hle : weightBefore L (e + 1) ≤ L.sum := weightBefore_le hL _
  have hP : cutAt P L.sum (weightBefore L (e + 1)) ≤ P := by
    have := cutAt_mono (P := P) hW hle
    rwa [cutAt_top hW] at this
  have hmono : cutAt P L.sum (weightBefore L e) ≤ cutAt P L.sum (weightBefore L (e + 1)) :=
    cutAt_mono hW (weightBefore_mono hL (by omega))
  let I : State → Prop := fun s => ∃ i, cutAt P L.sum (weightBefore L e) ≤ i ∧ i ≤ cutAt P L.sum (weightBefore L (e + 1)) ∧
    Filled P L own rb re e i s ∧ s.acc = weightBefore L (e + 1) ∧ s.gid = e
  have hcond : ∀ (s : State) (i : Nat), s.iproc = i → s.acc = weightBefore L (e + 1) → i ≤ P →
      decide (s.acc > fl (fl (L.sum * fl (s.iproc : ℚ)) / fl (P : ℚ))) = decide (i < cutAt P L.sum (weightBefore L (e + 1))) := by
    intro s i hi ha hiP
    rw [hi, ha, Int.cast_natCast]
    congr 1
    rw [gt_iff_lt, h.cmp _ i hV hle hiP, lt_cutAt hW (h.nonneg _ hV)]
  obtain ⟨s', hs', ⟨i, h1, h2, hf, ha, hg⟩, hc⟩ := whileO_spec
    (cond := fun s : State => some (decide (s.acc > fl (fl (L.sum * fl (s.iproc : ℚ)) / fl (P : ℚ)))))
    (body := fun s : State => do
      assertO ((rb : Int) ≤ s.iproc ∧ s.iproc < (re : Int))
      some { s with offsets := s.offsets.set (s.iproc - rb).toNat s.gid, iproc := s.iproc + 1 })
    I (fun s => ((P : Int) - s.iproc).toNat) (by
      rintro s ⟨i, h1, h2, hf, ha, hg⟩
      have hc := hcond s i hf.iproc ha (by omega)
      rcases Nat.lt_or_ge i (cutAt P L.sum (weightBefore L (e + 1))) with hlt | hge
      · right
        refine ⟨by rw [hc, decide_eq_true hlt],
          { s with offsets := s.offsets.set (s.iproc - rb).toNat s.gid, iproc := s.iproc + 1 }, ?_, ?_, ?_⟩
        · rw [show assertO ((rb : Int) ≤ s.iproc ∧ s.iproc < (re : Int)) = some () from
            assertO_true (by rw [hf.iproc]; constructor <;> omega)]
          rfl
        · refine ⟨i + 1, by omega, by omega, ⟨?_, ?_, ?_⟩, ha, hg⟩
          · show s.iproc + 1 = _
            rw [hf.iproc]; push_cast; rfl
          · show (s.offsets.set (s.iproc - rb).toNat s.gid).length = _
            rw [List.length_set, hf.length]
          · intro j hj1 hj2
            show (s.offsets.set (s.iproc - rb).toNat s.gid)[j - rb]? = _
            rw [hf.iproc, hg, show ((i : Int) - (rb : Int)).toNat = i - rb by omega]
            rcases Nat.lt_or_ge j i with hji | hji
            · rw [List.getElem?_set_ne (by omega), hf.entries j hj1 hji]
            · obtain rfl : j = i := by omega
              rw [List.getElem?_set_self (by rw [hf.length]; omega), hown j h1 hlt]
        · show ((P : Int) - (s.iproc + 1)).toNat < ((P : Int) - s.iproc).toNat
          rw [hf.iproc]; omega
      · left
        rw [hc, decide_eq_false (by omega)]) s ⟨_, le_rfl, hmono, hs, hacc, hgid⟩
  refine ⟨s', hs', ?_, ha, hg⟩
  rw [hcond s' i hf.iproc ha (by omega)] at hc
  have hi : i = cutAt P L.sum (weightBefore L (e + 1)) := by
    have := of_decide_eq_false (Option.some.inj hc)
    omega
  exact ⟨hi ▸ hf.iproc, hf.length, hi ▸ hf.entries⟩

include h hW hL in
theorem elementLoop_spec {rb re : Nat}
    (hown : ∀ e j, cutAt P L.sum (weightBefore L e) ≤ j → j < cutAt P L.sum (weightBefore L (e + 1)) → own j = e) :
    ∀ (ws : List ℚ) (e : Nat) (s : State), (∀ k, k ≤ ws.length → weightBefore L (e + k) = weightBefore L e + (ws.take k).sum) →
      (∀ k, k ≤ ws.length → V (weightBefore L (e + k))) → (∀ x ∈ ws, V x) →
      rb ≤ cutAt P L.sum (weightBefore L e) → cutAt P L.sum (weightBefore L (e + ws.length)) ≤ re →
      Filled P L own rb re e (cutAt P L.sum (weightBefore L e)) s → s.acc = weightBefore L e → s.gid = e →
      ∃ s', elementLoop fl P L.sum rb re ws s = some s' ∧
        Filled P L own rb re (e + ws.length) (cutAt P L.sum (weightBefore L (e + ws.length))) s' := by
  intro ws
  induction ws with
  | nil => intro e s _ _ _ _ _ hs _ _; exact ⟨s, rfl, hs⟩
  | cons w ws ih =>
    intro e s hsum hV hVw hrb hre hs hacc hgid
    have h1 : weightBefore L (e + 1) = weightBefore L e + w := by
      have := hsum 1 (by simp)
      simpa using this
    have hV0 : V (weightBefore L e) := hV 0 (by simp)
    have hV1 : V (weightBefore L (e + 1)) := hV 1 (by simp)
    have hfl : fl (s.acc + w) = weightBefore L (e + 1) := by
      rw [hacc, h1]
      exact (h.add _ _ hV0 (hVw w List.mem_cons_self) (by rw [← h1]; exact weightBefore_le hL _)).1
    have hlen : e + (w :: ws).length = e + 1 + ws.length := by rw [List.length_cons]; omega
    rw [hlen] at hre ⊢
    have hm1 : cutAt P L.sum (weightBefore L (e + 1)) ≤ cutAt P L.sum (weightBefore L (e + 1 + ws.length)) :=
      cutAt_mono hW (weightBefore_mono hL (by omega))
    have hm0 : cutAt P L.sum (weightBefore L e) ≤ cutAt P L.sum (weightBefore L (e + 1)) :=
      cutAt_mono hW (weightBefore_mono hL (by omega))
    obtain ⟨s1, e1, hf1, ha1, hg1⟩ := setOffsets_spec h hW hL own hrb (hm1.trans hre) hV1 (hown e)
      { s with acc := fl (s.acc + w) } ⟨hs.iproc, hs.length, hs.entries⟩ hfl hgid
    obtain ⟨s2, e2, hf2⟩ := ih (e + 1) { s1 with gid := s1.gid + 1 }
      (by
        intro k hk
        have := hsum (k + 1) (by simpa using hk)
        rw [List.take_succ_cons, List.sum_cons, ← add_assoc (weightBefore L e), ← h1] at this
        rw [← this]; congr 1; omega)
      (by
        intro k hk
        have := hV (k + 1) (by simpa using hk)
        rwa [show e + (k + 1) = e + 1 + k by omega] at this)
      (fun x hx => hVw x (List.mem_cons_of_mem _ hx)) (hrb.trans hm0) hre
      ⟨hf1.iproc, hf1.length, hf1.entries⟩ ha1 (by show s1.gid + 1 = _; rw [hg1]; push_cast; rfl)
    refine ⟨s2, ?_, hf2⟩
    rw [elementLoop, e1]
    exact e2

end

theorem mapM_range_some {α : Type} (g : Nat → Option α) (l : Nat → α) (n : Nat) (h : ∀ r, r < n → g r = some (l r)) :
    (List.range n).mapM g = some ((List.range n).map l) := by
  have : ∀ xs : List Nat, (∀ x ∈ xs, x < n) → xs.mapM g = some (xs.map l) := by
    intro xs
    induction xs with
    | nil => intro _; rfl
    | cons x xs ih =>
      intro hx
      rw [List.mapM_cons, h x (hx x List.mem_cons_self), ih (fun y hy => hx y (List.mem_cons_of_mem _ hy))]
      rfl
  exact this _ (fun x hx => List.mem_range.1 hx)

theorem range_flatMap_map {α : Type} (c : Nat → Nat) (hc : ∀ r, c r ≤ c (r + 1)) (h0 : c 0 = 0) (own : Nat → α) (n : Nat) :
    (List.range n).flatMap (fun r => (List.range (c (r + 1) - c r)).map (fun k => own (c r + k))) = (List.range (c n)).map own := by
  induction n with
  | zero => simp [h0]
  | succ n ih =>
    rw [List.range_succ, List.flatMap_append, ih]
    conv_rhs => rw [show c (n + 1) = c n + (c (n + 1) - c n) by have := hc n; omega, List.range_add, List.map_append, List.map_map]
    simp [Function.comp_def]

/-- The offsets of all processes. -/
theorem weighted_spec {fl : ℚ → ℚ} {P : Nat} (hP : 0 < P) {V : ℚ → Prop} (ws : Nat → List ℚ)
    (h : Exact fl P ((List.range P).flatMap ws).sum V) (hV : ∀ r, r < P → ∀ x ∈ ws r, V x)
    (hW : 0 < ((List.range P).flatMap ws).sum) :
    ∃ R : ElementPartition P ((List.range P).flatMap ws).length, weighted fl P ws = some R.table ∧
      (∀ i, 0 < i → i < P → CutsAt ((List.range P).flatMap ws) P i (R.off i)) ∧
      ∃ lists : Nat → List Int,
        (∀ r, r < P → localOffsets fl P (forestWeight fl P (fun r => localSum fl (ws r)))
          (exscan fl (fun r => localSum fl (ws r)) r) (firstId ws r) (ws r) = some (lists r)) ∧
        ((List.range P).flatMap lists).length = P := by
  classical
  generalize hLdef : (List.range P).flatMap ws = L at *
  have hVL : ∀ x ∈ L, V x := by
    intro x hx
    rw [← hLdef] at hx
    obtain ⟨q, hq, hx⟩ := List.mem_flatMap.1 hx
    exact hV q (List.mem_range.1 hq) x hx
  have hL : ∀ x ∈ L, 0 ≤ x := fun x hx => h.nonneg x (hVL x hx)
  -- prefix sums
  have hpre : ∀ r k, r < P → k ≤ (ws r).length →
      weightBefore L (firstId ws r + k) = weightBefore L (firstId ws r) + ((ws r).take k).sum := by
    intro r k hr hk
    have h1 := weightBefore_rank ws hr hk
    have h2 := weightBefore_rank ws hr (Nat.zero_le _)
    rw [hLdef] at h1 h2
    rw [h1]
    rw [Nat.add_zero, List.take_zero, List.sum_nil, add_zero] at h2
    rw [h2]
  have hpre0 : ∀ r, r ≤ P → ((List.range r).flatMap ws).sum = weightBefore L (firstId ws r) := by
    intro r hr
    rcases Nat.eq_or_lt_of_le hr with rfl | hlt
    · rw [firstId_eq, weightBefore, hLdef, List.take_length]
    · have h2 := weightBefore_rank ws hlt (Nat.zero_le _)
      rw [hLdef] at h2
      rw [Nat.add_zero, List.take_zero, List.sum_nil, add_zero] at h2
      exact h2.symm
  have hN : firstId ws P = L.length := by rw [firstId_eq, hLdef]
  have htot : weightBefore L L.length = L.sum := by rw [weightBefore, List.take_length]
  have hVpre : ∀ r k, r < P → k ≤ (ws r).length → V (weightBefore L (firstId ws r + k)) := by
    intro r k hr hk
    have hb := h.exscan ws hV r hr (by rw [hpre0 (r + 1) hr]; exact weightBefore_le hL _)
    rw [hpre0 r hr.le] at hb
    rw [hpre r k hr hk]
    refine (h.foldl ((ws r).take k) _ hb.2.1 (fun x hx => hV r hr x (List.mem_of_mem_take hx)) ?_).2
    rw [← hpre r k hr hk]
    exact weightBefore_le hL _
  have hex : ∀ r, r < P → exscan fl (fun r => localSum fl (ws r)) r = weightBefore L (firstId ws r) ∧
      fl (weightBefore L (firstId ws r) + localSum fl (ws r)) = weightBefore L (firstId ws (r + 1)) := by
    intro r hr
    obtain ⟨h1, h2, h3, h4⟩ := h.exscan ws hV r hr (by rw [hpre0 (r + 1) hr]; exact weightBefore_le hL _)
    rw [hpre0 r hr.le] at h1 h2
    refine ⟨h1, ?_⟩
    have e := hpre r (ws r).length hr le_rfl
    rw [List.take_length] at e
    rw [h3, show firstId ws (r + 1) = firstId ws r + (ws r).length from rfl, e]
    exact (h.add _ _ h2 h4 (by rw [← e]; exact weightBefore_le hL _)).1
  have hFW : forestWeight fl P (fun r => localSum fl (ws r)) = L.sum := by
    rw [forestWeight, (hex (P - 1) (by omega)).1, (hex (P - 1) (by omega)).2, Nat.sub_add_cancel hP, hN, htot]
  -- the cuts
  let c : Nat → Nat := fun e => cutAt P L.sum (weightBefore L e)
  have cmono : ∀ {a b}, a ≤ b → c a ≤ c b := fun hab => cutAt_mono hW (weightBefore_mono hL hab)
  have c0 : c 0 = 0 := by show cutAt P L.sum (weightBefore L 0) = 0; rw [weightBefore, List.take_zero, List.sum_nil, cutAt_zero]
  have cN : c L.length = P := by show cutAt P L.sum (weightBefore L L.length) = P; rw [htot, cutAt_top hW]
  have hNpos : 0 < L.length := by
    rcases Nat.eq_zero_or_pos L.length with h0 | h0
    · rw [List.length_eq_zero_iff.1 h0] at hW; simp at hW
    · exact h0
  have hfind : ∀ j, j < P → ∃ e, j < c (e + 1) := fun j hj => ⟨L.length - 1, by rw [Nat.sub_add_cancel hNpos, cN]; exact hj⟩
  let own : Nat → Nat := fun j => if hj : ∃ e, j < c (e + 1) then Nat.find hj else 0
  have hown : ∀ e j, c e ≤ j → j < c (e + 1) → own j = e := by
    intro e j h1 h2
    have hj : ∃ e, j < c (e + 1) := ⟨e, h2⟩
    show (if hj : ∃ e, j < c (e + 1) then Nat.find hj else 0) = e
    rw [dif_pos hj]
    apply le_antisymm (Nat.find_min' hj h2)
    by_contra hlt
    have h3 := Nat.find_spec hj
    have h4 : c (Nat.find hj + 1) ≤ c e := cmono (by omega)
    omega
  have hownspec : ∀ j, j < P → j < c (own j + 1) ∧ ∀ e, e < own j → c (e + 1) ≤ j := by
    intro j hj
    have hj' := hfind j hj
    have e : own j = Nat.find hj' := dif_pos hj'
    rw [e]
    exact ⟨Nat.find_spec hj', fun e he => by have := Nat.find_min hj' he; omega⟩
  -- the local offsets
  have hlocal : ∀ r, r < P → localOffsets fl P (forestWeight fl P (fun r => localSum fl (ws r)))
      (exscan fl (fun r => localSum fl (ws r)) r) (firstId ws r) (ws r) =
      some ((List.range (c (firstId ws (r + 1)) - c (firstId ws r))).map (fun k => ((own (c (firstId ws r) + k) : Nat) : Int))) := by
    intro r hr
    have hsucc : firstId ws (r + 1) = firstId ws r + (ws r).length := rfl
    have hV0 : V (weightBefore L (firstId ws r)) := hVpre r 0 hr (Nat.zero_le _)
    have hV1 : V (weightBefore L (firstId ws (r + 1))) := hVpre r _ hr le_rfl
    have e0 : rankBegin fl P (weightBefore L (firstId ws r)) L.sum = (c (firstId ws r) : Int) := by
      rw [rankBegin, h.ceil _ hV0 (weightBefore_le hL _)]
      exact (cutAt_cast hW (h.nonneg _ hV0)).symm
    have e1 : rankBegin fl P (weightBefore L (firstId ws (r + 1))) L.sum = (c (firstId ws (r + 1)) : Int) := by
      rw [rankBegin, h.ceil _ hV1 (weightBefore_le hL _)]
      exact (cutAt_cast hW (h.nonneg _ hV1)).symm
    have hle : c (firstId ws r) ≤ c (firstId ws (r + 1)) := cmono (by rw [hsucc]; omega)
    rw [hFW, (hex r hr).1, localOffsets, (hex r hr).2, e0, e1]
    dsimp only
    rw [show assertO (L.sum ≠ 0) = some () from assertO_true hW.ne',
      show assertO ((c (firstId ws r) : Int) ≤ (c (firstId ws (r + 1)) : Int)) = some () from assertO_true (by exact_mod_cast hle)]
    obtain ⟨s, hs, hf⟩ := elementLoop_spec h hW hL own (rb := c (firstId ws r)) (re := c (firstId ws (r + 1))) hown (ws r) (firstId ws r)
      ⟨weightBefore L (firstId ws r), (firstId ws r : Nat), (c (firstId ws r) : Nat),
        List.replicate ((c (firstId ws (r + 1)) : Int) - (c (firstId ws r) : Int)).toNat 0⟩
      (fun k hk => hpre r k hr hk) (fun k hk => hVpre r k hr hk) (hV r hr) le_rfl le_rfl
      ⟨rfl, by rw [List.length_replicate]; omega, fun j h1 h2 => absurd h2 (by show ¬ j < c _; omega)⟩ rfl rfl
    simp only [Option.bind_eq_bind, Option.bind_some]
    rw [hs]
    simp only [Option.bind_some]
    rw [show assertO (s.iproc = (c (firstId ws (r + 1)) : Int)) = some () from assertO_true hf.iproc]
    simp only [Option.bind_some]
    congr 1
    apply List.ext_getElem?
    intro k
    rcases Nat.lt_or_ge k (c (firstId ws (r + 1)) - c (firstId ws r)) with hk | hk
    · have := hf.entries (c (firstId ws r) + k) (by omega) (by show _ < c (firstId ws (r + 1)); omega)
      rw [Nat.add_sub_cancel_left] at this
      rw [this, List.getElem?_map, List.getElem?_range hk]
      rfl
    · rw [List.getElem?_eq_none (by rw [hf.length]; exact hk), List.getElem?_eq_none (by simpa using hk)]
  have hflat : (List.range P).flatMap (fun r =>
      (List.range (c (firstId ws (r + 1)) - c (firstId ws r))).map (fun k => ((own (c (firstId ws r) + k) : Nat) : Int))) =
      (List.range P).map (fun j => ((own j : Nat) : Int)) := by
    rw [range_flatMap_map (fun r => c (firstId ws r)) (fun r => cmono (firstId_mono ws (Nat.le_succ r))) (by
      show c (firstId ws 0) = 0; exact c0) (fun j => ((own j : Nat) : Int)) P]
    show (List.range (c (firstId ws P))).map _ = _
    rw [hN, cN]
  have hownlt : ∀ j, j < P → own j < L.length := by
    intro j hj
    by_contra hge
    have := (hownspec j hj).2 (L.length - 1) (by omega)
    rw [Nat.sub_add_cancel hNpos, cN] at this
    omega
  let off : Nat → Nat := fun i => if i = 0 then 0 else if i < P then own i else L.length
  let R : ElementPartition P L.length :=
    { off := off
      pos := hP
      zero := if_pos rfl
      top := by show (if P = 0 then 0 else if P < P then own P else L.length) = _; rw [if_neg (by omega), if_neg (by omega)]
      mono := by
        intro i hi
        show (if i = 0 then 0 else if i < P then own i else L.length) ≤
          (if i + 1 = 0 then 0 else if i + 1 < P then own (i + 1) else L.length)
        rw [if_neg (by omega : ¬ i + 1 = 0), if_pos hi]
        split
        · omega
        · split
          · rename_i hlt
            by_contra hc
            have := (hownspec i hi).2 (own (i + 1)) (by omega)
            have := (hownspec (i + 1) hlt).1
            omega
          · exact (hownlt i hi).le }
  refine ⟨R, ?_, ?_, _, hlocal, ?_⟩
  · rw [weighted]
    dsimp only
    rw [mapM_range_some _ _ P hlocal]
    simp only [Option.bind_eq_bind, Option.bind_some]
    rw [← List.flatMap_def, hflat]
    rw [show assertO (((List.range P).map (fun j => ((own j : Nat) : Int))).length ≤ P + 1) = some () from
      assertO_true (by simp)]
    simp only [Option.bind_some, List.length_map, List.length_range]
    rw [Nat.add_sub_cancel_left]
    congr 1
    apply List.ext_getElem?
    intro i
    show _ = ((List.range (P + 1)).map (fun p => (off p : Int)))[i]?
    rw [hN]
    rcases Nat.lt_trichotomy i P with hi | hi | hi
    · rw [List.getElem?_set_ne (by omega), List.getElem?_map, List.getElem?_range (by omega)]
      show _ = some ((if i = 0 then 0 else if i < P then own i else L.length : Nat) : Int)
      by_cases h0 : i = 0
      · subst h0
        rw [List.getElem?_set_self (by simp), if_pos rfl]; rfl
      · rw [List.getElem?_set_ne (by omega), if_neg h0, if_pos hi, List.getElem?_append_left (by simpa using hi), List.getElem?_map,
          List.getElem?_range hi]
        rfl
    · subst hi
      rw [List.getElem?_set_self (by simp), List.getElem?_map, List.getElem?_range (by omega)]
      show _ = some ((if i = 0 then 0 else if i < i then own i else L.length : Nat) : Int)
      rw [if_neg (by omega), if_neg (by omega)]
    · rw [List.getElem?_eq_none (by simp; omega), List.getElem?_eq_none (by simp; omega)]
  · intro i h0 hi
    have e : R.off i = own i := by
      show (if i = 0 then 0 else if i < P then own i else L.length) = _
      rw [if_neg (by omega), if_pos hi]
    rw [e]
    have hPq : (0 : ℚ) < P := by exact_mod_cast hP
    have hlt : ∀ a, 0 ≤ a → (i < cutAt P L.sum a ↔ L.sum * i / P < a) := by
      intro a ha
      rw [lt_cutAt hW ha, div_lt_iff₀ hPq]
    have hpos : ∀ e, 0 ≤ weightBefore L e := fun e => List.sum_nonneg (fun x hx => hL x (List.mem_of_mem_take hx))
    refine ⟨hownlt i hi, (hlt _ (hpos _)).1 (hownspec i hi).1, fun e' he' => ?_⟩
    have : cutAt P L.sum (weightBefore L (e' + 1)) ≤ i := (hownspec i hi).2 e' he'
    by_contra hc
    have := (hlt _ (hpos (e' + 1))).2 (by push Not at hc; exact hc)
    omega
  · rw [hflat]; simp

end T8.PartitionOffset
