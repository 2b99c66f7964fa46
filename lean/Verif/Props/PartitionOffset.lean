/-
C21: the offsets without weights.
-/
import Verif.Model.PartitionOffset
import Verif.Lemmas.Rounding
import Verif.Spec.Partition

namespace T8.PartitionOffset
open T8.Uniform T8.Spec

/-- The offset of process `i`. -/
theorem unweighted_getElem? (fl : ℚ → ℚ) {N : Int} (hN : N ≠ 0) {P i : Nat} (hi : i < P) :
    (unweighted fl N P none)[i]? = some ⌊fl (fl (fl N * fl (i : ℚ)) / fl (P : ℚ))⌋ := by
  rw [unweighted, if_neg hN]
  rw [List.getElem?_append_left (by simpa using hi), List.getElem?_map, List.getElem?_range hi]
  rfl

theorem unweighted_last (fl : ℚ → ℚ) {N : Int} {P : Nat} (custom : Option (List Int)) (hc : ∀ c ∈ custom, c.length = P) :
    (unweighted fl N P custom)[P]? = some N := by
  unfold unweighted
  split
  · rename_i h; subst h; simp
  · cases custom with
    | none => simp
    | some c => have := hc c rfl; simp [← this]

/-- **C21**, if the product is exact in double precision: the offset of process `i` is `⌊N i / P⌋`, so that every process gets
`⌊N / P⌋` or `⌈N / P⌉` elements. -/
theorem C21_exact {fl : ℚ → ℚ} (h : Rounding 53 fl) {N : Int} {P : Nat} (hN : 0 ≤ N) (hP : 0 < P) (hle : N * P ≤ 2 ^ 53) :
    (unweighted fl N P none).length = P + 1 ∧
    (∀ i, i ≤ P → (unweighted fl N P none)[i]? = some (N * i / P)) ∧
    (∀ i a b, i < P → (unweighted fl N P none)[i]? = some a → (unweighted fl N P none)[i + 1]? = some b →
      b - a = N / P ∨ b - a = (N + P - 1) / P) := by
  have hlen : (unweighted fl N P none).length = P + 1 := by
    rw [unweighted]; split <;> simp
  have hoff : ∀ i, i ≤ P → (unweighted fl N P none)[i]? = some (N * i / P) := by
    intro i hi
    rcases Nat.eq_or_lt_of_le hi with rfl | hlt
    · rw [unweighted_last fl none (by simp), Int.mul_ediv_cancel _ (by omega)]
    · by_cases h0 : N = 0
      · subst h0
        rw [unweighted, if_pos rfl, List.getElem?_replicate, if_pos (by omega)]; simp
      · have hPz : (0 : ℤ) < P := by exact_mod_cast hP
        have hi' : (i : ℤ) < P := by exact_mod_cast hlt
        have hNi : N * i < 2 ^ 53 := by
          have : N * i < N * P := Int.mul_lt_mul_of_pos_left hi' (by omega)
          omega
        have hNN : N ≤ 2 ^ 53 := by
          have : N * 1 ≤ N * P := Int.mul_le_mul_of_nonneg_left (by omega) hN
          omega
        have hPP : (P : ℤ) ≤ 2 ^ 53 := by
          have : 1 * (P : ℤ) ≤ N * P := Int.mul_le_mul_of_nonneg_right (by omega) (by omega)
          omega
        have hNi0 : 0 ≤ N * i := Int.mul_nonneg hN (by omega)
        have f1 : fl N = N := h.int (by rw [abs_of_nonneg hN]; exact hNN)
        have f2 : fl (i : ℚ) = (i : ℚ) := by
          have := h.int (n := (i : ℤ)) (by rw [abs_of_nonneg (by omega)]; omega)
          simpa using this
        have f3 : fl (P : ℚ) = (P : ℚ) := by
          have := h.int (n := (P : ℤ)) (by rw [abs_of_nonneg (by omega)]; omega)
          simpa using this
        have f4 : fl (N * (i : ℚ)) = ((N * i : ℤ) : ℚ) := by
          have := h.int (n := N * i) (by rw [abs_of_nonneg hNi0]; omega)
          push_cast at this ⊢
          exact this
        rw [unweighted_getElem? fl h0 hlt, f1, f2, f3, f4]
        have e := h.floor_div (a := N * i) (b := (P : ℤ)) hNi0 hPz hNi
        rw [show ((P : ℤ) : ℚ) = (P : ℚ) by push_cast; rfl] at e
        rw [e, Rat.floor_intCast_div_natCast]
  refine ⟨hlen, hoff, ?_⟩
  intro i a b hi ha hb
  rw [hoff i (by omega)] at ha
  rw [hoff (i + 1) (by omega)] at hb
  obtain rfl := Option.some.inj ha
  obtain rfl := Option.some.inj hb
  have hPz : (0 : ℤ) < P := by exact_mod_cast hP
  push_cast
  have e1 : N * ((i : ℤ) + 1) = N * i + N := by ring
  rw [e1]
  generalize N * (i : ℤ) = x
  have a1 := Int.mul_ediv_add_emod x P
  have a2 := Int.emod_nonneg x hPz.ne'
  have a3 := Int.emod_lt_of_pos x hPz
  have b1 := Int.mul_ediv_add_emod N P
  have b2 := Int.emod_nonneg N hPz.ne'
  have b3 := Int.emod_lt_of_pos N hPz
  generalize x / P = q at *
  generalize x % P = r at *
  generalize hq' : N / P = q' at *
  generalize N % P = r' at *
  have hx : x + N = P * (q + q') + (r + r') := by rw [← a1, ← b1]; ring
  by_cases hrr : r + r' < P
  · left
    have : (x + N) / P = q + q' := by
      rw [hx, Int.mul_add_ediv_left _ _ hPz.ne', Int.ediv_eq_zero_of_lt (by omega) hrr]; omega
    rw [this]; omega
  · right
    have e2 : (x + N) / P = q + q' + 1 := by
      rw [hx, show (P : ℤ) * (q + q') + (r + r') = P * (q + q' + 1) + (r + r' - P) by ring, Int.mul_add_ediv_left _ _ hPz.ne',
        Int.ediv_eq_zero_of_lt (by omega) (by omega)]; omega
    have e3 : (N + P - 1) / P = q' + 1 := by
      rw [← b1, show (P : ℤ) * q' + r' + P - 1 = P * (q' + 1) + (r' - 1) by ring, Int.mul_add_ediv_left _ _ hPz.ne',
        Int.ediv_eq_zero_of_lt (by omega) (by omega)]; omega
    rw [e2, e3]; omega

/-- **C21**, for all counts that fit the types: the offsets start at 0, do not decrease and end at `N`, and the offset of process
`i` differs from `N i / P` by at most `1 + N / 2^51`. -/
theorem C21_bounds {fl : ℚ → ℚ} (h : Rounding 53 fl) {N : Nat} {P : Nat} (hP : 0 < P) (hPlt : P < 2 ^ 31) :
    ∃ R : ElementPartition P N, R.table = unweighted fl N P none ∧
      ∀ i, i ≤ P → |(R.off i : ℚ) - N * i / P| ≤ 1 + N / 2 ^ 51 := by
  have hPq : (0 : ℚ) < P := by exact_mod_cast hP
  have hPlt' : (P : ℚ) ≤ 2 ^ 31 := by exact_mod_cast hPlt.le
  have f : ∀ i : Nat, i ≤ P → fl (i : ℚ) = i := by
    intro i hi
    have := h.int (n := (i : ℤ)) (by rw [abs_of_nonneg (by omega)]; omega)
    simpa using this
  let x : Nat → ℚ := fun i => fl (fl (fl (N : ℚ) * i) / P)
  have hN0 : (0 : ℚ) ≤ N := by positivity
  have hx0 : x 0 = 0 := by
    show fl (fl (fl (N : ℚ) * ((0 : ℕ) : ℚ)) / P) = 0
    rw [Nat.cast_zero, mul_zero, h.zero, zero_div, h.zero]
  have hmono : ∀ i, x i ≤ x (i + 1) := by
    intro i
    apply h.mono
    apply div_le_div_of_nonneg_right _ hPq.le
    apply h.mono
    apply mul_le_mul_of_nonneg_left _ (h.nonneg hN0)
    push_cast; linarith
  have hxn : ∀ i, 0 ≤ x i := fun i => h.nonneg (div_nonneg (h.nonneg (mul_nonneg (h.nonneg hN0) (by positivity))) hPq.le)
  -- error bounds
  have hup : ∀ i, x i ≤ N * i / P * (1 + 1 / 2 ^ 51) := by
    intro i
    have a1 := h.upper hN0
    have a2 := h.upper (mul_nonneg (h.nonneg hN0) (by positivity : (0 : ℚ) ≤ (i : ℚ)))
    have a3 := h.upper (div_nonneg (h.nonneg (mul_nonneg (h.nonneg hN0) (by positivity : (0 : ℚ) ≤ (i : ℚ)))) hPq.le)
    have hi0 : (0 : ℚ) ≤ (i : ℚ) := by positivity
    have b1 : fl (N : ℚ) * i ≤ N * (1 + 1 / 2 ^ 53) * i := mul_le_mul_of_nonneg_right a1 hi0
    have b2 : fl (fl (N : ℚ) * i) ≤ N * (1 + 1 / 2 ^ 53) * i * (1 + 1 / 2 ^ 53) :=
      a2.trans (mul_le_mul_of_nonneg_right b1 (by positivity))
    have b3 : fl (fl (N : ℚ) * i) / P ≤ N * (1 + 1 / 2 ^ 53) * i * (1 + 1 / 2 ^ 53) / P := div_le_div_of_nonneg_right b2 hPq.le
    have b4 := a3.trans (mul_le_mul_of_nonneg_right b3 (by positivity))
    refine b4.trans ?_
    have e : (N : ℚ) * (1 + 1 / 2 ^ 53) * i * (1 + 1 / 2 ^ 53) / P * (1 + 1 / 2 ^ 53) = N * i / P * (1 + 1 / 2 ^ 53) ^ 3 := by ring
    rw [e]
    exact mul_le_mul_of_nonneg_left (by norm_num) (by positivity)
  have hlow : ∀ i, N * i / P * (1 - 1 / 2 ^ 51) ≤ x i := by
    intro i
    have a1 := h.lower hN0
    have a2 := h.lower (mul_nonneg (h.nonneg hN0) (by positivity : (0 : ℚ) ≤ (i : ℚ)))
    have a3 := h.lower (div_nonneg (h.nonneg (mul_nonneg (h.nonneg hN0) (by positivity : (0 : ℚ) ≤ (i : ℚ)))) hPq.le)
    have hi0 : (0 : ℚ) ≤ (i : ℚ) := by positivity
    have b1 : N * (1 - 1 / 2 ^ 53) * i ≤ fl (N : ℚ) * i := mul_le_mul_of_nonneg_right a1 hi0
    have b2 : N * (1 - 1 / 2 ^ 53) * i * (1 - 1 / 2 ^ 53) ≤ fl (fl (N : ℚ) * i) :=
      (mul_le_mul_of_nonneg_right b1 (by norm_num)).trans a2
    have b3 : N * (1 - 1 / 2 ^ 53) * i * (1 - 1 / 2 ^ 53) / P ≤ fl (fl (N : ℚ) * i) / P := div_le_div_of_nonneg_right b2 hPq.le
    have b4 := (mul_le_mul_of_nonneg_right b3 (by norm_num : (0 : ℚ) ≤ 1 - 1 / 2 ^ 53)).trans a3
    refine le_trans ?_ b4
    have e : (N : ℚ) * (1 - 1 / 2 ^ 53) * i * (1 - 1 / 2 ^ 53) / P * (1 - 1 / 2 ^ 53) = N * i / P * (1 - 1 / 2 ^ 53) ^ 3 := by ring
    rw [e]
    exact mul_le_mul_of_nonneg_left (by norm_num) (by positivity)
  have hNiP : ∀ i, i ≤ P → (N : ℚ) * i / P ≤ N := by
    intro i hi
    rw [div_le_iff₀ hPq]
    exact mul_le_mul_of_nonneg_left (by exact_mod_cast hi) hN0
  have htop : x (P - 1) ≤ N := by
    refine (hup _).trans ?_
    have e1 : ((P - 1 : ℕ) : ℚ) = P - 1 := by rw [Nat.cast_sub hP]; simp
    rw [e1]
    have e2 : (N : ℚ) * (P - 1) / P = N * (1 - 1 / P) := by field_simp
    rw [e2, mul_assoc]
    have e3 : (1 : ℚ) / 2 ^ 31 ≤ 1 / P := one_div_le_one_div_of_le hPq hPlt'
    have e4 : (1 : ℚ) / P ≤ 1 := by rw [div_le_one hPq]; exact_mod_cast hP
    have e5 : (1 - 1 / (P : ℚ)) * (1 + 1 / 2 ^ 51) ≤ 1 := by
      calc (1 - 1 / (P : ℚ)) * (1 + 1 / 2 ^ 51) ≤ (1 - 1 / 2 ^ 31) * (1 + 1 / 2 ^ 51) :=
            mul_le_mul_of_nonneg_right (by linarith) (by norm_num)
        _ ≤ 1 := by norm_num
    calc (N : ℚ) * ((1 - 1 / P) * (1 + 1 / 2 ^ 51)) ≤ N * 1 := mul_le_mul_of_nonneg_left e5 hN0
      _ = N := mul_one _
  let off : Nat → Nat := fun i => if i < P then ⌊x i⌋.toNat else N
  have hoff : ∀ i, i < P → (off i : ℤ) = ⌊x i⌋ := by
    intro i hi
    show ((if i < P then ⌊x i⌋.toNat else N : ℕ) : ℤ) = _
    rw [if_pos hi, Int.toNat_of_nonneg (Int.floor_nonneg.2 (hxn i))]
  have hoffP : off P = N := if_neg (by omega)
  let R : ElementPartition P N :=
    { off := off
      pos := hP
      zero := by
        have := hoff 0 hP
        rw [hx0, Int.floor_zero] at this
        omega
      top := hoffP
      mono := by
        intro i hi
        have h1 := hoff i hi
        rcases Nat.lt_or_ge (i + 1) P with hlt | hge
        · have h2 := hoff (i + 1) hlt
          have h3 := Int.floor_mono (hmono i)
          omega
        · have h2 : i = P - 1 := by omega
          have h3 : off (i + 1) = N := by rw [show i + 1 = P by omega]; exact hoffP
          have h4 : ⌊x i⌋ ≤ N := by
            rw [h2]
            exact_mod_cast (Int.floor_le (x (P - 1))).trans htop
          omega }
  refine ⟨R, ?_, ?_⟩
  · apply List.ext_getElem?
    intro i
    show ((List.range (P + 1)).map (fun p => (off p : Int)))[i]? = _
    rcases Nat.lt_or_ge i (P + 1) with hi | hi
    · rw [List.getElem?_map, List.getElem?_range hi]
      rcases Nat.lt_or_ge i P with hlt | hge
      · by_cases hN : N = 0
        · subst hN
          rw [unweighted, if_pos (by simp), List.getElem?_replicate, if_pos (by omega)]
          have h1 := hoff i hlt
          have h2 := hup i
          have h3 : ⌊x i⌋ = 0 := by
            have : x i = 0 := le_antisymm (by simpa using h2) (hxn i)
            rw [this, Int.floor_zero]
          show some ((off i : ℕ) : ℤ) = some 0
          rw [h1, h3]
        · rw [unweighted_getElem? fl (by exact_mod_cast hN) hlt, f i (by omega), f P le_rfl]
          show some ((off i : ℕ) : ℤ) = _
          rw [hoff i hlt]
          simp only [x]
          push_cast
          rfl
      · have : i = P := by omega
        subst this
        rw [unweighted_last fl none (by simp)]
        show some ((off i : ℕ) : ℤ) = _
        rw [hoffP]
    · rw [List.getElem?_eq_none (by simpa using hi), List.getElem?_eq_none]
      rw [unweighted]; split <;> simp <;> omega
  · intro i hi
    show |(off i : ℚ) - N * i / P| ≤ _
    rcases Nat.lt_or_ge i P with hlt | hge
    · have h1 : (off i : ℚ) = (⌊x i⌋ : ℚ) := by
        have := hoff i hlt
        exact_mod_cast this
      have h2 := Int.floor_le (x i)
      have h3 := Int.lt_floor_add_one (x i)
      have h4 := hup i
      have h5 := hlow i
      have h6 := hNiP i hi
      rw [h1, abs_le]
      constructor
      · have : N * i / P * (1 / 2 ^ 51 : ℚ) ≤ N / 2 ^ 51 := by
          rw [div_eq_mul_one_div (N : ℚ) (2 ^ 51)]
          exact mul_le_mul_of_nonneg_right h6 (by norm_num)
        have e : (N : ℚ) * i / P * (1 - 1 / 2 ^ 51) = N * i / P - N * i / P * (1 / 2 ^ 51) := by ring
        rw [e] at h5
        linarith
      · have : N * i / P * (1 / 2 ^ 51 : ℚ) ≤ N / 2 ^ 51 := by
          rw [div_eq_mul_one_div (N : ℚ) (2 ^ 51)]
          exact mul_le_mul_of_nonneg_right h6 (by norm_num)
        have e : (N : ℚ) * i / P * (1 + 1 / 2 ^ 51) = N * i / P + N * i / P * (1 / 2 ^ 51) := by ring
        rw [e] at h4
        linarith
    · have : i = P := by omega
      subst this
      rw [hoffP, mul_div_assoc, div_self hPq.ne', mul_one, sub_self, abs_zero]
      positivity

/-- The hypotheses of `C21_exact` hold for ten thousand million elements on 10000 processes. -/
example : (unweighted (roundNE 53) 10000000001 10000 none)[9999]? = some (10000000001 * 9999 / 10000) :=
  (C21_exact (roundNE_rounding (by decide)) (by decide) (by decide) (by decide)).2.1 9999 (by decide)

/-- Beyond the range of exact products the numbers of elements may differ by more than one: here 127 on two processes. -/
theorem C21_inexact : unweighted (roundNE 53) (2 ^ 60 + 127) 2 none = [0, 2 ^ 59, 2 ^ 60 + 127] := by
  decide +kernel

/-- Offsets that were set by the user are taken over. -/
theorem C21_custom (fl : ℚ → ℚ) {N : Int} (hN : N ≠ 0) {P : Nat} (c : List Int) (hc : c.length = P) :
    (unweighted fl N P (some c)).length = P + 1 ∧ (∀ i, i < P → (unweighted fl N P (some c))[i]? = c[i]?) ∧
    (unweighted fl N P (some c))[P]? = some N := by
  have e : unweighted fl N P (some c) = c ++ [N] := by rw [unweighted, if_neg hN]
  rw [e]
  subst hc
  refine ⟨by simp, fun i hi => List.getElem?_append_left hi, by simp⟩

end T8.PartitionOffset
