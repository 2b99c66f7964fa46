/-
Rounding to nearest: what is used about floating point numbers, and the proof that `roundNE` has these properties.
-/
import Verif.Model.UniformBounds
import Mathlib.Tactic.Linarith
import Mathlib.Tactic.Ring
import Mathlib.Tactic.Positivity
import Mathlib.Tactic.FieldSimp
import Mathlib.Data.Rat.Floor
import Mathlib.Algebra.Order.Field.Power
import Mathlib.Data.Rat.Lemmas

namespace T8.Uniform

/-- A number with at most `prec` significant bits. -/
def Repr (prec : Nat) (z : ℚ) : Prop := ∃ m e : ℤ, |m| ≤ 2 ^ prec ∧ z = m * 2 ^ e

/-- `fl` rounds to the nearest number with `prec` bits. -/
structure Rounding (prec : Nat) (fl : ℚ → ℚ) : Prop where
  repr : ∀ x, Repr prec (fl x)
  nearest : ∀ x z, Repr prec z → |fl x - x| ≤ |z - x|
  err : ∀ x, |fl x - x| ≤ |x| / 2 ^ prec

namespace Rounding
variable {prec : Nat} {fl : ℚ → ℚ} (h : Rounding prec fl)
include h

theorem exact {z : ℚ} (hz : Repr prec z) : fl z = z := by
  have := h.nearest z z hz
  rw [sub_self, abs_zero] at this
  have := abs_nonpos_iff.1 this
  linarith

theorem mono {x y : ℚ} (hxy : x ≤ y) : fl x ≤ fl y := by
  rcases hxy.eq_or_lt with rfl | hlt
  · exact le_rfl
  by_contra hc
  push Not at hc
  have h1 := h.nearest x (fl y) (h.repr y)
  have h2 := h.nearest y (fl x) (h.repr x)
  rcases le_total (fl x) x with c1 | c1 <;> rcases le_total (fl y) y with c2 | c2 <;>
    rcases le_total (fl y) x with c3 | c3 <;> rcases le_total (fl x) y with c4 | c4 <;>
    simp only [abs_of_nonneg, abs_of_nonpos, sub_nonneg, sub_nonpos, c1, c2, c3, c4] at h1 h2 <;> linarith

theorem int {n : ℤ} (hn : |n| ≤ 2 ^ prec) : fl n = n := h.exact ⟨n, 0, hn, by simp⟩

theorem zero : fl 0 = 0 := by simpa using h.int (n := 0) (by simp)

theorem nonneg {x : ℚ} (hx : 0 ≤ x) : 0 ≤ fl x := by
  have := h.mono hx; rwa [h.zero] at this

theorem le_int {x : ℚ} {n : ℤ} (hn : |n| ≤ 2 ^ prec) (hx : x ≤ n) : fl x ≤ n := by
  have := h.mono hx; rwa [h.int hn] at this

theorem int_le {x : ℚ} {n : ℤ} (hn : |n| ≤ 2 ^ prec) (hx : (n : ℚ) ≤ x) : n ≤ fl x := by
  have := h.mono hx; rwa [h.int hn] at this

theorem upper {x : ℚ} (hx : 0 ≤ x) : fl x ≤ x * (1 + 1 / 2 ^ prec) := by
  have := (abs_le.1 (h.err x)).2
  rw [abs_of_nonneg hx] at this
  rw [mul_add, mul_one, mul_one_div]
  linarith

theorem lower {x : ℚ} (hx : 0 ≤ x) : x * (1 - 1 / 2 ^ prec) ≤ fl x := by
  have := (abs_le.1 (h.err x)).1
  rw [abs_of_nonneg hx] at this
  rw [mul_sub, mul_one, mul_one_div]
  linarith

/-- Quotients of moderate integers are not rounded across integers. -/
theorem div_lt_iff {a b c : ℤ} (ha : 0 ≤ a) (hb : 0 < b) (hlt : a < 2 ^ prec) (hc : |c| ≤ 2 ^ prec) :
    fl ((a : ℚ) / b) < c ↔ (a : ℚ) / b < c := by
  have hb' : (0 : ℚ) < b := by exact_mod_cast hb
  have ha' : (0 : ℚ) ≤ a := by exact_mod_cast ha
  have hlt' : (a : ℚ) < 2 ^ prec := by exact_mod_cast hlt
  constructor
  · intro h1
    by_contra h2
    push Not at h2
    have := h.int_le hc h2
    linarith
  · intro h1
    have h2 : (a : ℚ) + 1 ≤ c * b := by
      rw [div_lt_iff₀ hb'] at h1
      have : a < c * b := by exact_mod_cast h1
      exact_mod_cast this
    have h3 := h.upper (div_nonneg ha' hb'.le)
    have h4 : (a : ℚ) / b * (1 + 1 / 2 ^ prec) = (a + a / 2 ^ prec) / b := by ring
    have h5 : (a : ℚ) / 2 ^ prec < 1 := by rw [div_lt_one (by positivity)]; exact hlt'
    have h6 : ((a : ℚ) + a / 2 ^ prec) / b < c := by rw [div_lt_iff₀ hb']; linarith
    linarith

theorem lt_div_iff {a b c : ℤ} (ha : 0 ≤ a) (hb : 0 < b) (hlt : a < 2 ^ prec) (hc : |c| ≤ 2 ^ prec) :
    (c : ℚ) < fl ((a : ℚ) / b) ↔ (c : ℚ) < (a : ℚ) / b := by
  have hb' : (0 : ℚ) < b := by exact_mod_cast hb
  have ha' : (0 : ℚ) ≤ a := by exact_mod_cast ha
  have hlt' : (a : ℚ) < 2 ^ prec := by exact_mod_cast hlt
  constructor
  · intro h1
    by_contra h2
    push Not at h2
    have := h.le_int hc h2
    linarith
  · intro h1
    have h2 : (c : ℚ) * b + 1 ≤ a := by
      rw [lt_div_iff₀ hb'] at h1
      have : c * b < a := by exact_mod_cast h1
      exact_mod_cast this
    have h3 := h.lower (div_nonneg ha' hb'.le)
    have h4 : (a : ℚ) / b * (1 - 1 / 2 ^ prec) = (a - a / 2 ^ prec) / b := by ring
    have h5 : (a : ℚ) / 2 ^ prec < 1 := by rw [div_lt_one (by positivity)]; exact hlt'
    have h6 : (c : ℚ) < ((a : ℚ) - a / 2 ^ prec) / b := by rw [lt_div_iff₀ hb']; linarith
    linarith

theorem floor_div {a b : ℤ} (ha : 0 ≤ a) (hb : 0 < b) (hlt : a < 2 ^ prec) : ⌊fl ((a : ℚ) / b)⌋ = ⌊(a : ℚ) / b⌋ := by
  have hb' : (1 : ℚ) ≤ b := by exact_mod_cast hb
  have ha' : (0 : ℚ) ≤ a := by exact_mod_cast ha
  have hle : (a : ℚ) / b ≤ a := div_le_self ha' hb'
  have h0 : 0 ≤ ⌊(a : ℚ) / b⌋ := Int.floor_nonneg.2 (by positivity)
  have h1 : ⌊(a : ℚ) / b⌋ ≤ a := Int.floor_le_iff.2 (by push_cast; linarith)
  rw [Int.floor_eq_iff]
  have e1 : |⌊(a : ℚ) / b⌋| ≤ 2 ^ prec := by rw [abs_of_nonneg h0]; omega
  have e2 : |⌊(a : ℚ) / b⌋ + 1| ≤ 2 ^ prec := by rw [abs_of_nonneg (by omega)]; omega
  refine ⟨h.int_le e1 (Int.floor_le _), ?_⟩
  have := (h.div_lt_iff ha hb hlt e2).2 (by push_cast; exact Int.lt_floor_add_one _)
  push_cast at this
  exact this

theorem ceil_div {a b : ℤ} (ha : 0 ≤ a) (hb : 0 < b) (hlt : a < 2 ^ prec) : ⌈fl ((a : ℚ) / b)⌉ = ⌈(a : ℚ) / b⌉ := by
  have hb' : (1 : ℚ) ≤ b := by exact_mod_cast hb
  have ha' : (0 : ℚ) ≤ a := by exact_mod_cast ha
  have hle : (a : ℚ) / b ≤ a := div_le_self ha' hb'
  have h0 : 0 ≤ ⌈(a : ℚ) / b⌉ := Int.ceil_nonneg (by positivity)
  have h1 : ⌈(a : ℚ) / b⌉ ≤ a := Int.ceil_le.2 hle
  rw [Int.ceil_eq_iff]
  have e1 : |⌈(a : ℚ) / b⌉| ≤ 2 ^ prec := by rw [abs_of_nonneg h0]; omega
  have e2 : |⌈(a : ℚ) / b⌉ - 1| ≤ 2 ^ prec := by
    have : (1 : ℤ) ≤ 2 ^ prec := one_le_pow₀ (by norm_num)
    rw [abs_le]; omega
  refine ⟨?_, h.le_int e1 (Int.le_ceil _)⟩
  have := (h.lt_div_iff ha hb hlt e2).2 (by push_cast; have := Int.ceil_lt_add_one ((a : ℚ) / b); linarith)
  push_cast at this
  exact this

end Rounding

/-! ### `roundNE` -/

theorem roundNE_zero (prec : Nat) : roundNE prec 0 = 0 := by simp [roundNE]

/-- The form of the result. -/
theorem roundNE_form {prec : Nat} (hp : 0 < prec) {x : ℚ} (hx : x ≠ 0) :
    ∃ (k : ℤ) (t : ℚ) (q : ℕ), |x| = t * 2 ^ k ∧ 2 ^ (prec - 1) ≤ t ∧ t < 2 ^ prec ∧ |(q : ℚ) - t| ≤ 1 / 2 ∧
      roundNE prec x = x.num.sign * (q * 2 ^ k) := by
  have hn : x.num.natAbs ≠ 0 := by
    rw [Int.natAbs_ne_zero]; exact Rat.num_ne_zero.2 hx
  have hd : x.den ≠ 0 := x.den_nz
  unfold roundNE
  dsimp only
  rw [if_neg hn]
  have hxabs : |x| = (x.num.natAbs : ℚ) / x.den := by
    conv_lhs => rw [← Rat.num_div_den x]
    rw [abs_div, Nat.abs_cast]
    congr 1
    rw [Nat.cast_natAbs, Int.cast_abs]
  generalize hnn : x.num.natAbs = n at *
  generalize hdd : x.den = d at *
  generalize hdown : n.log2 = down
  generalize hup : prec + d.log2 = up
  have n1 : 2 ^ down ≤ n := by rw [← hdown]; exact Nat.log2_self_le hn
  have n2 : n < 2 ^ (down + 1) := by rw [← hdown]; exact Nat.lt_log2_self
  have d1 : 2 ^ (up - prec) ≤ d := by rw [← hup, Nat.add_sub_cancel_left]; exact Nat.log2_self_le hd
  have d2 : d < 2 ^ (up - prec + 1) := by rw [← hup, Nat.add_sub_cancel_left]; exact Nat.lt_log2_self
  have hupp : prec ≤ up := by omega
  generalize hA : n * 2 ^ (up - down) = A
  generalize hB : d * 2 ^ (down - up) = B
  have hBpos : 0 < B := by rw [← hB]; positivity
  have hpow : (2 : ℕ) ^ down * 2 ^ (up - down) = 2 ^ up * 2 ^ (down - up) := by
    rw [← Nat.pow_add, ← Nat.pow_add]; congr 1; omega
  have hpow' : (2 : ℕ) ^ (down + 1) * 2 ^ (up - down) = 2 ^ (up + 1) * 2 ^ (down - up) := by
    rw [← Nat.pow_add, ← Nat.pow_add]; congr 1; omega
  -- bounds of `A / B`
  have lowAB : B * 2 ^ (prec - 1) ≤ A := by
    have h1 : d * 2 ^ (prec - 1) ≤ 2 ^ up := by
      calc d * 2 ^ (prec - 1) ≤ 2 ^ (up - prec + 1) * 2 ^ (prec - 1) := Nat.mul_le_mul_right _ d2.le
        _ = 2 ^ up := by rw [← Nat.pow_add]; congr 1; omega
    calc B * 2 ^ (prec - 1) = d * 2 ^ (prec - 1) * 2 ^ (down - up) := by rw [← hB]; ring
      _ ≤ 2 ^ up * 2 ^ (down - up) := Nat.mul_le_mul_right _ h1
      _ = 2 ^ down * 2 ^ (up - down) := hpow.symm
      _ ≤ A := by rw [← hA]; exact Nat.mul_le_mul_right _ n1
  have highAB : A < B * 2 ^ (prec + 1) := by
    calc A < 2 ^ (down + 1) * 2 ^ (up - down) := by rw [← hA]; exact Nat.mul_lt_mul_of_pos_right n2 (by positivity)
      _ = 2 ^ (up + 1) * 2 ^ (down - up) := hpow'
      _ = 2 ^ (up - prec) * 2 ^ (prec + 1) * 2 ^ (down - up) := by
        rw [show up + 1 = up - prec + (prec + 1) by omega, Nat.pow_add]
      _ ≤ d * 2 ^ (prec + 1) * 2 ^ (down - up) := Nat.mul_le_mul_right _ (Nat.mul_le_mul_right _ d1)
      _ = B * 2 ^ (prec + 1) := by rw [← hB]; ring
  generalize htwo : (if A / B ≥ 2 ^ prec then 2 else 1) = two
  have two0 : 0 < two := by rw [← htwo]; split <;> omega
  have lowT : B * two * 2 ^ (prec - 1) ≤ A := by
    rw [← htwo]
    split
    · rename_i hge
      have h1 := Nat.mul_le_of_le_div _ _ _ hge
      calc B * 2 * 2 ^ (prec - 1) = B * 2 ^ (prec - 1 + 1) := by rw [Nat.pow_succ]; ring
        _ = 2 ^ prec * B := by rw [show prec - 1 + 1 = prec by omega, Nat.mul_comm]
        _ ≤ A := h1
    · rw [Nat.mul_one]; exact lowAB
  have highT : A < B * two * 2 ^ prec := by
    rw [← htwo]
    split
    · calc A < B * 2 ^ (prec + 1) := highAB
        _ = B * 2 * 2 ^ prec := by rw [Nat.pow_succ]; ring
    · rename_i hge
      rw [Nat.mul_one, Nat.mul_comm]
      exact (Nat.div_lt_iff_lt_mul hBpos).1 (by omega)
  have two2 : (two : ℚ) = 2 ^ (if two = 2 then (1 : ℤ) else 0) := by
    rw [← htwo]; split <;> simp
  generalize hC : B * two = C at *
  have hCpos : 0 < C := by rw [← hC]; positivity
  have hCq : (0 : ℚ) < C := by exact_mod_cast hCpos
  generalize hq' : (if 2 * (A % C) > C ∨ (2 * (A % C) = C ∧ A / C % 2 = 1) then A / C + 1 else A / C) = q
  refine ⟨(if two = 2 then (1 : ℤ) else 0) + ((down - up : ℕ) : ℤ) - ((up - down : ℕ) : ℤ), (A : ℚ) / C, q, ?_, ?_, ?_, ?_, ?_⟩
  · rw [zpow_sub₀ (by norm_num), zpow_add₀ (by norm_num), ← two2, zpow_natCast, zpow_natCast, hxabs, ← hC, ← hA, ← hB]
    push_cast
    have : (d : ℚ) ≠ 0 := by exact_mod_cast hd
    have : (two : ℚ) ≠ 0 := by exact_mod_cast two0.ne'
    field_simp
  · rw [le_div_iff₀ hCq]
    have : C * 2 ^ (prec - 1) ≤ A := lowT
    rw [mul_comm]
    exact_mod_cast this
  · rw [div_lt_iff₀ hCq, mul_comm]
    exact_mod_cast highT
  · have hdm : (A : ℚ) = C * ((A / C : ℕ) : ℚ) + ((A % C : ℕ) : ℚ) := by
      exact_mod_cast (Nat.div_add_mod A C).symm
    have hmod : A % C < C := Nat.mod_lt _ hCpos
    have e : (A : ℚ) / C = ((A / C : ℕ) : ℚ) + ((A % C : ℕ) : ℚ) / C := by
      rw [hdm]; field_simp
    rw [e, ← hq']
    have r0 : (0 : ℚ) ≤ ((A % C : ℕ) : ℚ) / C := by positivity
    split
    · rename_i hcase
      have h1 : C ≤ 2 * (A % C) := by omega
      have h2 : (1 : ℚ) / 2 ≤ ((A % C : ℕ) : ℚ) / C := by
        rw [div_le_div_iff₀ (by norm_num) hCq, one_mul]
        have : (C : ℚ) ≤ 2 * ((A % C : ℕ) : ℚ) := by exact_mod_cast h1
        linarith
      have h3 : ((A % C : ℕ) : ℚ) / C < 1 := by
        rw [div_lt_one hCq]; exact_mod_cast hmod
      push_cast
      rw [abs_le]
      constructor <;> linarith
    · rename_i hcase
      have h1 : 2 * (A % C) ≤ C := by omega
      have h2 : ((A % C : ℕ) : ℚ) / C ≤ 1 / 2 := by
        rw [div_le_div_iff₀ hCq (by norm_num), one_mul]
        have : 2 * ((A % C : ℕ) : ℚ) ≤ C := by exact_mod_cast h1
        linarith
      rw [abs_le]
      constructor <;> linarith
  · rw [zpow_sub₀ (by norm_num), zpow_add₀ (by norm_num), ← two2, zpow_natCast, zpow_natCast]
    push_cast
    ring

/-- `roundNE` rounds to nearest. -/
theorem roundNE_rounding {prec : Nat} (hp : 0 < prec) : Rounding prec (roundNE prec) := by
  have key : ∀ x : ℚ, x ≠ 0 → ∃ (k : ℤ) (t : ℚ) (q : ℕ) (s : ℚ), (s = 1 ∨ s = -1) ∧ x = s * (t * 2 ^ k) ∧
      2 ^ (prec - 1) ≤ t ∧ q ≤ 2 ^ prec ∧ |(q : ℚ) - t| ≤ 1 / 2 ∧ roundNE prec x = s * (q * 2 ^ k) := by
    intro x hx
    obtain ⟨k, t, q, h1, h2, h3, h4, h5⟩ := roundNE_form hp hx
    refine ⟨k, t, q, x.num.sign, ?_, ?_, h2, ?_, h4, h5⟩
    · rcases lt_trichotomy x.num 0 with h | h | h
      · right; rw [Int.sign_eq_neg_one_of_neg h]; norm_num
      · exact absurd (Rat.num_eq_zero.1 h) hx
      · left; rw [Int.sign_eq_one_of_pos h]; norm_num
    · rw [← h1]
      rcases lt_trichotomy x.num 0 with h | h | h
      · rw [Int.sign_eq_neg_one_of_neg h, abs_of_neg (Rat.num_neg.1 h)]; push_cast; ring
      · exact absurd (Rat.num_eq_zero.1 h) hx
      · rw [Int.sign_eq_one_of_pos h, abs_of_pos (Rat.num_pos.1 h)]; push_cast; ring
    · have h6 := (abs_le.1 h4).2
      have h7 : (q : ℚ) < ((2 ^ prec + 1 : ℕ) : ℚ) := by push_cast; linarith
      have : q < 2 ^ prec + 1 := by exact_mod_cast h7
      omega
  have hpowpos : ∀ k : ℤ, (0 : ℚ) < 2 ^ k := fun k => by positivity
  refine ⟨?_, ?_, ?_⟩
  · intro x
    by_cases hx : x = 0
    · rw [hx, roundNE_zero]; exact ⟨0, 0, by simp, by simp⟩
    · obtain ⟨k, t, q, s, hs, -, -, h4, -, h6⟩ := key x hx
      rcases hs with rfl | rfl
      · exact ⟨q, k, by rw [Nat.abs_cast]; exact_mod_cast h4, by rw [h6]; push_cast; ring⟩
      · exact ⟨-q, k, by rw [abs_neg, Nat.abs_cast]; exact_mod_cast h4, by rw [h6]; push_cast; ring⟩
  · rintro x z ⟨m, e, hm, hz⟩
    by_cases hx : x = 0
    · rw [hx, roundNE_zero]; simp
    · obtain ⟨k, t, q, s, hs, h2, h3, h4, h5, h6⟩ := key x hx
      have hint : ∀ c : ℤ, |(q : ℚ) - t| ≤ |(c : ℚ) - t| := by
        intro c
        by_cases hc : c = q
        · rw [hc]; push_cast; exact le_rfl
        · have h7 : (1 : ℚ) ≤ |(c : ℚ) - q| := by
            have : (1 : ℤ) ≤ |c - q| := Int.one_le_abs (by omega)
            have h8 : ((1 : ℤ) : ℚ) ≤ ((|c - q| : ℤ) : ℚ) := by exact_mod_cast this
            push_cast at h8
            exact h8
          have h8 : |(c : ℚ) - q| ≤ |(c : ℚ) - t| + |(q : ℚ) - t| := by
            have : (c : ℚ) - q = (c - t) - (q - t) := by ring
            rw [this]; exact abs_sub _ _
          linarith
      have hmain : ∀ y : ℚ, Repr prec y → |(q : ℚ) - t| ≤ |y / 2 ^ k - t| := by
        rintro y ⟨m, e, hm, hy⟩
        have hy' : y / 2 ^ k = m * 2 ^ (e - k) := by rw [hy, zpow_sub₀ (by norm_num)]; ring
        rw [hy']
        rcases le_or_gt k e with hke | hke
        · have : (m : ℚ) * 2 ^ (e - k) = ((m * 2 ^ (e - k).toNat : ℤ) : ℚ) := by
            push_cast
            rw [← zpow_natCast, Int.toNat_of_nonneg (by omega)]
          rw [this]
          exact hint _
        · have h7 : (m : ℚ) * 2 ^ (e - k) ≤ 2 ^ (prec - 1) := by
            have h8 : (m : ℚ) ≤ 2 ^ prec := by
              have : m ≤ 2 ^ prec := (le_abs_self m).trans hm
              exact_mod_cast this
            have h9 : (2 : ℚ) ^ (e - k) ≤ 2 ^ (-1 : ℤ) := zpow_le_zpow_right₀ (by norm_num) (by omega)
            have h10 : (2 : ℚ) ^ prec = 2 ^ (prec - 1) * 2 := by rw [← pow_succ]; congr 1; omega
            rcases le_total 0 (m : ℚ) with hm0 | hm0
            · calc (m : ℚ) * 2 ^ (e - k) ≤ 2 ^ prec * 2 ^ (-1 : ℤ) := mul_le_mul h8 h9 (hpowpos _).le (by positivity)
                _ = 2 ^ (prec - 1) := by rw [h10, zpow_neg_one]; field_simp
            · exact (mul_nonpos_of_nonpos_of_nonneg hm0 (hpowpos _).le).trans (by positivity)
          have h8 := hint (2 ^ (prec - 1))
          push_cast at h8
          rw [abs_of_nonpos (by linarith : (2 : ℚ) ^ (prec - 1) - t ≤ 0)] at h8
          rw [abs_of_nonpos (by linarith : (m : ℚ) * 2 ^ (e - k) - t ≤ 0)]
          linarith
      have hs2 : s * s = 1 := by rcases hs with rfl | rfl <;> norm_num
      have habs : |s| = 1 := by rcases hs with rfl | rfl <;> norm_num
      have hsz : Repr prec (s * z) := by
        rcases hs with rfl | rfl
        · exact ⟨m, e, hm, by rw [hz]; ring⟩
        · exact ⟨-m, e, by rwa [abs_neg], by rw [hz]; push_cast; ring⟩
      have e1 : roundNE prec x - x = s * (q - t) * 2 ^ k := by rw [h6, h2]; ring
      have e2 : z - x = s * (s * z / 2 ^ k - t) * 2 ^ k := by
        have : s * (s * z / 2 ^ k - t) * 2 ^ k = s * s * z - s * (t * 2 ^ k) := by
          have := (hpowpos k).ne'
          field_simp
        rw [this, hs2, one_mul, ← h2]
      rw [e1, e2, abs_mul, abs_mul, abs_mul, abs_mul, habs, one_mul, one_mul]
      exact mul_le_mul_of_nonneg_right (hmain _ hsz) (abs_nonneg _)
  · intro x
    by_cases hx : x = 0
    · rw [hx, roundNE_zero]; simp
    · obtain ⟨k, t, q, s, hs, h2, h3, h4, h5, h6⟩ := key x hx
      have habs : |s| = 1 := by rcases hs with rfl | rfl <;> norm_num
      have ht : (0 : ℚ) < t := lt_of_lt_of_le (by positivity) h3
      have e1 : roundNE prec x - x = s * (q - t) * 2 ^ k := by rw [h6, h2]; ring
      rw [e1, h2, abs_mul, abs_mul, abs_mul, abs_mul, habs, one_mul, one_mul, abs_of_pos (hpowpos k), abs_of_pos ht,
        le_div_iff₀ (by positivity)]
      have h10 : (2 : ℚ) ^ prec = 2 ^ (prec - 1) * 2 := by rw [← pow_succ]; congr 1; omega
      have h11 : |(q : ℚ) - t| * 2 ^ prec ≤ t := by
        calc |(q : ℚ) - t| * 2 ^ prec ≤ 1 / 2 * 2 ^ prec := mul_le_mul_of_nonneg_right h5 (by positivity)
          _ = 2 ^ (prec - 1) := by rw [h10]; ring
          _ ≤ t := h3
      calc |(q : ℚ) - t| * 2 ^ k * 2 ^ prec = |(q : ℚ) - t| * 2 ^ prec * 2 ^ k := by ring
        _ ≤ t * 2 ^ k := mul_le_mul_of_nonneg_right h11 (hpowpos k).le

end T8.Uniform
