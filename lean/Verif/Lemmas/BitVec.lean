/-
Values of the expressions on 32 bit coordinates that the default schemes use.
-/
import Verif.Lemmas.Standalone

namespace T8.Bits

theorem toNat_twoPow {k : Nat} (hk : k < 32) : (BitVec.twoPow 32 k).toNat = 2 ^ k := by
  rw [BitVec.toNat_twoPow, Nat.mod_eq_of_lt (Nat.pow_lt_pow_right (by omega) hk)]

theorem toNat_mask {k : Nat} (hk : k < 32) : (BitVec.twoPow 32 k - 1).toNat = 2 ^ k - 1 := by
  have h : 0 < 2 ^ k := Nat.two_pow_pos k
  have h' : 2 ^ k < 2 ^ 32 := Nat.pow_lt_pow_right (by omega) hk
  rw [BitVec.toNat_sub, toNat_twoPow hk]
  show (2 ^ 32 - 1 + 2 ^ k) % 2 ^ 32 = _
  omega

/-- Clearing the lower bits. -/
theorem toNat_clear (x : BitVec 32) {k : Nat} (hk : k < 32) :
    (x &&& ~~~(BitVec.twoPow 32 k - 1)).toNat = x.toNat / 2 ^ k * 2 ^ k := by
  apply Nat.eq_of_testBit_eq
  intro j
  rw [BitVec.testBit_toNat, BitVec.getLsbD_and, BitVec.getLsbD_not, ← BitVec.testBit_toNat,
    ← BitVec.testBit_toNat, toNat_mask hk, Nat.testBit_two_pow_sub_one, Nat.testBit_mul_two_pow,
    Nat.testBit_div_two_pow]
  by_cases h1 : j < k
  · simp [h1, show ¬ k ≤ j by omega]
  · have h2 : k ≤ j := by omega
    by_cases h3 : j < 32
    · simp [h1, h2, h3, show j - k + k = j by omega]
    · have : x.toNat.testBit j = false := by
        apply Nat.testBit_lt_two_pow
        exact lt_of_lt_of_le x.isLt (Nat.pow_le_pow_right (by omega) (by omega))
      simp [h3, show j - k + k = j by omega, this]

/-- The arithmetic shift of a non-negative coordinate. -/
theorem toNat_shift (x : BitVec 32) (hx : x.toNat < 2 ^ 31) (k : Nat) :
    (x.sshiftRight k).toNat = x.toNat / 2 ^ k := by
  have hm : x.msb = false := by rw [BitVec.msb_eq_false_iff_two_mul_lt]; omega
  rw [BitVec.sshiftRight_eq_of_msb_false hm, BitVec.toNat_ushiftRight, Nat.shiftRight_eq_div_pow]

theorem toNat_signExtend (x : BitVec 32) (hx : x.toNat < 2 ^ 31) : (x.signExtend 64).toNat = x.toNat := by
  have hm : x.msb = false := by rw [BitVec.msb_eq_false_iff_two_mul_lt]; omega
  rw [BitVec.signExtend_eq_setWidth_of_msb_false hm, BitVec.toNat_setWidth]
  exact Nat.mod_eq_of_lt (lt_trans x.isLt (by decide))

theorem toInt_eq (x : BitVec 32) (hx : x.toNat < 2 ^ 31) : x.toInt = x.toNat := by
  rw [BitVec.toInt_eq_toNat_of_lt (by omega)]

/-- A multiple of `b` below another one stays below after adding `b`. -/
theorem add_le_of_dvd {a b c : Nat} (hb : b ∣ a) (hc : b ∣ c) (h : a < c) : a + b ≤ c := by
  obtain ⟨p, rfl⟩ := hb
  obtain ⟨q, rfl⟩ := hc
  have : p < q := Nat.lt_of_mul_lt_mul_left h
  calc b * p + b = b * (p + 1) := by rw [Nat.mul_add, Nat.mul_one]
    _ ≤ b * q := Nat.mul_le_mul_left _ this

theorem pow_dvd {a b : Nat} (h : a ≤ b) : 2 ^ a ∣ 2 ^ b := Nat.pow_dvd_pow 2 h

end T8.Bits
