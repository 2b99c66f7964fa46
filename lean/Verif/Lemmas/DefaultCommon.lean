/-
The shared functions of the default schemes on refinement trees with `2^dim` children per element.
-/
import Verif.Model.DefaultCommon
import Verif.Lemmas.Regular

namespace T8.Default
open T8.RTree
variable {T : RTree} {dim : Nat}

/-- The number of leaves is exact if it fits into the result. -/
theorem countLeaves_eq (h : T.Regular (2 ^ dim)) {e : T.E} (he : T.Valid e) {L : Nat} (hL : L ≤ T.maxLevel)
    (hfit : dim * (L - T.level e) < 63) : (countLeavesFromLevel (T.level e) L dim).toInt = T.count e L := by
  rw [countLeavesFromLevel]
  split
  · rename_i hlt
    rw [count_of_lt hlt]; rfl
  · rename_i hge
    have hlt : 2 ^ (dim * (L - T.level e)) < 2 ^ 63 := Nat.pow_lt_pow_right (by omega) hfit
    have h1 : (BitVec.twoPow 64 (dim * (L - T.level e))).toNat = 2 ^ (dim * (L - T.level e)) := by
      rw [BitVec.toNat_twoPow, Nat.mod_eq_of_lt (by omega)]
    rw [h.count he (by omega) hL, BitVec.toInt_eq_toNat_cond, h1, if_pos (by omega), Nat.pow_mul]

theorem countLeaves_root (h : T.Regular (2 ^ dim)) {L : Nat} (hL : L ≤ T.maxLevel) (hfit : dim * L < 63) :
    (countLeavesFromRoot dim L).toInt = T.count T.root L := by
  have := countLeaves_eq h T.valid_root hL (by rw [T.level_root]; simpa using hfit)
  rw [T.level_root] at this
  exact this

/-- The test for ancestors is right if the linear ids are. -/
theorem isAncestor_spec {lin : T.E → Nat → BitVec 64} (hlin : T.LinearIdSpec (fun e L => (lin e L).toNat)) :
    T.IsAncestorSpec (isAncestor T.level lin) := by
  apply isAncestorSpec_of_lin hlin
  intro a x _ _
  rw [isAncestor]
  split
  · constructor
    · intro h; cases h
    · rintro ⟨h, _⟩; omega
  · rw [beq_iff_eq, BitVec.toNat_inj]
    constructor
    · intro h; exact ⟨by omega, h⟩
    · exact fun h => h.2

/-- `count` is the number of different descendants of a level. -/
theorem count_meaning {e : T.E} (he : T.Valid e) {L : Nat} (hl : T.level e ≤ L) (hL : L ≤ T.maxLevel) :
    ∃ xs : List T.E, xs.length = T.count e L ∧ xs.Nodup ∧ ∀ x, x ∈ xs ↔ T.Desc e x ∧ T.level x = L := by
  refine ⟨T.uniform e (L - T.level e), uniform_length hl, nodup_uniform he (by omega), fun x => ?_⟩
  rw [mem_uniform he (by omega), show T.level e + (L - T.level e) = L by omega]

end T8.Default
