/-
Lemmas about the default pyramids: the elements as point sets.
-/
import Verif.Lemmas.PyramidFamily
import Verif.Props.Simplex

namespace T8.Pyramid
open T8.RTree T8.Bits
open T8.Simplex (look Cls)

theorem x_add_le {e : Elem} (he : Good e) (i : Fin 3) : (e.tet.x i).toNat + 2 ^ (21 - e.level) ≤ 2 ^ 21 :=
  add_le_of_dvd (he.cube.2 i).2 (pow_dvd (by omega)) (he.cube.2 i).1

theorem half {l : Nat} (hl : l < 21) : 2 ^ (21 - l) = 2 * 2 ^ (21 - (l + 1)) := by
  rw [show 21 - l = 21 - (l + 1) + 1 by omega, Nat.pow_succ, Nat.mul_comm]

/-- The coordinates of the children of pyramids. -/
theorem child_x {p : Elem} (hp : Good p) (h : 6 ≤ p.type) (hl : p.level < 21) (i : Nat) (k : Fin 3) :
    ((child p i).tet.x k).toNat = (p.tet.x k).toNat +
      if (look parenttypeIlocToCid p.type i).testBit k.val then 2 ^ (21 - (p.level + 1)) else 0 := by
  rw [child, if_pos ((isPyra_iff p).2 h)]
  show (p.tet.x k + if look parenttypeIlocToCid p.type i &&& (1 <<< k.val) ≠ 0 then len (p.level + 1) else 0).toNat = _
  simp only [Standalone.and_shift_ne_zero]
  have h7 := x_add_le hp k
  have h9 := half hl
  rw [BitVec.toNat_add]
  split
  · rw [len_toNat]; exact Nat.mod_eq_of_lt (by omega)
  · exact Nat.mod_eq_of_lt (by simp only [BitVec.ofNat_eq_ofNat, BitVec.toNat_ofNat, Nat.zero_mod]; omega)

theorem mem_pyra {e : Elem} (h : 6 ≤ e.type) (q : Fin 3 → Nat) : q ∈ Points e ↔
    (∀ i, (e.tet.x i).toNat ≤ q i ∧ q i ≤ (e.tet.x i).toNat + 2 ^ (21 - e.level)) ∧
    (e.type = 6 → q 2 + (e.tet.x 0).toNat ≤ q 0 + (e.tet.x 2).toNat ∧ q 2 + (e.tet.x 1).toNat ≤ q 1 + (e.tet.x 2).toNat) ∧
    (e.type ≠ 6 → q 0 + (e.tet.x 2).toNat ≤ q 2 + (e.tet.x 0).toNat ∧
      q 1 + (e.tet.x 2).toNat ≤ q 2 + (e.tet.x 1).toNat) := by
  rw [Points, if_pos h]
  constructor
  · rintro ⟨h1, h2⟩
    have a := h2 0 (by decide)
    have b := h2 1 (by decide)
    refine ⟨h1, fun h6 => ?_, fun h6 => ?_⟩
    · rw [if_pos h6] at a b; exact ⟨a, b⟩
    · rw [if_neg h6] at a b; exact ⟨a, b⟩
  · rintro ⟨h1, h2, h3⟩
    refine ⟨h1, fun i hi => ?_⟩
    fin_cases i
    · by_cases h6 : e.type = 6
      · rw [if_pos h6]; exact (h2 h6).1
      · rw [if_neg h6]; exact (h3 h6).1
    · by_cases h6 : e.type = 6
      · rw [if_pos h6]; exact (h2 h6).2
      · rw [if_neg h6]; exact (h3 h6).2
    · exact absurd rfl hi

theorem mem_tet {e : Elem} (h : ¬ 6 ≤ e.type) {q : Fin 3 → Nat} (hq : q ∈ Points e) :
    (∀ i, (e.tet.x i).toNat ≤ q i ∧ q i ≤ (e.tet.x i).toNat + 2 ^ (21 - e.level)) ∧
    (e.type = 0 → q 2 + (e.tet.x 0).toNat ≤ q 0 + (e.tet.x 2).toNat ∧ q 1 + (e.tet.x 2).toNat ≤ q 2 + (e.tet.x 1).toNat) ∧
    (e.type = 3 → q 2 + (e.tet.x 1).toNat ≤ q 1 + (e.tet.x 2).toNat ∧
      q 0 + (e.tet.x 2).toNat ≤ q 2 + (e.tet.x 0).toNat) := by
  rw [Points, if_neg h] at hq
  obtain ⟨h1, h2⟩ := hq
  refine ⟨h1, fun h0 => ⟨h2 0 2 ?_, h2 2 1 ?_⟩, fun h0 => ⟨h2 1 2 ?_, h2 2 0 ?_⟩⟩ <;>
    rw [show e.tet.type = _ from h0] <;> decide

/-- The children lie inside of the element. -/
theorem child_subset {p : Elem} (hp : Good p) (hl : p.level < 21) {i : Nat} (hi : i < numChildren p) :
    Points (child p i) ⊆ Points p := by
  have hnc := numChildren_eq p
  by_cases h : 6 ≤ p.type
  · rw [if_pos h] at hnc
    rw [hnc] at hi
    have hx := child_x hp h hl i
    have hty := (child_pyra h i).2.1
    have hlev := child_level p i
    have hh := half hl
    obtain ⟨hb, _⟩ := hp.pyra h
    generalize child p i = c at *
    intro q hq
    rw [mem_pyra h]
    have hx0 := hx 0
    have hx1 := hx 1
    have hx2 := hx 2
    have key : (∀ i, (c.tet.x i).toNat ≤ q i ∧ q i ≤ (c.tet.x i).toNat + 2 ^ (21 - c.level)) ∧
        (c.type = 6 → q 2 + (c.tet.x 0).toNat ≤ q 0 + (c.tet.x 2).toNat ∧
          q 2 + (c.tet.x 1).toNat ≤ q 1 + (c.tet.x 2).toNat) ∧
        (c.type = 7 → q 0 + (c.tet.x 2).toNat ≤ q 2 + (c.tet.x 0).toNat ∧
          q 1 + (c.tet.x 2).toNat ≤ q 2 + (c.tet.x 1).toNat) ∧
        (c.type = 0 → q 2 + (c.tet.x 0).toNat ≤ q 0 + (c.tet.x 2).toNat ∧
          q 1 + (c.tet.x 2).toNat ≤ q 2 + (c.tet.x 1).toNat) ∧
        (c.type = 3 → q 2 + (c.tet.x 1).toNat ≤ q 1 + (c.tet.x 2).toNat ∧
          q 0 + (c.tet.x 2).toNat ≤ q 2 + (c.tet.x 0).toNat) := by
      by_cases hc6 : 6 ≤ c.type
      · rw [mem_pyra hc6] at hq
        refine ⟨hq.1, hq.2.1, fun h => hq.2.2 (by omega), fun h => absurd hc6 (by omega), fun h => absurd hc6 (by omega)⟩
      · have := mem_tet hc6 hq
        refine ⟨this.1, fun h => absurd h (by omega), fun h => absurd h (by omega), this.2⟩
    clear hq hp
    obtain ⟨k1, k6, k7, k0, k3⟩ := key
    have q0 := k1 0
    have q1 := k1 1
    have q2 := k1 2
    rw [hlev] at q0 q1 q2
    have fin : ∀ P : Fin 3 → Prop, P 0 → P 1 → P 2 → ∀ i, P i := fun P a b c i => by fin_cases i <;> assumption
    generalize 2 ^ (21 - p.level) = H at *
    generalize 2 ^ (21 - (p.level + 1)) = h' at *
    clear k1 hx hnc
    have fv0 : ((0 : Fin 3) : Nat) = 0 := rfl
    have fv1 : ((1 : Fin 3) : Nat) = 1 := rfl
    have fv2 : ((2 : Fin 3) : Nat) = 2 := rfl
    rw [fv0] at hx0
    rw [fv1] at hx1
    rw [fv2] at hx2
    refine ⟨fin _ ?_ ?_ ?_, fun h6 => ?_, fun h6 => ?_⟩
    · split at hx0 <;> omega
    · split at hx1 <;> omega
    · split at hx2 <;> omega
    · rw [h6] at hty hx0 hx1 hx2
      interval_cases i
      all_goals
        simp only [show look parenttypeIlocToCid 6 0 = 0 from rfl, show look parenttypeIlocToCid 6 1 = 1 from rfl,
          show look parenttypeIlocToCid 6 2 = 1 from rfl, show look parenttypeIlocToCid 6 3 = 2 from rfl,
          show look parenttypeIlocToCid 6 4 = 2 from rfl, show look parenttypeIlocToCid 6 5 = 3 from rfl,
          show look parenttypeIlocToCid 6 6 = 3 from rfl, show look parenttypeIlocToCid 6 7 = 3 from rfl,
          show look parenttypeIlocToCid 6 8 = 3 from rfl, show look parenttypeIlocToCid 6 9 = 7 from rfl] at hx0 hx1 hx2
        simp [Nat.testBit] at hx0 hx1 hx2
      · have := k6 hty; omega
      · have := k3 hty; omega
      · have := k6 hty; omega
      · have := k0 hty; omega
      · have := k6 hty; omega
      · have := k0 hty; omega
      · have := k3 hty; omega
      · have := k6 hty; omega
      · have := k7 hty; omega
      · have := k6 hty; omega
    · rw [show p.type = 7 by omega] at hty hx0 hx1 hx2
      interval_cases i
      all_goals
        simp only [show look parenttypeIlocToCid 7 0 = 0 from rfl, show look parenttypeIlocToCid 7 1 = 4 from rfl,
          show look parenttypeIlocToCid 7 2 = 4 from rfl, show look parenttypeIlocToCid 7 3 = 4 from rfl,
          show look parenttypeIlocToCid 7 4 = 4 from rfl, show look parenttypeIlocToCid 7 5 = 5 from rfl,
          show look parenttypeIlocToCid 7 6 = 5 from rfl, show look parenttypeIlocToCid 7 7 = 6 from rfl,
          show look parenttypeIlocToCid 7 8 = 6 from rfl, show look parenttypeIlocToCid 7 9 = 7 from rfl] at hx0 hx1 hx2
        simp [Nat.testBit] at hx0 hx1 hx2
      · have := k7 hty; omega
      · have := k0 hty; omega
      · have := k3 hty; omega
      · have := k6 hty; omega
      · have := k7 hty; omega
      · have := k3 hty; omega
      · have := k7 hty; omega
      · have := k0 hty; omega
      · have := k7 hty; omega
      · have := k7 hty; omega
  · rw [if_neg h] at hnc
    have hc : ¬ 6 ≤ (child p i).type := by
      have h3 : (Simplex.child .tet p.tet i).type < 6 :=
        (Simplex.aligned_child (hp.aligned h) hl (show i < 8 by omega)).2
      rw [child_tet h]
      show ¬ 6 ≤ (Simplex.child .tet p.tet i).type
      omega
    rw [Points, Points, if_neg h, if_neg hc, child_tet h]
    exact Simplex.child_subset (hp.aligned h) hl (show i < 8 by omega)

/-- The corners of the elements. -/
theorem integerCoords_pyra {p : Elem} (hp : Good p) (h : 6 ≤ p.type) {v : Nat} (hv : v < 5) (i : Fin 3) :
    (integerCoords p v i).toNat = pyraCorner p v i := by
  have hx := x_add_le hp i
  obtain ⟨hb, _⟩ := hp.pyra h
  have hadd : (p.tet.x i + len p.level).toNat = (p.tet.x i).toNat + 2 ^ (21 - p.level) := by
    rw [BitVec.toNat_add, len_toNat]; exact Nat.mod_eq_of_lt (by omega)
  rw [integerCoords, if_pos ((isPyra_iff p).2 h), pyraCorner]
  generalize 2 ^ (21 - p.level) = H at *
  have h67 : ((6 : Nat) = 7) = False := by simp
  have h76 : ((7 : Nat) = 6) = False := by simp
  rcases hb with h6 | h6 <;> simp only [h6, h67, h76, if_true, if_false] <;> interval_cases v <;> fin_cases i <;>
    simp [Simplex.addAt] <;> first | exact hadd | rfl | skip

theorem pyraCorner_mem {p : Elem} (h : 6 ≤ p.type) {v : Nat} (hv : v < 5) : pyraCorner p v ∈ Points p := by
  rw [mem_pyra h]
  simp only [pyraCorner]
  generalize 2 ^ (21 - p.level) = H
  refine ⟨fun i => ?_, fun h6 => ?_, fun h6 => ?_⟩
  · by_cases h6 : p.type = 6 <;> interval_cases v <;> fin_cases i <;> simp [h6]
  · interval_cases v <;> simp [h6] <;> omega
  · interval_cases v <;> simp [h6] <;> omega

end T8.Pyramid
