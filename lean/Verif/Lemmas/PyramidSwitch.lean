/-
Lemmas about the default pyramids: the level where the shape switches.
-/
import Verif.Lemmas.PyramidSlots

namespace T8.Pyramid
open T8.RTree T8.Bits
open T8.Simplex (look Cls)

/-- The types of the ancestors of a part are parts of the ancestors. -/
theorem ct_part {e : Elem} (he : Valid e) {t : Nat} (ht : t ∈ slots e.type) {i : Nat} (hi : i ≤ e.level) :
    ct (part e t) i ∈ slots (tree.anc e i).type := by
  induction hn : e.level - i generalizing e t with
  | zero =>
    have : i = (part e t).level := by show i = e.level; omega
    rw [this, ct_self]
    show t ∈ slots (tree.anc e e.level).type
    rw [anc_self]; exact ht
  | succ n ih =>
    obtain ⟨t', h1, h2⟩ := part_parent he (by omega) ht
    have hpl : (parent e).level = e.level - 1 := by
      have : (parent e).cube.level = e.level - 1 := by rw [parent_cube]; rfl
      exact this
    have vp : Valid (parent e) := tree.valid_parent e he (by show 0 < e.level; omega)
    rw [ct_parent (by show i < e.level; omega), h2]
    have h3 := ih vp h1 (by omega) (by omega)
    have h4 : tree.anc (parent e) i = tree.anc e i := by
      rw [anc_pred he (show e.level - 1 + 1 = e.level by omega)]
      exact anc_anc (T := tree) he (by omega) (by show e.level - 1 ≤ e.level; omega)
    rw [h4] at h3
    exact h3

/-- `s` is the first level where the type is 0 or 3. -/
def First (p : S) (s : Nat) : Prop := s ≤ p.level ∧ (ct p s = 0 ∨ ct p s = 3) ∧ ∀ i < s, ct p i ≠ 0 ∧ ct p i ≠ 3

theorem switch_first {e : Elem} (he : Valid e) (h : ¬ 6 ≤ e.type) : First e.tet e.switch.toNat ∧ 1 ≤ e.switch := by
  obtain ⟨h1, h2, h3⟩ := he.good.tet h
  have hpart : part e e.type = e.tet := rfl
  have hslot := mem_slots_self h1
  refine ⟨⟨by show e.switch.toNat ≤ e.level; omega, ?_, fun i hi => ?_⟩, h2⟩
  · have hl : e.switch.toNat ≤ e.level := by omega
    have ha := ct_part he hslot hl
    rw [hpart] at ha
    obtain ⟨s1, s2⟩ := (anc_shape he hl).2.1 h (by omega)
    have hl' := anc_level he hl
    have := (parent_shape (valid_anc' he e.switch.toNat) (by omega)).2.1 s1 (by rw [s2]; omega)
    have hb := (slots_lt _ (by omega) _ ha).2.2 (by omega)
    rw [hb]
    exact this.2
  · have hl : i ≤ e.level := by omega
    have ha := ct_part he hslot hl
    rw [hpart] at ha
    have := (anc_shape he hl).2.2 h (by omega)
    exact (slots_lt _ (type_lt (valid_anc' he i).good) _ ha).2.1 this

theorem First.unique {p : S} {s s' : Nat} (h : First p s) (h' : First p s') : s = s' := by
  rcases Nat.lt_trichotomy s s' with hl | hl | hl
  · have := h'.2.2 s hl; have := h.2.1; omega
  · exact hl
  · have := h.2.2 s' hl; have := h'.2.1; omega

theorem switchLoop_spec {p : Elem} (hp : Al p.tet) {s : Nat} (hs : First p.tet s) (h1 : 1 ≤ s) (l : Nat) (hl : l ≤ p.level)
    (hsl : s ≤ l) : ∃ m, switchLoop p l (ct p.tet l) = some (m, ct p.tet m) ∧ s ≤ m ∧ m ≤ l ∧
      (ct p.tet m = 0 ∨ ct p.tet m = 3) := by
  induction l with
  | zero => omega
  | succ l ih =>
    rw [switchLoop]
    by_cases h : ct p.tet (l + 1) ≠ 0 ∧ ct p.tet (l + 1) ≠ 3
    · rw [if_pos h]
      have hne : s ≠ l + 1 := by
        intro hh
        have := hs.2.1
        rw [hh] at this
        exact this.elim h.1 h.2
      have hl0 : l ≠ 0 := by omega
      have hstep : typeSameShapeExt p l (ct p.tet (l + 1)) (l + 1) = ct p.tet l := by
        rw [typeSameShapeExt, if_neg (by omega), if_neg hl0, typeLoop, if_pos (by omega)]
        have : ∀ t, typeLoop p l l t = t := by
          intro t
          cases l with
          | zero => rfl
          | succ l => rw [typeLoop, if_neg (by omega)]
        rw [this, (tet_tables _ (ct_lt hp _)).1 _ (cubeid_lt _ _), cubeid_eq]
        exact ct_step hp (by show l < p.level; omega)
      rw [hstep]
      obtain ⟨m, m1, m2, m3, m4⟩ := ih (by omega) (by omega)
      exact ⟨m, m1, m2, Nat.le_succ_of_le m3, m4⟩
    · rw [if_neg h]
      refine ⟨l + 1, rfl, hsl, le_refl _, ?_⟩
      omega

theorem toInt_of_lt {v : BitVec 32} (h : v.toNat < 2 ^ 31) : v.toInt = (v.toNat : Int) := by
  rw [BitVec.toInt_eq_toNat_cond, if_pos (by omega)]

theorem rank_ends : ∀ t < 6, ((t = 0 ∨ t = 3) ↔
    ((Simplex.rank .tet t (0 : Fin 3) < Simplex.rank .tet t (2 : Fin 3)) ↔
      ¬ (Simplex.rank .tet t (1 : Fin 3) < Simplex.rank .tet t (2 : Fin 3)))) := by decide +kernel

/-- The test of `t8_dpyramid_is_inside_pyra`. -/
theorem isInsidePyra_iff {p : S} (hp : Al p) {i m : Nat} (him : i ≤ m) (hm21 : m ≤ p.level) (ht : ct p m = 0 ∨ ct p m = 3)
    {check : Fin 3 → BitVec 32} (hc : ∀ k, (check k).toNat = (p.x k).toNat - (p.x k).toNat % 2 ^ (21 - i)) :
    isInsidePyra ⟨p.x, m, ct p m⟩ check i = 0 ↔ (ct p i = 0 ∨ ct p i = 3) := by
  have hl : p.level ≤ 21 := hp.1.1
  have hi : i ≤ p.level := by omega
  rw [rank_ends _ (ct_lt hp i), ct_rank hp hi, ct_rank hp hi]
  have hx : ∀ k, (p.x k).toNat < 2 ^ 21 := fun k => Simplex.x_lt (c := .tet) hp k
  have hpos : 0 < 2 ^ (21 - i) := Nat.two_pow_pos _
  have hm : ∀ k, (p.x k).toNat % 2 ^ (21 - i) < 2 ^ (21 - i) := fun k => Nat.mod_lt _ hpos
  have hm' : ∀ k, (p.x k).toNat % 2 ^ (21 - i) ≤ (p.x k).toNat := fun k => Nat.mod_le _ _
  have hlen : (len i).toInt = ((2 ^ (21 - i) : Nat) : Int) := by
    rw [toInt_of_lt, len_toNat]
    rw [len_toNat]
    exact lt_of_le_of_lt (Nat.pow_le_pow_right (by omega) (Nat.sub_le 21 i)) (by omega)
  have ex : ∀ k, (p.x k).toInt = ((p.x k).toNat : Int) := fun k => toInt_of_lt (by have := hx k; omega)
  have ec : ∀ k, (check k).toInt = ((p.x k).toNat : Int) - ((p.x k).toNat % 2 ^ (21 - i) : Nat) := fun k => by
    rw [toInt_of_lt (by have := hx k; have := hc k; omega), hc k]
    have := hm' k
    omega
  have r : ∀ t, (t = 0 ∨ t = 3) → (Simplex.rank .tet t (0 : Fin 3) < Simplex.rank .tet t (2 : Fin 3) ↔ t = 0) ∧
      (Simplex.rank .tet t (1 : Fin 3) < Simplex.rank .tet t (2 : Fin 3) ↔ t = 3) := by
    rintro t (rfl | rfl) <;> decide
  have tie : ∀ a b : Fin 3, (p.x a).toNat % 2 ^ (21 - i) = (p.x b).toNat % 2 ^ (21 - i) →
      (Simplex.rank .tet p.type a < Simplex.rank .tet p.type b ↔ Simplex.rank .tet (ct p m) a < Simplex.rank .tet (ct p m) b) := by
    intro a b hab
    rw [ct_rank hp hm21]
    have hd : 2 ^ (21 - m) ∣ 2 ^ (21 - i) := pow_dvd (by omega)
    have h1 := congrArg (fun v => v % 2 ^ (21 - m)) hab
    simp only [Nat.mod_mod_of_dvd _ hd] at h1
    constructor
    · exact fun h => Or.inr ⟨h1, h⟩
    · rintro (h | h)
      · have h2 : (p.x b).toNat % 2 ^ (21 - m) < (p.x a).toNat % 2 ^ (21 - m) := h
        omega
      · exact h.2
  have o0 : Simplex.Order (c := .tet) p i (0 : Fin 3) (2 : Fin 3) ↔
      ((p.x 2).toNat % 2 ^ (21 - i) < (p.x 0).toNat % 2 ^ (21 - i) ∨
        ((p.x 0).toNat % 2 ^ (21 - i) = (p.x 2).toNat % 2 ^ (21 - i) ∧ ct p m = 0)) :=
    or_congr Iff.rfl (and_congr_right fun h => (tie 0 2 h).trans (r _ ht).1)
  have o1 : Simplex.Order (c := .tet) p i (1 : Fin 3) (2 : Fin 3) ↔
      ((p.x 2).toNat % 2 ^ (21 - i) < (p.x 1).toNat % 2 ^ (21 - i) ∨
        ((p.x 1).toNat % 2 ^ (21 - i) = (p.x 2).toNat % 2 ^ (21 - i) ∧ ct p m = 3)) :=
    or_congr Iff.rfl (and_congr_right fun h => (tie 1 2 h).trans (r _ ht).2)
  rw [o0, o1]
  unfold isInsidePyra
  simp only [hlen, ex, ec]
  have a0 := hm 0
  have a1 := hm 1
  have a2 := hm 2
  have b0 := hm' 0
  have b1 := hm' 1
  have b2 := hm' 2
  clear o0 o1 tie hc ec ex hlen hm hm' hx
  generalize (p.x 0).toNat = X at *
  generalize (p.x 1).toNat = Y at *
  generalize (p.x 2).toNat = Z at *
  generalize 2 ^ (21 - i) = H at *
  generalize X % H = u at *
  generalize Y % H = v at *
  generalize Z % H = w at *
  generalize ct p m = t at *
  clear * - a0 a1 a2 b0 b1 b2 ht
  have e1 : (((X : Int) - u + ((Z : Int) - ((Z : Int) - w)) ≤ X ∧ (X : Int) < X - u + H) ∧
      ((Y : Int) - v + ((Z : Int) - ((Z : Int) - w)) ≤ Y ∧ (Y : Int) < Y - v + H) ∧
      ((Z : Int) - w ≤ Z ∧ (Z : Int) < Z - w + H)) ↔ (w ≤ u ∧ w ≤ v) := by omega
  have e2 : (((X : Int) - u ≤ X ∧ (X : Int) ≤ X - u + ((Z : Int) - ((Z : Int) - w))) ∧
      ((Y : Int) - v ≤ Y ∧ (Y : Int) ≤ Y - v + ((Z : Int) - ((Z : Int) - w))) ∧
      ((Z : Int) - w ≤ Z ∧ (Z : Int) < Z - w + H)) ↔ (u ≤ w ∧ v ≤ w) := by omega
  have e3 : ((X : Int) - u + ((Z : Int) - ((Z : Int) - w)) = X) ↔ u = w := by omega
  have e4 : ((Y : Int) - v + ((Z : Int) - ((Z : Int) - w)) = Y) ↔ v = w := by omega
  simp only [e1, e2, e3, e4]
  split
  · split
    · simp only [true_iff]; omega
    · simp only [show ¬ (6 : Nat) = 0 by omega, false_iff]; omega
  · split
    · split
      · simp only [true_iff]; omega
      · simp only [show ¬ (7 : Nat) = 0 by omega, false_iff]; omega
    · simp only [true_iff]; omega

/-- The anchor of the cube of level `i`. -/
theorem or_and_bit {x y : BitVec 32} {i : Nat} (hi : i < 21) (hx : x.toNat < 2 ^ 21)
    (hy : y.toNat = x.toNat - x.toNat % 2 ^ (21 - i)) :
    (y ||| (x &&& BitVec.twoPow 32 (21 - (i + 1)))).toNat = x.toNat - x.toNat % 2 ^ (21 - (i + 1)) := by
  have hb : ∀ (n k : Nat), (x.toNat - x.toNat % 2 ^ n).testBit k = (x.toNat.testBit k && decide (n ≤ k)) := by
    intro n k
    have : x.toNat - x.toNat % 2 ^ n = 2 ^ n * (x.toNat / 2 ^ n) := by
      have := Nat.div_add_mod x.toNat (2 ^ n); omega
    rw [this, Nat.testBit_two_pow_mul]
    by_cases h : n ≤ k
    · rw [decide_eq_true h, Bool.true_and, Bool.and_true, Nat.testBit_div_two_pow]
      congr 1; omega
    · rw [decide_eq_false h, Bool.false_and, Bool.and_false]
  apply Nat.eq_of_testBit_eq
  intro k
  rw [hb, BitVec.toNat_or, Nat.testBit_or, hy, hb, BitVec.toNat_and, Nat.testBit_and, BitVec.testBit_toNat,
    BitVec.testBit_toNat, BitVec.getLsbD_twoPow]
  by_cases h1 : 21 - i ≤ k
  · rw [decide_eq_true h1, decide_eq_true (show 21 - (i + 1) ≤ k by omega),
      decide_eq_false (show ¬ 21 - (i + 1) = k by omega)]
    simp
  · by_cases h2 : 21 - (i + 1) = k
    · rw [decide_eq_false h1, decide_eq_true (show 21 - (i + 1) ≤ k by omega), decide_eq_true h2,
        decide_eq_true (show 21 - (i + 1) < 32 by omega)]
      simp
    · rw [decide_eq_false h1, decide_eq_false (show ¬ 21 - (i + 1) ≤ k by omega), decide_eq_false h2]
      simp

theorem isInsideTetLoop_spec {p : S} (hp : Al p) {s m : Nat} (hm : m ≤ p.level) (ht : ct p m = 0 ∨ ct p m = 3)
    (hs : First p s) (n : Nat) :
    ∀ (i : Nat) (pyra : Fin 3 → BitVec 32), 1 ≤ i → i ≤ s → i + n = m → s ≤ m →
    (∀ k, (pyra k).toNat = (p.x k).toNat - (p.x k).toNat % 2 ^ (21 - (i - 1))) →
    isInsideTetLoop ⟨p.x, m, ct p m⟩ n i pyra = if s < m then s else 0 := by
  have hl : p.level ≤ 21 := hp.1.1
  induction n with
  | zero =>
    intro i pyra h1 h2 h3 h4 _
    rw [isInsideTetLoop, if_neg (by omega)]
  | succ n ih =>
    intro i pyra h1 h2 h3 h4 hc
    rw [isInsideTetLoop]
    have hc' : ∀ k, (pyra k ||| (p.x k &&& BitVec.twoPow 32 (maxLevel - i))).toNat =
        (p.x k).toNat - (p.x k).toNat % 2 ^ (21 - i) := fun k => by
      have := or_and_bit (i := i - 1) (by omega) (Simplex.x_lt (c := .tet) hp k) (hc k)
      rw [show i - 1 + 1 = i by omega] at this
      exact this
    show (if isInsidePyra ⟨p.x, m, ct p m⟩ (fun k => pyra k ||| (p.x k &&& BitVec.twoPow 32 (maxLevel - i))) i = 0 then i
      else isInsideTetLoop ⟨p.x, m, ct p m⟩ n (i + 1)
        (fun k => pyra k ||| (p.x k &&& BitVec.twoPow 32 (maxLevel - i)))) = _
    have hiff := isInsidePyra_iff hp (i := i) (m := m) (by omega) hm ht hc'
    by_cases his : i = s
    · rw [if_pos (hiff.2 (his ▸ hs.2.1)), if_pos (by omega)]
      exact his
    · rw [if_neg (by rw [hiff]; have := hs.2.2 i (by omega); omega)]
      exact ih (i + 1) _ (by omega) (by omega) (by omega) h4 hc'

theorem computeSwitch_eq {p : Elem} (hp : Al p.tet) {s : Nat} (hs : First p.tet s) (h1 : 1 ≤ s) :
    computeSwitch p = some s := by
  obtain ⟨m, m1, m2, m3, m4⟩ := switchLoop_spec hp hs h1 p.level (le_refl _) hs.1
  rw [show ct p.tet p.level = p.type from ct_self p.tet] at m1
  have hl : p.level ≤ 21 := hp.1.1
  rw [computeSwitch, m1]
  show (if isInsideTet ⟨p.tet.x, m, ct p.tet m⟩ m ≠ 0 then some (isInsideTet ⟨p.tet.x, m, ct p.tet m⟩ m) else some m) = some s
  have : isInsideTet ⟨p.tet.x, m, ct p.tet m⟩ m = if s < m then s else 0 := by
    refine isInsideTetLoop_spec hp m3 m4 hs (m - 1) 1 (fun _ => 0) (le_refl _) h1 (by omega) m2 fun k => ?_
    show 0 = (p.tet.x k).toNat - (p.tet.x k).toNat % 2 ^ 21
    have : (p.tet.x k).toNat < 2 ^ 21 := Simplex.x_lt (c := .tet) hp k
    rw [Nat.mod_eq_of_lt this, Nat.sub_self]
  rw [this]
  by_cases h : s < m
  · rw [if_pos h, if_pos (by omega)]
  · rw [if_neg h, if_neg (by omega), show m = s by omega]

/-- `t8_dpyramid_set_switch_shape_at_level` completes the elements of the tree. -/
theorem setSwitch_eq {e : Elem} (he : Valid e) (s : Int) : setSwitch ⟨e.tet, s⟩ = some e := by
  rw [setSwitch]
  by_cases h : 6 ≤ e.type
  · rw [if_pos ((isPyra_iff (⟨e.tet, s⟩ : Elem)).2 h)]
    rw [Option.some.injEq]
    exact Elem.ext' rfl rfl (he.good.pyra h).2.symm
  · rw [if_neg (by rw [isPyra_iff]; exact h)]
    obtain ⟨h1, h2⟩ := switch_first he h
    rw [computeSwitch_eq (p := ⟨e.tet, s⟩) (he.good.aligned h) h1 (by omega)]
    show some (⟨e.tet, ((e.switch.toNat : Nat) : Int)⟩ : Elem) = some e
    rw [Option.some.injEq]
    refine Elem.ext' rfl rfl ?_
    show ((e.switch.toNat : Nat) : Int) = e.switch
    omega

end T8.Pyramid
