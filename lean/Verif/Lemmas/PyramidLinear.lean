/-
Lemmas about the default pyramids: linear ids, elements from linear ids, descendants, the order.
-/
import Verif.Lemmas.PyramidIds

namespace T8.Pyramid
open T8.RTree T8.Bits
open T8.Simplex (look Cls)

/-! ### Arithmetic modulo `2^64` -/

theorem ofNat_shift (a k : Nat) : (BitVec.ofNat 64 a) <<< k = BitVec.ofNat 64 (a * 2 ^ k) := by
  apply BitVec.eq_of_toNat_eq
  rw [BitVec.toNat_shiftLeft, BitVec.toNat_ofNat, BitVec.toNat_ofNat, Nat.shiftLeft_eq, Nat.mod_mul_mod]

theorem ofNat_sub {a b : Nat} (h : b ≤ a) : BitVec.ofNat 64 a - BitVec.ofNat 64 b = BitVec.ofNat 64 (a - b) := by
  rw [BitVec.sub_eq_iff_eq_add, ← BitVec.ofNat_add, Nat.sub_add_cancel h]

theorem pow8_le {n : Nat} (hn : n ≤ 21) : 8 ^ n ≤ 2 ^ 63 := by
  rw [show (2 ^ 63 : Nat) = 8 ^ 21 from by decide]
  exact Nat.pow_le_pow_right (by omega) hn

theorem pow6_le {n : Nat} (hn : n ≤ 21) : 6 ^ n < 2 ^ 63 := by
  rw [show (2 ^ 63 : Nat) = 8 ^ 21 from by decide]
  exact lt_of_le_of_lt (Nat.pow_le_pow_right (by omega) hn) (by decide)

/-! ### Linear ids -/

/-- The table of pyramids with a lower id, and the same for tetrahedra. -/
theorem lower_table : (∀ b, b = 6 ∨ b = 7 → ∀ i < 10,
      look pyraWithLowerId (b - 6) i =
        (List.range i).countP (fun j => decide (6 ≤ look parenttypeIlocToType b j)) ∧
      i - look pyraWithLowerId (b - 6) i =
        (List.range i).countP (fun j => decide (look parenttypeIlocToType b j < 6))) ∧
    ∀ b < 6, ∀ i ≤ 8, (List.range i).countP (fun j => decide (6 ≤ look parenttypeIlocToType b j)) = 0 ∧
      (List.range i).countP (fun j => decide (look parenttypeIlocToType b j < 6)) = i := by
  refine ⟨?_, by decide +kernel⟩
  rintro b (rfl | rfl) <;> decide +kernel

theorem sum_tet {b : Nat} (hb : b < 6) {i : Nat} (hi : i ≤ 8) (n : Nat) :
    ((List.range i).map (fun j => cnt (look parenttypeIlocToType b j) n)).sum = i * 8 ^ n := by
  rw [sum_cnt, (lower_table.2 b hb i hi).1, (lower_table.2 b hb i hi).2, Nat.zero_mul, Nat.zero_add]

theorem linearIdLoop_eq : ∀ (i : Nat) (x : Elem) (n : Nat) (id : BitVec 64), Valid x → x.level = i → i + n ≤ 21 →
    linearIdLoop i x id (BitVec.ofNat 64 (8 ^ n)) (BitVec.ofNat 64 (6 ^ n)) =
      id + BitVec.ofNat 64 (lid (T := tree) x (i + n)) := by
  intro i
  induction i with
  | zero =>
    intro x n id hx hl _
    have : x = root := tree.root_unique x hx hl
    subst this
    rw [linearIdLoop, lid_root (T := tree)]
    simp
  | succ i ih =>
    intro x n id hx hl hn
    obtain ⟨p, k, h1, h2, h3, rfl⟩ := valid_cases hx (by omega)
    have hpl : p.level = i := by rw [child_level] at hl; omega
    have hg := h1.good
    rw [linearIdLoop, parent_child hg h2 h3, childId_child hg h2 h3]
    have hlid := lid_child_eq h1 h3 (L := i + 1 + n) (by omega) hn
    rw [hpl, show i + 1 + n - i - 1 = n by omega, sum_cnt] at hlid
    have hnum : (if isPyra p = true then look pyraWithLowerId (p.type - 6) k else 0) =
        (List.range k).countP (fun j => decide (6 ≤ look parenttypeIlocToType p.type j)) ∧
        (k - (if isPyra p = true then look pyraWithLowerId (p.type - 6) k else 0)) =
        (List.range k).countP (fun j => decide (look parenttypeIlocToType p.type j < 6)) := by
      simp only [isPyra_iff]
      rw [numChildren_eq] at h3
      by_cases h : 6 ≤ p.type
      · rw [if_pos h] at h3 ⊢
        exact lower_table.1 p.type (hg.pyra h).1 k h3
      · rw [if_neg h] at h3 ⊢
        have := lower_table.2 p.type (hg.tet h).1 k (by omega)
        rw [this.1, this.2]
        exact ⟨rfl, rfl⟩
    simp only [hnum.2]
    rw [hnum.1]
    have e1 : (BitVec.ofNat 64 (8 ^ n)) <<< 3 = BitVec.ofNat 64 (8 ^ (n + 1)) := by
      rw [ofNat_shift, Nat.pow_succ 8 n]; rfl
    have e2 : BitVec.ofNat 64 (6 ^ n) * 6 = BitVec.ofNat 64 (6 ^ (n + 1)) := by
      rw [show (6 : BitVec 64) = BitVec.ofNat 64 6 from rfl, ← BitVec.ofNat_mul, Nat.pow_succ]
    have h68 := six_le n
    have e3 : (BitVec.ofNat 64 (8 ^ n)) <<< 1 - BitVec.ofNat 64 (6 ^ n) = BitVec.ofNat 64 (2 * 8 ^ n - 6 ^ n) := by
      rw [ofNat_shift, ofNat_sub (by omega), Nat.mul_comm, Nat.pow_one]
    rw [e1, e2, e3, ih p (n + 1) _ h1 hpl (by omega), hlid, ← BitVec.ofNat_mul, ← BitVec.ofNat_mul, ← BitVec.ofNat_add,
      BitVec.add_assoc, ← BitVec.ofNat_add]
    congr 2
    rw [show i + (n + 1) = i + 1 + n by omega]
    omega

/-- The first child has the coordinates and the type of its parent. -/
theorem child_zero {e : Elem} (he : Good e) (hl : e.level < 21) : child e 0 = ⟨⟨e.tet.x, e.level + 1, e.type⟩, e.switch⟩ := by
  have h0 : 0 < numChildren e := by rw [numChildren_eq]; split <;> omega
  obtain ⟨h1, h2, _⟩ := child_cube he hl h0
  have ht : ∀ b < 8, look parenttypeIlocToCid b 0 = 0 ∧ look parenttypeIlocToType b 0 = b := by decide +kernel
  have ht' := ht e.type (type_lt he)
  refine Elem.ext' ?_ (h2.trans ht'.2) ?_
  · rw [h1, ht'.1]
    refine Standalone.Elem.ext' (fun i => ?_) rfl
    show e.tet.x i + (if (0 : Nat) &&& (1 <<< i.val) ≠ 0 then _ else 0) = e.tet.x i
    simp
  · by_cases h : 6 ≤ e.type
    · rw [(child_pyra h 0).2.2, ht'.2, if_pos h]
      exact (he.pyra h).2.symm
    · rw [child_tet h]

/-- First descendants have the coordinates and the type. -/
theorem firstDesc_eq {e : Elem} (he : Valid e) {n : Nat} (hn : e.level + n ≤ 21) :
    tree.firstDesc e n = ⟨⟨e.tet.x, e.level + n, e.type⟩, e.switch⟩ := by
  induction n generalizing e with
  | zero => rfl
  | succ n ih =>
    have hz := child_zero he.good (by omega)
    have h0 : 0 < numChildren e := by rw [numChildren_eq]; split <;> omega
    have h1 := ih (valid_child he (by omega) h0) (by rw [child_level]; omega)
    show tree.firstDesc (child e 0) n = _
    rw [h1, hz]
    show (⟨⟨e.tet.x, e.level + 1 + n, e.type⟩, e.switch⟩ : Elem) = _
    rw [show e.level + 1 + n = e.level + (n + 1) by omega]

theorem firstDesc_spec' {e : Elem} (he : Valid e) {n : Nat} (hn : e.level + n ≤ 21) :
    Valid (tree.firstDesc e n) ∧ (tree.firstDesc e n).level = e.level + n ∧
      ∀ L, lid (T := tree) (tree.firstDesc e n) L = lid (T := tree) e L := by
  obtain ⟨h1, h2, h3⟩ := firstDesc_spec (T := tree) he hn
  exact ⟨h1.valid he, h2, h3⟩

/-- A wrong switch level of a pyramid does not matter. -/
theorem linearIdLoop_stale (i : Nat) (x : Elem) (s : Int) (id s1 s2 : BitVec 64) (h : 6 ≤ x.type) :
    linearIdLoop i ⟨x.tet, s⟩ id s1 s2 = linearIdLoop i x id s1 s2 := by
  cases i with
  | zero => rfl
  | succ i =>
    have hp : isPyra ⟨x.tet, s⟩ = true := (isPyra_iff _).2 h
    have hp' : isPyra x = true := (isPyra_iff _).2 h
    have h1 : parent ⟨x.tet, s⟩ = parent x := by
      rw [parent, parent, if_pos hp, if_pos hp']; rfl
    have h2 : childId ⟨x.tet, s⟩ = childId x := by
      rw [childId, childId, if_pos (Or.inl hp), if_pos (Or.inl hp')]; rfl
    rw [linearIdLoop, linearIdLoop, h1, h2]

theorem lid_lt_64 {x : Elem} (hx : Valid x) {L : Nat} (hl : x.level ≤ L) (hL : L ≤ 21) :
    lid (T := tree) x L < 2 ^ 64 := by
  have h1 := lid_lt (T := tree) hx hl hL
  have h2 := count_root_eq hL
  have h3 := pow8_le hL
  have h4 : 0 < 6 ^ L := Nat.pow_pos (by omega)
  have h5 : tree.count tree.root L < 2 ^ 64 := by
    show tree.count root L < _
    rw [h2]; omega
  have h6 : lid (T := tree) x L + tree.count x L ≤ tree.count tree.root L := h1
  omega

theorem linearId_lid {e : Elem} (he : Valid e) {L : Nat} (hL : L ≤ 21) :
    (linearId e L).toNat = lid (T := tree) (if L < e.level then tree.anc e L else e) L := by
  have hone : ∀ x : Elem, Valid x → x.level = L →
      (linearIdLoop L x 0 1 1).toNat = lid (T := tree) x L := by
    intro x hx hxl
    have h1 := linearIdLoop_eq L x 0 0 hx hxl hL
    rw [show BitVec.ofNat 64 (8 ^ 0) = 1 from rfl, show BitVec.ofNat 64 (6 ^ 0) = 1 from rfl, Nat.add_zero] at h1
    rw [h1, BitVec.toNat_add, BitVec.toNat_ofNat]
    simp only [BitVec.ofNat_eq_ofNat, BitVec.toNat_ofNat, Nat.zero_mod, Nat.zero_add, Nat.mod_mod]
    exact Nat.mod_eq_of_lt (lid_lt_64 hx (by omega) hL)
  rw [linearId]
  split
  · rename_i hlt
    rw [typeAtLevel_eq he hlt.le]
    have hx : cutCoordinates { e with tet := { e.tet with type := (tree.anc e L).type, level := L } } (maxLevel - L) =
        ⟨(tree.anc e L).tet, e.switch⟩ := by
      have h1 := cut_anc he hlt.le
      have h2 := anc_level he hlt.le
      show (⟨⟨(cutCoordinates e (21 - L)).tet.x, L, (tree.anc e L).type⟩, e.switch⟩ : Elem) = _
      rw [h1]
      conv_lhs => arg 1; arg 2; rw [← h2]
    rw [hx]
    by_cases h6 : 6 ≤ (tree.anc e L).type
    · rw [linearIdLoop_stale _ _ _ _ _ _ h6]
      exact hone _ (valid_anc' he L) (anc_level he hlt.le)
    · have hs := anc_switch he hlt.le
      rw [if_neg h6] at hs
      rw [← hs]
      exact hone _ (valid_anc' he L) (anc_level he hlt.le)
  · rename_i hge
    have ht : typeAtLevel e L = e.type := by
      rw [typeAtLevel, if_pos (by omega)]
    obtain ⟨f1, f2, f3⟩ := firstDesc_spec' he (n := L - e.level) (by omega)
    have hf := firstDesc_eq he (n := L - e.level) (by omega)
    rw [show e.level + (L - e.level) = L by omega] at hf f2
    have hx : cutCoordinates { e with tet := { e.tet with type := typeAtLevel e L, level := L } } (maxLevel - L) =
        tree.firstDesc e (L - e.level) := by
      rw [hf, ht]
      have h1 := cut_anc (e := tree.firstDesc e (L - e.level)) f1 (l := L) (by rw [f2])
      have h2 := anc_self (tree.firstDesc e (L - e.level))
      rw [f2] at h2
      rw [h2] at h1
      have h3 : (tree.firstDesc e (L - e.level)).tet.x = e.tet.x := by rw [hf]
      have h4 : (cutCoordinates (tree.firstDesc e (L - e.level)) (21 - L)).tet.x =
        fun i => ((tree.firstDesc e (L - e.level)).tet.x i).sshiftRight (21 - L) <<< (21 - L) := rfl
      rw [h4, h3] at h1
      show (⟨⟨fun i => (e.tet.x i).sshiftRight (21 - L) <<< (21 - L), L, e.type⟩, e.switch⟩ : Elem) = _
      rw [h1]
    rw [hx, hone _ f1 f2, f3]

theorem linearId_spec : tree.LinearIdSpec (fun e L => (linearId e L).toNat) :=
  linearIdSpec_of (T := tree) fun _ _ he hL => linearId_lid he hL

theorem linearId_ge {e : Elem} (he : Valid e) {L : Nat} (hl : e.level ≤ L) (hL : L ≤ 21) :
    (linearId e L).toNat = lid (T := tree) e L := by
  rw [linearId_lid he hL, if_neg (by omega)]

/-! ### Elements from linear ids -/

/-- The coordinates of a child, in the form of the loops. -/
theorem child_or {e : Elem} (he : Good e) (hl : e.level < 21) {i : Nat} (hi : i < numChildren e) :
    (fun k => e.tet.x k ||| (if look parenttypeIlocToCid e.type i &&& (1 <<< k.val) ≠ 0 then
      BitVec.twoPow 32 (21 - (e.level + 1)) else 0)) = (child e i).tet.x := by
  funext k
  have h1 : (child e i).tet.x k = (Standalone.child 21 e.cube (look parenttypeIlocToCid e.type i)).coords k := by
    rw [← (child_cube he hl hi).1]; rfl
  rw [h1]
  apply BitVec.eq_of_getLsbD_eq
  intro j hj
  rw [Standalone.child_bit h32 he.cube hl, BitVec.getLsbD_or]
  have h4 : e.cube.coords k = e.tet.x k := rfl
  have h5 : e.cube.level = e.level := rfl
  rw [h4, h5]
  congr 1
  simp only [Standalone.and_shift_ne_zero]
  split
  · rename_i hb
    rw [hb, BitVec.getLsbD_twoPow]
    have : 21 - (e.level + 1) < 32 := by omega
    simp
    omega
  · rename_i hb
    rw [Bool.not_eq_true] at hb
    rw [hb]; simp

theorem initTetLoop_spec {id : BitVec 64} {L : Nat} : ∀ (n : Nat) (p : Elem), Valid p → ¬ 6 ≤ p.type → p.level + n = L →
    L ≤ 21 → ∃ e, initTetLoop id L n p.tet.x p.type = (e.tet.x, e.type) ∧ Valid e ∧ e.level = L ∧ e.switch = p.switch ∧
      lid (T := tree) e L = lid (T := tree) p L + id.toNat % 8 ^ n := by
  intro n
  induction n with
  | zero =>
    intro p hp _ hl _
    exact ⟨p, rfl, hp, hl, rfl, by rw [Nat.pow_zero, Nat.mod_one, Nat.add_zero]⟩
  | succ n ih =>
    intro p hp h6 hl hL
    have hb := hp.good.tet h6
    have hloc : ((id >>> (3 * (L - (L - n)))) &&& 7).toNat = id.toNat / 8 ^ n % 8 := by
      have := Simplex.and_mask (c := .tet) (id >>> (3 * (L - (L - n))))
      rw [show BitVec.ofNat 64 (Cls.numChildren .tet - 1) = 7 from rfl] at this
      rw [this, BitVec.toNat_ushiftRight, Nat.shiftRight_eq_div_pow, show L - (L - n) = n by omega, Nat.pow_mul]
      rfl
    have hlt : id.toNat / 8 ^ n % 8 < 8 := Nat.mod_lt _ (by omega)
    have hc : id.toNat / 8 ^ n % 8 < numChildren p := by rw [numChildren_eq, if_neg h6]; exact hlt
    have hv := valid_child hp (by omega) hc
    have h6' : ¬ 6 ≤ (child p (id.toNat / 8 ^ n % 8)).type := by
      rw [child_tet h6]
      have := (Simplex.aligned_child (hp.good.aligned h6) (by show p.level < 21; omega) hlt).2
      exact Nat.not_le.2 this
    obtain ⟨e, q1, q2, q3, q4, q5⟩ := ih _ hv h6' (by rw [child_level]; omega) hL
    refine ⟨e, ?_, q2, q3, ?_, ?_⟩
    · rw [initTetLoop]
      simp only [hloc]
      have ht := (tet_tables p.type hb.1).2 _ hlt
      have ho := child_or hp.good (by omega) hc
      have hty := (child_cube hp.good (by omega) hc).2.1
      rw [← q1, ← ho, hty, ht.1, ht.2]
      have hn : p.level + 1 = L - n := by omega
      rw [hn]
      rfl
    · rw [q4, child_tet h6]
    · have h7 := lid_child_eq hp hc (L := L) (by omega) hL
      rw [sum_tet hb.1 (by omega), show L - p.level - 1 = n by omega] at h7
      rw [q5, h7, Nat.add_assoc, Nat.pow_succ, Nat.mod_mul]
      congr 1
      rw [Nat.mul_comm]
      omega

/-- Sum of the numbers of descendants of the first `k` children. -/
def firstSum (b n k : Nat) : Nat := ((List.range k).map (fun j => cnt (look parenttypeIlocToType b j) n)).sum

theorem firstSum_succ (b n k : Nat) : firstSum b n (k + 1) = firstSum b n k + cnt (look parenttypeIlocToType b k) n := by
  simp [firstSum, List.range_succ]

theorem updateLoop_eq {id pyra tet : BitVec 64} {b n N : Nat} (hpy : pyra = BitVec.ofNat 64 (2 * 8 ^ n - 6 ^ n))
    (htet : tet = BitVec.ofNat 64 (8 ^ n)) (hN : firstSum b n N < 2 ^ 64) (hid : id.toNat < firstSum b n N) :
    ∀ (m k : Nat), k + m = N → firstSum b n k ≤ id.toNat →
      ∃ j, updateLoop id b pyra tet m (BitVec.ofNat 64 (firstSum b n k)) k =
        some (j, id - BitVec.ofNat 64 (firstSum b n j)) ∧ j < N ∧ firstSum b n j ≤ id.toNat ∧
        id.toNat < firstSum b n (j + 1) := by
  have mono : ∀ a c, firstSum b n a ≤ firstSum b n (a + c) := by
    intro a c
    induction c with
    | zero => exact le_refl _
    | succ c ih => rw [← Nat.add_assoc, firstSum_succ]; omega
  intro m
  induction m with
  | zero =>
    intro k hk hle
    rw [Nat.add_zero] at hk
    rw [hk] at hle
    omega
  | succ m ih =>
    intro k hk hle
    have hsh : (if look parenttypeIlocToType b k ≥ 6 then pyra else tet) =
        BitVec.ofNat 64 (cnt (look parenttypeIlocToType b k) n) := by
      rw [cnt, hpy, htet]
      split <;> rfl
    have hlt : firstSum b n (k + 1) < 2 ^ 64 := by
      have := mono (k + 1) m
      rw [show k + 1 + m = N by omega] at this
      omega
    rw [updateLoop]
    simp only [hsh]
    rw [← BitVec.ofNat_add, ← firstSum_succ]
    have hto : (BitVec.ofNat 64 (firstSum b n (k + 1))).toNat = firstSum b n (k + 1) := by
      rw [BitVec.toNat_ofNat, Nat.mod_eq_of_lt hlt]
    split
    · rename_i h
      rw [BitVec.le_def, hto] at h
      exact ih (k + 1) (by omega) h
    · rename_i h
      rw [BitVec.le_def, hto] at h
      refine ⟨k, ?_, by omega, hle, by omega⟩
      rw [ofNat_sub (by rw [firstSum_succ]; omega), firstSum_succ, Nat.add_sub_cancel]

theorem bits_of_cid : ∀ cid < 8, ∀ k : Fin 3, (cid &&& (1 <<< k.val) ≠ 0) ↔
    (if k.val = 0 then cid % 2 = 1 else if k.val = 1 then cid = 2 ∨ cid = 3 ∨ cid = 6 ∨ cid = 7 else cid > 3) := by
  decide +kernel

theorem initLoop_spec {L : Nat} (hL : L ≤ 21) : ∀ (n : Nat) (p : Elem) (id : BitVec 64), Valid p → p.level + n = L →
    (6 ≤ p.type ∨ p.switch = p.level) → id.toNat < tree.count p L →
    ∃ e, initLoop L n p.tet.x p.type id (BitVec.ofNat 64 (8 ^ n)) (BitVec.ofNat 64 (6 ^ n)) = some e ∧ Valid e ∧
      e.level = L ∧ lid (T := tree) e L = lid (T := tree) p L + id.toNat := by
  intro n
  induction n with
  | zero =>
    intro p id hp hl hs hid
    rw [Nat.add_zero] at hl
    rw [count_self' (T := tree) hl] at hid
    have h0 : id = 0 := by
      apply BitVec.eq_of_toNat_eq
      show id.toNat = 0
      omega
    refine ⟨p, ?_, hp, hl, by omega⟩
    rw [initLoop, assertO_true h0]
    show some _ = some p
    congr 1
    rw [← hl]
    by_cases h : 6 ≤ p.type
    · rw [if_pos h, ← (hp.good.pyra h).2]
    · rw [if_neg h, ← hs.resolve_left h]
  | succ n ih =>
    intro p id hp hl hs hid
    have h8 := pow8_le (n := n + 1) (by omega)
    have h6 := pow6_le (n := n + 1) (by omega)
    have e1 : BitVec.ofNat 64 (8 ^ (n + 1)) >>> 3 = BitVec.ofNat 64 (8 ^ n) := by
      apply BitVec.eq_of_toNat_eq
      rw [BitVec.toNat_ushiftRight, BitVec.toNat_ofNat, BitVec.toNat_ofNat, Nat.shiftRight_eq_div_pow,
        Nat.mod_eq_of_lt (by omega), Nat.pow_succ, Nat.mod_eq_of_lt (by rw [Nat.pow_succ] at h8; omega)]
      omega
    have e2 : BitVec.ofNat 64 (6 ^ (n + 1)) / 6 = BitVec.ofNat 64 (6 ^ n) := by
      apply BitVec.eq_of_toNat_eq
      rw [BitVec.toNat_udiv, BitVec.toNat_ofNat, BitVec.toNat_ofNat, show (6 : BitVec 64).toNat = 6 from rfl,
        Nat.mod_eq_of_lt (by omega), Nat.pow_succ, Nat.mod_eq_of_lt (by rw [Nat.pow_succ] at h6; omega)]
      omega
    rw [initLoop, e1, e2]
    by_cases ht : 6 ≤ p.type
    · have hb := (hp.good.pyra ht).1
      rw [if_neg (by omega)]
      rw [count_eq' hp (by omega) hL, show L - p.level = n + 1 by omega, cnt, if_pos ht] at hid
      have h68 := six_le n
      have hfs : firstSum p.type n 10 = 2 * 8 ^ (n + 1) - 6 ^ (n + 1) := by
        have := count_table p.type (by omega)
        rw [if_pos ht, if_pos ht, if_pos ht] at this
        rw [firstSum, sum_cnt, this.1, this.2, Nat.pow_succ, Nat.pow_succ]
        omega
      have hz : firstSum p.type n 0 = 0 := by simp [firstSum]
      have e3 : 2 * BitVec.ofNat 64 (8 ^ n) - BitVec.ofNat 64 (6 ^ n) = BitVec.ofNat 64 (2 * 8 ^ n - 6 ^ n) := by
        rw [show (2 : BitVec 64) = BitVec.ofNat 64 2 from rfl, ← BitVec.ofNat_mul, ofNat_sub (by omega)]
      have hpos : 0 < 6 ^ (n + 1) := Nat.pow_pos (by omega)
      obtain ⟨j, u1, u2, u3, u4⟩ := updateLoop_eq (id := id) (b := p.type) (n := n) (N := 10) e3 rfl
        (by rw [hfs]; omega) (by rw [hfs]; exact hid) 10 0 rfl (by rw [hz]; omega)
      rw [hz] at u1
      have hj : j < numChildren p := by rw [numChildren_eq, if_pos ht]; exact u2
      have htab := child_table p.type hb j u2
      have hv := valid_child hp (by omega) hj
      obtain ⟨_, hty, hcid⟩ := child_cube hp.good (by omega) hj
      have hor := child_or hp.good (by omega) hj
      have hid' : (id - BitVec.ofNat 64 (firstSum p.type n j)).toNat = id.toNat - firstSum p.type n j := by
        have hto : (BitVec.ofNat 64 (firstSum p.type n j)).toNat = firstSum p.type n j := by
          rw [BitVec.toNat_ofNat, Nat.mod_eq_of_lt (by have := id.isLt; omega)]
        rw [BitVec.toNat_sub_of_le (by rw [BitVec.le_def, hto]; exact u3), hto]
      have hcnt : tree.count (child p j) L = cnt (look parenttypeIlocToType p.type j) n := by
        rw [count_eq' hv (by rw [child_level]; omega) hL, hty, child_level]
        congr 1
        omega
      obtain ⟨e, r1, r2, r3, r4⟩ := ih (child p j) (id - BitVec.ofNat 64 (firstSum p.type n j)) hv
        (by rw [child_level]; omega)
        (by
          rw [(child_pyra ht j).2.2, hty, child_level]
          by_cases h' : 6 ≤ look parenttypeIlocToType p.type j
          · exact Or.inl h'
          · rw [if_neg h']; exact Or.inr rfl)
        (by rw [hid', hcnt]; rw [firstSum_succ] at u4; omega)
      refine ⟨e, ?_, r2, r3, ?_⟩
      · have hx : (fun k : Fin 3 => p.tet.x k |||
            (if k.val = 0 then (if look parenttypeIlocToCid p.type j % 2 = 1 then BitVec.twoPow 32 (maxLevel - (L - n)) else 0)
             else if k.val = 1 then (if look parenttypeIlocToCid p.type j = 2 ∨ look parenttypeIlocToCid p.type j = 3 ∨
               look parenttypeIlocToCid p.type j = 6 ∨ look parenttypeIlocToCid p.type j = 7 then
                 BitVec.twoPow 32 (maxLevel - (L - n)) else 0)
             else (if look parenttypeIlocToCid p.type j > 3 then BitVec.twoPow 32 (maxLevel - (L - n)) else 0))) =
            (child p j).tet.x := by
          rw [← hor, show maxLevel - (L - n) = 21 - (p.level + 1) by show 21 - (L - n) = _; omega]
          funext k
          have := bits_of_cid _ hcid k
          simp only [this]
          fin_cases k <;> rfl
        rw [show updateIndex id p.type (2 * BitVec.ofNat 64 (8 ^ n) - BitVec.ofNat 64 (6 ^ n)) (BitVec.ofNat 64 (8 ^ n)) =
          some (j, id - BitVec.ofNat 64 (firstSum p.type n j)) from u1]
        show initLoop L n (fun k : Fin 3 => p.tet.x k ||| _) _ _ _ _ = some e
        rw [hx, ← hty]
        exact r1
      · have h7 := lid_child_eq hp hj (L := L) (by omega) hL
        rw [show L - p.level - 1 = n by omega] at h7
        rw [r4, h7, hid']
        show _ + firstSum p.type n j + _ = _
        omega
    · have hsw := hs.resolve_left ht
      have hpl : 0 < p.level := by
        have := (hp.good.tet ht).2
        omega
      rw [if_pos ((parent_shape hp hpl).2.1 ht hsw).2]
      rw [count_eq' hp (by omega) hL, show L - p.level = n + 1 by omega, cnt, if_neg ht] at hid
      obtain ⟨e, r1, r2, r3, r4, r5⟩ := initTetLoop_spec (id := id) (L := L) (n + 1) p hp ht hl hL
      rw [Nat.mod_eq_of_lt hid] at r5
      refine ⟨e, ?_, r2, r3, r5⟩
      have hle : id ≤ (1 : BitVec 64) <<< (3 * L) := by
        rw [BitVec.le_def, Simplex.one_shift (by omega), Nat.pow_mul]
        exact le_trans hid.le (Nat.pow_le_pow_right (by omega) (by omega))
      rw [initTetWithLevel, assertO_true hle, show L + 1 - (L - n) = n + 1 by omega, r1]
      show some (⟨⟨e.tet.x, L, e.type⟩, ((L - n - 1 : Nat) : Int)⟩ : Elem) = some e
      congr 1
      rw [show L - n - 1 = p.level by omega, ← hsw, ← r4, ← r3]

theorem initLinearId_spec {L : Nat} (hL : L ≤ 21) {id : BitVec 64} (hid : id.toNat < tree.count root L) :
    ∃ e, initLinearId L id = some e ∧ Valid e ∧ e.level = L ∧ lid (T := tree) e L = id.toNat := by
  obtain ⟨e, h1, h2, h3, h4⟩ := initLoop_spec hL L root id Valid.root (by show 0 + L = L; omega) (Or.inl (le_refl _)) hid
  refine ⟨e, ?_, h2, h3, by rw [h4, lid_root (T := tree), Nat.zero_add]⟩
  rw [count_root_eq hL] at hid
  have h8 := pow8_le hL
  have h6 : 0 < 6 ^ L := Nat.pow_pos (by omega)
  have h68 := six_le L
  have e1 : (1 : BitVec 64) <<< (3 * L) = BitVec.ofNat 64 (8 ^ L) := by
    rw [show (1 : BitVec 64) = BitVec.ofNat 64 1 from rfl, ofNat_shift, Nat.pow_mul, Nat.one_mul]
  have e3 : 2 * BitVec.ofNat 64 (8 ^ L) - BitVec.ofNat 64 (6 ^ L) = BitVec.ofNat 64 (2 * 8 ^ L - 6 ^ L) := by
    rw [show (2 : BitVec 64) = BitVec.ofNat 64 2 from rfl, ← BitVec.ofNat_mul, ofNat_sub (by omega)]
  have hle : id ≤ 2 * BitVec.ofNat 64 (8 ^ L) - BitVec.ofNat 64 (6 ^ L) := by
    rw [e3, BitVec.le_def, BitVec.toNat_ofNat, Nat.mod_eq_of_lt (by omega)]
    exact hid.le
  rw [initLinearId, e1, assertO_true hle]
  exact h1

theorem count_root_lt {L : Nat} (hL : L ≤ 21) : tree.count root L < 2 ^ 64 := by
  rw [count_root_eq hL]
  have h8 := pow8_le hL
  have h6 : 0 < 6 ^ L := Nat.pow_pos (by omega)
  omega

theorem setLinearId_spec : tree.SetLinearIdSpec (fun L id => initLinearId L (BitVec.ofNat 64 id)) := by
  apply setLinearIdSpec_of (T := tree)
  intro L id hL hid
  have hid' : id < tree.count root L := hid
  have hto : (BitVec.ofNat 64 id).toNat = id := by
    rw [BitVec.toNat_ofNat, Nat.mod_eq_of_lt (lt_trans hid' (count_root_lt hL))]
  obtain ⟨x, h1, h2, h3, h4⟩ := initLinearId_spec (id := BitVec.ofNat 64 id) hL (by rw [hto]; exact hid')
  exact ⟨x, h1, h2, h3, by rw [h4, hto]⟩

/-! ### Descendants -/

theorem firstDescendant_eq {e : Elem} (he : Valid e) {L : Nat} (hl : e.level ≤ L) (hL : L ≤ 21) :
    firstDescendant e L = some (tree.firstDesc e (L - e.level)) := by
  rw [firstDescendant]
  by_cases h : 6 ≤ e.type
  · rw [if_pos ((isPyra_iff e).2 h), firstDesc_eq he (by omega), show e.level + (L - e.level) = L by omega,
      (he.good.pyra h).2]
  · rw [if_neg (by rw [isPyra_iff]; exact h)]
    have h1 := linearId_ge he hl hL
    have h2 := lid_lt (T := tree) he hl hL
    have h3 := count_pos (T := tree) he hl hL
    have h4 : lid (T := tree) e L + tree.count e L ≤ tree.count root L := h2
    obtain ⟨x, q1, q2, q3, q4⟩ := initLinearId_spec (id := linearId e L) hL (by rw [h1]; omega)
    rw [q1]
    have := eq_firstDesc (T := tree) he q2 (by show e.level ≤ x.level; omega) (by
      show lid (T := tree) x x.level = lid (T := tree) e x.level
      rw [q3, q4, h1])
    rw [show tree.level x = L from q3] at this
    rw [this]

/-- The last child is in the last cube and has the type of its parent. -/
theorem child_last {e : Elem} (he : Good e) (hl : e.level < 21) :
    (child e (numChildren e - 1)).cube = Standalone.child 21 e.cube 7 ∧ (child e (numChildren e - 1)).type = e.type ∧
    (child e (numChildren e - 1)).switch = e.switch := by
  have h0 : numChildren e - 1 < numChildren e := by rw [numChildren_eq]; split <;> omega
  obtain ⟨h1, h2, _⟩ := child_cube he hl h0
  have ht : ∀ b < 8, look parenttypeIlocToCid b ((if 6 ≤ b then 10 else 8) - 1) = 7 ∧
    look parenttypeIlocToType b ((if 6 ≤ b then 10 else 8) - 1) = b := by decide +kernel
  have ht' := ht e.type (type_lt he)
  rw [← numChildren_eq] at ht'
  refine ⟨by rw [h1, ht'.1], h2.trans ht'.2, ?_⟩
  by_cases h : 6 ≤ e.type
  · rw [(child_pyra h _).2.2, ht'.2, if_pos h]
    exact (he.pyra h).2.symm
  · rw [child_tet h]

theorem or_eq_add {a b k : Nat} (ha : 2 ^ k ∣ a) (hb : b < 2 ^ k) : a ||| b = a + b := by
  obtain ⟨c, rfl⟩ := ha
  rw [Nat.mul_comm, ← Nat.shiftLeft_eq, ← Nat.shiftLeft_add_eq_or_of_lt hb]

theorem len_toNat (l : Nat) : (len l).toNat = 2 ^ (21 - l) := Simplex.len_toNat .tet l

/-- The coordinates of the last descendant. -/
theorem lastDesc_coord {e : Elem} (he : Valid e) {n : Nat} (hn : e.level + n ≤ 21) :
    (∀ i, ((tree.lastDesc e n).tet.x i).toNat + 2 ^ (21 - (e.level + n)) = (e.tet.x i).toNat + 2 ^ (21 - e.level)) ∧
    (tree.lastDesc e n).type = e.type ∧ (tree.lastDesc e n).switch = e.switch := by
  induction n generalizing e with
  | zero => exact ⟨fun _ => rfl, rfl, rfl⟩
  | succ n ih =>
    have h0 : numChildren e - 1 < numChildren e := by rw [numChildren_eq]; split <;> omega
    have hv := valid_child he (by omega) h0
    obtain ⟨h1, h2, h3⟩ := ih hv (by rw [child_level]; omega)
    obtain ⟨c1, c2, c3⟩ := child_last he.good (by omega)
    refine ⟨fun i => ?_, h2.trans c2, h3.trans c3⟩
    have h4 := h1 i
    rw [child_level, show e.level + 1 + n = e.level + (n + 1) by omega] at h4
    show ((tree.lastDesc (child e (numChildren e - 1)) n).tet.x i).toNat + _ = _
    rw [h4]
    have h5 : (child e (numChildren e - 1)).tet.x i = e.tet.x i + len (e.level + 1) := by
      have := congrArg (fun z : Standalone.Elem 3 => z.coords i) c1
      have h6 : (Standalone.child 21 e.cube 7).coords i = e.tet.x i + if 7 &&& (1 <<< i.val) ≠ 0 then len (e.level + 1) else 0 := rfl
      rw [if_pos (by fin_cases i <;> decide)] at h6
      exact this.trans h6
    have hx := (he.good.cube.2 i).1
    have hx' : (e.tet.x i).toNat < 2 ^ 21 := hx
    have hd : 2 ^ (21 - e.level) = 2 * 2 ^ (21 - (e.level + 1)) := by
      rw [← Nat.pow_succ']; congr 1; omega
    have hle : 2 ^ (21 - (e.level + 1)) ≤ 2 ^ 21 := Nat.pow_le_pow_right (by omega) (by omega)
    rw [h5, BitVec.toNat_add, len_toNat, Nat.mod_eq_of_lt (by omega), hd]
    omega

theorem lastDescendant_eq {e : Elem} (he : Valid e) {L : Nat} (hl : e.level ≤ L) (hL : L ≤ 21) :
    lastDescendant e L = some (tree.lastDesc e (L - e.level)) := by
  obtain ⟨g1, g2, g3⟩ := lastDesc_spec (T := tree) he (n := L - e.level) (by show e.level + _ ≤ 21; omega)
  have g2' : (tree.lastDesc e (L - e.level)).level = L := by
    have : (tree.lastDesc e (L - e.level)).level = e.level + (L - e.level) := g2
    omega
  rw [lastDescendant]
  by_cases h : 6 ≤ e.type
  · rw [if_pos ((isPyra_iff e).2 h)]
    obtain ⟨h1, h2, h3⟩ := lastDesc_coord he (n := L - e.level) (by omega)
    rw [show e.level + (L - e.level) = L by omega] at h1
    show some (⟨⟨fun i => e.tet.x i ||| (len e.level - len L), L, e.type⟩, e.switch⟩ : Elem) = _
    congr 1
    refine Elem.ext' (Standalone.Elem.ext' (fun i => ?_) g2'.symm) h2.symm h3.symm
    show e.tet.x i ||| (len e.level - len L) = (tree.lastDesc e (L - e.level)).tet.x i
    apply BitVec.eq_of_toNat_eq
    have hle : 2 ^ (21 - L) ≤ 2 ^ (21 - e.level) := Nat.pow_le_pow_right (by omega) (by omega)
    have hpos : 0 < 2 ^ (21 - L) := Nat.two_pow_pos _
    rw [BitVec.toNat_or, BitVec.toNat_sub_of_le (by rw [BitVec.le_def, len_toNat, len_toNat]; exact hle), len_toNat,
      len_toNat]
    have hor := or_eq_add (he.good.cube.2 i).2 (b := 2 ^ (21 - e.level) - 2 ^ (21 - L)) (by show _ < 2 ^ (21 - e.level); omega)
    replace hor : (e.tet.x i).toNat ||| (2 ^ (21 - e.level) - 2 ^ (21 - L)) = (e.tet.x i).toNat + (2 ^ (21 - e.level) - 2 ^ (21 - L)) := hor
    rw [hor]
    have := h1 i
    show (e.tet.x i).toNat + _ = _
    omega
  · rw [if_neg (by rw [isPyra_iff]; exact h)]
    have h1 := linearId_ge he hl hL
    have h2 := lid_lt (T := tree) he hl hL
    have h4 : lid (T := tree) e L + tree.count e L ≤ tree.count root L := h2
    have hc := count_eq' he hl hL
    rw [cnt, if_neg h] at hc
    have h8 : 0 < 8 ^ (L - e.level) := Nat.pow_pos (by omega)
    have h64 := count_root_lt hL
    have h9 : (((1 : BitVec 64) <<< (3 * (L - e.level))) - 1 + linearId e L).toNat =
        lid (T := tree) e L + 8 ^ (L - e.level) - 1 := by
      have h10 : ((1 : BitVec 64) <<< (3 * (L - e.level))).toNat = 8 ^ (L - e.level) := by
        rw [Simplex.one_shift (by omega), Nat.pow_mul]
      rw [BitVec.toNat_add, BitVec.toNat_sub_of_le (by rw [BitVec.le_def, h10]; exact h8), h10, h1,
        show (1 : BitVec 64).toNat = 1 from rfl, Nat.mod_eq_of_lt (by omega)]
      omega
    obtain ⟨x, q1, q2, q3, q4⟩ := initLinearId_spec
      (id := ((1 : BitVec 64) <<< (3 * (L - e.level))) - 1 + linearId e L) hL (by rw [h9]; omega)
    show initLinearId L (((1 : BitVec 64) <<< (3 * (L - e.level))) - 1 + linearId e L) = _
    rw [q1]
    have := eq_lastDesc (T := tree) he q2 (by show e.level ≤ x.level; omega) (by
      show lid (T := tree) x x.level + 1 = lid (T := tree) e x.level + tree.count e x.level
      rw [q3, q4, h9, hc]
      omega)
    rw [show tree.level x = L from q3] at this
    rw [this]

theorem descendant_spec : tree.DescendantSpec (fun e L => (firstDescendant e L).getD e)
    (fun e L => (lastDescendant e L).getD e) := by
  apply descendantSpec_of (T := tree)
  intro e L he hl hL
  show (firstDescendant e L).getD e = _ ∧ (lastDescendant e L).getD e = _
  rw [firstDescendant_eq he hl hL, lastDescendant_eq he hl hL]
  exact ⟨rfl, rfl⟩

/-! ### Order -/

theorem compare_spec : tree.CompareSpec compare := by
  apply compareSpec_of_lin (T := tree) linearId_spec
  intro x y _ _
  show (compare x y < 0 ↔ _) ∧ (compare x y = 0 ↔ _)
  rw [compare]
  have hinj : linearId x (max x.level y.level) = linearId y (max x.level y.level) ↔
      (linearId x (max x.level y.level)).toNat = (linearId y (max x.level y.level)).toNat := BitVec.toNat_inj.symm
  have hlt : linearId x (max x.level y.level) < linearId y (max x.level y.level) ↔
      (linearId x (max x.level y.level)).toNat < (linearId y (max x.level y.level)).toNat := Iff.rfl
  show ((if linearId x (max x.level y.level) = linearId y (max x.level y.level) then
      if x.level = y.level then (0 : Int) else (x.level : Int) - y.level
    else if linearId x (max x.level y.level) < linearId y (max x.level y.level) then -1 else 1) < 0 ↔ 
    (linearId x (max x.level y.level)).toNat < (linearId y (max x.level y.level)).toNat ∨
      ((linearId x (max x.level y.level)).toNat = (linearId y (max x.level y.level)).toNat ∧ x.level < y.level)) ∧
    ((if linearId x (max x.level y.level) = linearId y (max x.level y.level) then
      if x.level = y.level then (0 : Int) else (x.level : Int) - y.level
    else if linearId x (max x.level y.level) < linearId y (max x.level y.level) then -1 else 1) = 0 ↔ 
    (linearId x (max x.level y.level)).toNat = (linearId y (max x.level y.level)).toNat ∧ x.level = y.level)
  simp only [hinj, hlt]
  generalize (linearId x (max x.level y.level)).toNat = a
  generalize (linearId y (max x.level y.level)).toNat = b
  split
  · split <;> omega
  · split <;> omega

theorem isAncestor_spec : tree.IsAncestorSpec isAncestor := Default.isAncestor_spec (T := tree) linearId_spec

theorem isEqual_iff (e f : Elem) : isEqual e f = true ↔ e = f := by
  rw [isEqual, Bool.and_eq_true, beq_iff_eq, Simplex.isEqual_iff]
  cases e; cases f
  simp

theorem ancestorId_eq {e : Elem} (he : Valid e) {l : Nat} (hl : l ≤ e.level) :
    ancestorId e l = childId (tree.anc e l) := by rw [ancestorId, ancestor_eq he hl]

/-- `t8_dpyramid_num_siblings`. -/
theorem numSiblings_eq {e : Elem} (he : Valid e) (hl : 0 < e.level) : numSiblings e = numChildren (parent e) := by
  obtain ⟨h1, h2, h3⟩ := parent_shape he hl
  rw [numSiblings, numChildren_eq]
  simp only [isPyra_iff]
  by_cases h : 6 ≤ e.type
  · rw [if_pos (Or.inl h), if_pos (h1 h).1]
  · by_cases hs : e.switch = e.level
    · rw [if_pos (Or.inr hs), if_pos (h2 h hs).1]
    · rw [if_neg (by rintro (h' | h'); exacts [h h', hs h']), if_neg (h3 h hs).1]

end T8.Pyramid
