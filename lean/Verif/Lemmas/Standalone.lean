/-
Lemmas about the standalone hypercube scheme: the bit level description of its functions, and the
refinement tree it implements.
-/
import Verif.Spec.Hypercube
import Verif.Spec.Element
import Verif.Lemmas.RTree
import Mathlib.Data.Nat.Bitwise

namespace T8.Standalone
variable {d M : Nat}

theorem Elem.ext' {e f : Elem d} (h1 : ∀ i, e.coords i = f.coords i) (h2 : e.level = f.level) : e = f := by
  cases e; cases f
  simp only at h1 h2
  rw [h2, funext h1]

/-! ### Bits -/

theorem dvd_iff_testBit {n k : Nat} : 2 ^ k ∣ n ↔ ∀ j, j < k → n.testBit j = false := by
  constructor
  · rintro ⟨m, rfl⟩ j hj
    rw [Nat.testBit_two_pow_mul]
    simp; omega
  · intro h
    rw [Nat.dvd_iff_mod_eq_zero]
    apply Nat.eq_of_testBit_eq
    intro j
    rw [Nat.testBit_mod_two_pow, Nat.zero_testBit]
    rcases Nat.lt_or_ge j k with hj | hj
    · simp [h j hj]
    · simp; omega

theorem lt_two_pow_iff_testBit {n k : Nat} : n < 2 ^ k ↔ ∀ j, k ≤ j → n.testBit j = false := by
  constructor
  · intro h j hj
    exact Nat.testBit_lt_two_pow (lt_of_lt_of_le h (Nat.pow_le_pow_right (by omega) hj))
  · exact fun h => Nat.lt_pow_two_of_testBit n h

/-- Validity in terms of bits: only the bits `M - level, …, M - 1` of a coordinate may be set. -/
theorem valid_iff_bits {e : Elem d} : Valid M e ↔ e.level ≤ M ∧
    ∀ i k, (e.coords i).getLsbD k = true → M - e.level ≤ k ∧ k < M := by
  unfold Valid
  refine and_congr_right fun _ => forall_congr' fun i => ?_
  rw [dvd_iff_testBit, lt_two_pow_iff_testBit]
  simp only [BitVec.testBit_toNat]
  constructor
  · rintro ⟨h1, h2⟩ k hk
    constructor
    · by_contra hc
      have := h2 k (by omega); simp_all
    · by_contra hc
      have := h1 k (by omega); simp_all
  · intro h
    constructor
    · intro j hj
      cases hb : (e.coords i).getLsbD j with
      | false => rfl
      | true => have := h j hb; omega
    · intro j hj
      cases hb : (e.coords i).getLsbD j with
      | false => rfl
      | true => have := h j hb; omega

theorem getLsbD_getLen (h : M < 32) (l k : Nat) : (getLen M l).getLsbD k = decide (M - l = k) := by
  rw [getLen, BitVec.getLsbD_twoPow]
  have : M - l < 32 := by omega
  simp [this]

theorem and_getLen_ne_zero (x : BitVec 32) (h : M < 32) (l : Nat) :
    (x &&& getLen M l ≠ 0) ↔ x.getLsbD (M - l) = true := by
  rw [getLen, BitVec.and_twoPow]
  split
  · rename_i hb
    refine ⟨fun _ => hb, fun _ => ?_⟩
    intro h0
    have := congrArg (fun x => BitVec.getLsbD x (M - l)) h0
    simp [BitVec.getLsbD_twoPow] at this
    omega
  · rename_i hb
    simp [hb]

theorem and_shift_ne_zero (n i : Nat) : (n &&& (1 <<< i) ≠ 0) ↔ n.testBit i = true := by
  rw [Nat.one_shiftLeft, Nat.and_two_pow]
  cases n.testBit i <;> simp

/-- Bits of the parent. -/
theorem parent_bit (h : 0 < d → M < 32) (e : Elem d) (i : Fin d) (k : Nat) :
    ((parent M e).coords i).getLsbD k = ((e.coords i).getLsbD k && decide (M - e.level ≠ k)) := by
  simp only [parent, zeroAtLevel, BitVec.getLsbD_and, BitVec.getLsbD_not, getLsbD_getLen (h i.pos)]
  rcases Nat.lt_or_ge k 32 with hk | hk
  · simp [hk]
  · simp [BitVec.getLsbD_of_ge _ _ hk]

/-- Bits of a child. The addition in `put_cube_id_at_level` has no carries. -/
theorem child_bit (h : 0 < d → M < 32) {e : Elem d} (he : Valid M e) (hl : e.level < M) (c : Nat) (i : Fin d) (k : Nat) :
    ((child M e c).coords i).getLsbD k =
      ((e.coords i).getLsbD k || (c.testBit i && decide (M - (e.level + 1) = k))) := by
  have hb := (valid_iff_bits.1 he).2
  simp only [child, putCubeId]
  cases hc : c.testBit i.val with
  | false =>
    rw [if_neg (by rw [and_shift_ne_zero, hc]; simp)]
    simp
  | true =>
    rw [if_pos (by rw [and_shift_ne_zero, hc])]
    rw [BitVec.add_eq_or_of_and_eq_zero, BitVec.getLsbD_or, getLsbD_getLen (h i.pos)]
    · simp
    · apply BitVec.eq_of_getLsbD_eq
      intro j hj
      rw [BitVec.getLsbD_and, getLsbD_getLen (h i.pos)]
      cases hbj : (e.coords i).getLsbD j with
      | false => simp
      | true =>
        have := hb i j hbj
        simp; omega

theorem foldl_or_testBit {α : Type} (l : List α) (v : α → Nat) (a k : Nat) :
    (l.foldl (fun id i => id ||| v i) a).testBit k = true ↔
      a.testBit k = true ∨ ∃ i ∈ l, (v i).testBit k = true := by
  induction l generalizing a with
  | nil => simp
  | cons x l ih =>
    rw [List.foldl_cons, ih, Nat.testBit_or]
    simp [or_assoc]

/-- Bits of the cube id. -/
theorem cubeId_testBit (h : 0 < d → M < 32) (e : Elem d) {l : Nat} (hl : l ≠ 0) (k : Nat) :
    (cubeId M e l).testBit k = true ↔ ∃ hk : k < d, (e.coords ⟨k, hk⟩).getLsbD (M - l) = true := by
  rw [cubeId, if_pos hl, foldl_or_testBit]
  constructor
  · rintro (h0 | ⟨i, _, hi⟩)
    · simp at h0
    · split at hi
      · rename_i hb
        rw [and_getLen_ne_zero _ (h i.pos)] at hb
        rw [Nat.one_shiftLeft, Nat.testBit_two_pow] at hi
        have : i.val = k := by simpa using hi
        subst this
        exact ⟨i.isLt, hb⟩
      · simp at hi
  · rintro ⟨hk, hb⟩
    right
    refine ⟨⟨k, hk⟩, List.mem_finRange _, ?_⟩
    rw [if_pos ((and_getLen_ne_zero _ (h (by omega)) _).2 hb), Nat.one_shiftLeft, Nat.testBit_two_pow]
    simp

theorem cubeId_lt (h : 0 < d → M < 32) (e : Elem d) {l : Nat} (hl : l ≠ 0) : cubeId M e l < 2 ^ d := by
  rw [lt_two_pow_iff_testBit]
  intro j hj
  rw [Bool.eq_false_iff, Ne, cubeId_testBit h e hl]
  rintro ⟨hk, _⟩
  omega

theorem childId_eq {e : Elem d} (hl : 0 < e.level) : (childId M e).toNat = cubeId M e e.level := by
  rw [childId, if_neg (by omega)]; rfl

/-! ### The refinement tree -/

theorem valid_root : Valid M (root d) := by
  refine ⟨by simp [root], fun i => ⟨?_, ?_⟩⟩
  · simp [root]
  · simp [root]

theorem root_unique {e : Elem d} (he : Valid M e) (hl : e.level = 0) : e = root d := by
  refine Elem.ext' (fun i => ?_) hl
  have h := (valid_iff_bits.1 he).2 i
  apply BitVec.eq_of_getLsbD_eq
  intro k hk
  cases hb : (e.coords i).getLsbD k with
  | false => simp [root]
  | true => have := h k hb; omega

theorem valid_child (h : 0 < d → M < 32) {e : Elem d} (he : Valid M e) (hl : e.level < M) (c : Nat) :
    Valid M (child M e c) := by
  rw [valid_iff_bits]
  refine ⟨by simp only [child]; omega, fun i k hk => ?_⟩
  rw [child_bit h he hl] at hk
  have hb := (valid_iff_bits.1 he).2 i k
  simp only [Bool.or_eq_true, Bool.and_eq_true, decide_eq_true_eq] at hk
  simp only [child]
  rcases hk with hk | ⟨_, hk⟩
  · have := hb hk; omega
  · omega

theorem parent_child (h : 0 < d → M < 32) {e : Elem d} (he : Valid M e) (hl : e.level < M) (c : Nat) :
    parent M (child M e c) = e := by
  refine Elem.ext' (fun i => ?_) (by simp [parent, child])
  apply BitVec.eq_of_getLsbD_eq
  intro k hk
  rw [parent_bit h, child_bit h he hl, show (child M e c).level = e.level + 1 from rfl]
  have hb := (valid_iff_bits.1 he).2 i k
  cases hbk : (e.coords i).getLsbD k with
  | false =>
    by_cases hk' : M - (e.level + 1) = k <;> simp [hk']
  | true =>
    have := hb hbk
    have : M - (e.level + 1) ≠ k := by omega
    simp [this]

theorem childId_child (h : 0 < d → M < 32) {e : Elem d} (he : Valid M e) (hl : e.level < M) {c : Nat} (hc : c < 2 ^ d) :
    (childId M (child M e c)).toNat = c := by
  rw [childId_eq (by simp [child]), show (child M e c).level = e.level + 1 from rfl]
  apply Nat.eq_of_testBit_eq
  intro k
  rw [Bool.eq_iff_iff, cubeId_testBit h _ (by omega)]
  constructor
  · rintro ⟨hk, hb⟩
    rw [child_bit h he hl] at hb
    have hv := (valid_iff_bits.1 he).2 ⟨k, hk⟩ (M - (e.level + 1))
    cases hbk : (e.coords ⟨k, hk⟩).getLsbD (M - (e.level + 1)) with
    | false => simpa [hbk] using hb
    | true => have := hv hbk; omega
  · intro hb
    have hk : k < d := by
      by_contra hcon
      have := lt_two_pow_iff_testBit.1 hc k (by omega)
      simp_all
    refine ⟨hk, ?_⟩
    rw [child_bit h he hl]
    simp [hb]

theorem valid_parent (h : 0 < d → M < 32) {e : Elem d} (he : Valid M e) (hl : 0 < e.level) : Valid M (parent M e) := by
  have h0 := he.1
  rw [valid_iff_bits]
  refine ⟨by simp only [parent]; omega, fun i k hk => ?_⟩
  rw [parent_bit h] at hk
  have hb := (valid_iff_bits.1 he).2 i k
  simp only [Bool.and_eq_true, decide_eq_true_eq] at hk
  have := hb hk.1
  simp only [parent]
  omega

theorem child_parent (h : 0 < d → M < 32) {e : Elem d} (he : Valid M e) (hl : 0 < e.level) :
    child M (parent M e) (childId M e).toNat = e := by
  have h0 := he.1
  have hp := valid_parent h he hl
  have hpl : (parent M e).level = e.level - 1 := rfl
  refine Elem.ext' (fun i => ?_) (by simp only [child, parent]; omega)
  apply BitVec.eq_of_getLsbD_eq
  intro k hk
  rw [child_bit h hp (by omega), parent_bit h, hpl, show e.level - 1 + 1 = e.level by omega, childId_eq hl]
  have hc := cubeId_testBit h e (l := e.level) (by omega) i.val
  by_cases hk' : M - e.level = k
  · subst hk'
    cases hb : (e.coords i).getLsbD (M - e.level) with
    | true => simp [hc.2 ⟨i.isLt, hb⟩]
    | false =>
      have : (cubeId M e e.level).testBit i.val = false := by
        rw [Bool.eq_false_iff, Ne, hc]
        rintro ⟨_, hb'⟩
        simp_all
      simp [this]
  · simp [hk']

theorem childId_lt (h : 0 < d → M < 32) {e : Elem d} (hl : 0 < e.level) : (childId M e).toNat < 2 ^ d := by
  rw [childId_eq hl]
  exact cubeId_lt h e (by omega)

/-- The refinement tree that the functions of the standalone scheme span. -/
@[reducible] def treeOf (d M : Nat) (h : 0 < d → M < 32) : RTree where
  E := Elem d
  Valid := Valid M
  maxLevel := M
  level := Elem.level
  root := root d
  nc := fun _ => numChildren d
  child := child M
  parent := parent M
  childId := fun e => (childId M e).toNat
  valid_root := valid_root
  level_root := rfl
  root_unique := fun _ he hl => root_unique he hl
  level_le := fun _ he => he.1
  nc_pos := fun _ _ => Nat.two_pow_pos d
  valid_child := fun _ c he hl _ => valid_child h he hl c
  level_child := fun _ _ _ _ _ => rfl
  parent_child := fun _ c he hl _ => parent_child h he hl c
  childId_child := fun _ _ he hl hc => childId_child h he hl hc
  valid_parent := fun _ he hl => valid_parent h he hl
  level_parent := fun e _ hl => by simp only [parent]; omega
  childId_lt := fun _ _ hl => childId_lt h hl
  child_parent := fun _ he hl => child_parent h he hl

end T8.Standalone
