/-
Faces of the standalone hypercube scheme.
-/
import Verif.Lemmas.StandaloneIds
import Mathlib.Data.Fin.SuccPred

namespace T8.Standalone
open RTree
variable {d M : Nat}

/-! ### Coordinates as numbers -/

theorem getLen_toNat (h : M < 32) (l : Nat) : (getLen M l).toNat = 2 ^ (M - l) := by
  rw [getLen, BitVec.toNat_twoPow]
  exact Nat.mod_eq_of_lt (Nat.pow_lt_pow_right (by omega) (by omega))

/-- A cube of the tree does not stick out of the root cube. -/
theorem coord_add_side_le {e : Elem d} (he : Valid M e) (i : Fin d) :
    (e.coords i).toNat + side M e ≤ 2 ^ M := by
  obtain ⟨h1, h2⟩ := he.2 i
  obtain ⟨q, hq⟩ := h2
  have hM : 2 ^ M = 2 ^ (M - e.level) * 2 ^ e.level := by
    rw [← pow_add]; congr 1; have := he.1; omega
  rw [side, hq]
  rw [hq, hM] at h1
  have := Nat.lt_of_mul_lt_mul_left h1
  rw [hM]
  calc 2 ^ (M - e.level) * q + 2 ^ (M - e.level) = 2 ^ (M - e.level) * (q + 1) := by ring
    _ ≤ _ := Nat.mul_le_mul_left _ this

theorem side_pos (e : Elem d) : 0 < side M e := Nat.two_pow_pos _

theorem two_pow_lt_32 (h : M < 32) : 2 ^ M < 2 ^ 32 := Nat.pow_lt_pow_right (by omega) h

theorem side_child {e : Elem d} (hl : e.level < M) (c : Nat) : side M e = 2 * side M (child M e c) := by
  simp only [side, child]
  rw [← pow_succ']; congr 1; omega

theorem child_toNat (h : 0 < d → M < 32) {e : Elem d} (he : Valid M e) (hl : e.level < M) (c : Nat) (i : Fin d) :
    ((child M e c).coords i).toNat =
      (e.coords i).toNat + (if c.testBit i then side M (child M e c) else 0) := by
  have h1 := coord_add_side_le he i
  have h2 := side_child hl c
  have h3 := two_pow_lt_32 (h i.pos)
  simp only [child, putCubeId]
  cases hc : c.testBit i.val with
  | false =>
    rw [if_neg (by rw [and_shift_ne_zero, hc]; simp)]
    simp
  | true =>
    rw [if_pos (by rw [and_shift_ne_zero, hc]), if_pos rfl, BitVec.toNat_add, getLen_toNat (h i.pos)]
    have h4 : side M (child M e c) = 2 ^ (M - (e.level + 1)) := rfl
    rw [h4] at h2
    exact Nat.mod_eq_of_lt (by omega)

/-- Descendants lie in the cube. -/
theorem desc_box (h : 0 < d → M < 32) {e x : Elem d} (he : Valid M e) (hd : (treeOf d M h).Desc e x) (i : Fin d) :
    (e.coords i).toNat ≤ (x.coords i).toNat ∧
      (x.coords i).toNat + side M x ≤ (e.coords i).toNat + side M e := by
  refine Desc.ind (P := fun x : Elem d => (e.coords i).toNat ≤ (x.coords i).toNat ∧
      (x.coords i).toNat + side M x ≤ (e.coords i).toNat + side M e) hd ⟨le_refl _, le_refl _⟩ ?_
  · intro x c hd hl hc ih
    have hx : Valid M x := hd.valid he
    have h1 := child_toNat h hx hl c i
    have h2 := side_child (M := M) hl c
    have h3 : (treeOf d M h).child x c = child M x c := rfl
    rw [h3, h1]
    split <;> omega

/-! ### Containment of faces -/

theorem face_nonempty_lo {e : Elem d} (f : Nat) :
    (fun i => (e.coords i).toNat + (if i.val = f / 2 then (f % 2) * side M e else 0)) ∈ Face M e f := by
  have hs := side_pos (M := M) e
  have h2 : f % 2 = 0 ∨ f % 2 = 1 := by omega
  refine ⟨fun i => ?_, fun i hi => ?_⟩
  · simp only
    split
    · rcases h2 with h | h <;> simp [h]
    · omega
  · simp [hi]

theorem face_nonempty_hi {e : Elem d} (f : Nat) :
    (fun i => (e.coords i).toNat + (if i.val = f / 2 then (f % 2) * side M e else side M e)) ∈ Face M e f := by
  have h2 : f % 2 = 0 ∨ f % 2 = 1 := by omega
  refine ⟨fun i => ?_, fun i hi => ?_⟩
  · simp only
    split
    · rcases h2 with h | h <;> simp [h]
    · omega
  · simp [hi]

/-- When a face is contained in another one. -/
theorem face_subset_iff {x e : Elem d} {f g : Nat} (hf : f / 2 = g / 2) (_hfd : f / 2 < d) :
    Face M x f ⊆ Face M e g ↔
      (∀ i : Fin d, i.val ≠ f / 2 → (e.coords i).toNat ≤ (x.coords i).toNat ∧
        (x.coords i).toNat + side M x ≤ (e.coords i).toNat + side M e) ∧
      (∀ i : Fin d, i.val = f / 2 →
        (x.coords i).toNat + f % 2 * side M x = (e.coords i).toNat + g % 2 * side M e) := by
  constructor
  · intro hsub
    have h1 := hsub (face_nonempty_lo (M := M) (e := x) f)
    have h2 := hsub (face_nonempty_hi (M := M) (e := x) f)
    refine ⟨fun i hi => ?_, fun i hi => ?_⟩
    · have a := (h1.1 i).1
      have b := (h2.1 i).2
      simp only [hi, if_false] at a b
      omega
    · have a := h1.2 i (by omega)
      simpa [hi] using a
  · rintro ⟨h1, h2⟩ p ⟨hp, hpf⟩
    have hs := side_pos (M := M) e
    have hg2 : g % 2 = 0 ∨ g % 2 = 1 := by omega
    refine ⟨fun i => ?_, fun i hi => ?_⟩
    · by_cases hi : i.val = f / 2
      · rw [hpf i hi, h2 i hi]
        rcases hg2 with h | h <;> simp [h]
      · have := hp i
        have := h1 i hi
        omega
    · rw [hpf i (by omega), h2 i (by omega)]

theorem face_eq_iff {x e : Elem d} {f g : Nat} (hf : f / 2 = g / 2) (hfd : f / 2 < d) :
    Face M x f = Face M e g ↔
      (∀ i : Fin d, i.val ≠ f / 2 → (e.coords i).toNat = (x.coords i).toNat ∧
        (x.coords i).toNat + side M x = (e.coords i).toNat + side M e) ∧
      (∀ i : Fin d, i.val = f / 2 →
        (x.coords i).toNat + f % 2 * side M x = (e.coords i).toNat + g % 2 * side M e) := by
  rw [Set.Subset.antisymm_iff, face_subset_iff hf hfd, face_subset_iff hf.symm (by omega)]
  constructor
  · rintro ⟨⟨h1, h2⟩, h3, h4⟩
    refine ⟨fun i hi => ?_, h2⟩
    have := h1 i hi
    have := h3 i (by omega)
    omega
  · rintro ⟨h1, h2⟩
    refine ⟨⟨fun i hi => ?_, h2⟩, fun i hi => ?_, fun i hi => (h2 i (by omega)).symm⟩
    · have := h1 i hi; omega
    · have := h1 i (by omega); omega

/-! ### Root boundary and neighbors -/

theorem rootLen_toNat (hd : 0 < d) (h : M < 32) : (rootLen d M).toNat = 2 ^ M := by
  rw [rootLen, if_neg (by omega), BitVec.toNat_twoPow]
  exact Nat.mod_eq_of_lt (two_pow_lt_32 h)

theorem isRootBoundary_iff (h : 0 < d → M < 32) {e : Elem d} (he : Valid M e) {f : Nat} (hf : f / 2 < d) :
    isRootBoundary M e f hf = true ↔ Face M e f ⊆ Face M (root d) f := by
  have h32 := h (by omega)
  rw [face_subset_iff rfl hf, isRootBoundary]
  have hs := side_pos (M := M) e
  have hside : side M (root d) = 2 ^ M := rfl
  have hroot : ∀ i, ((root d).coords i).toNat = 0 := fun i => rfl
  have hbd := coord_add_side_le he
  have hlen : (rootLen d M - getLen M e.level).toNat = 2 ^ M - side M e := by
    have hle : side M e ≤ 2 ^ M := Nat.pow_le_pow_right (by omega) (by omega)
    rw [BitVec.toNat_sub_of_le]
    · rw [rootLen_toNat (by omega) h32, getLen_toNat h32]; rfl
    · rw [BitVec.le_def, rootLen_toNat (by omega) h32, getLen_toNat h32]; exact hle
  have hgen : (∀ i : Fin d, i.val ≠ f / 2 → ((root d).coords i).toNat ≤ (e.coords i).toNat ∧
      (e.coords i).toNat + side M e ≤ ((root d).coords i).toNat + side M (root d)) := by
    intro i _
    rw [hroot, hside]
    have := hbd i
    omega
  constructor
  · intro hb
    refine ⟨hgen, fun i hi => ?_⟩
    have hi' : i = ⟨f / 2, hf⟩ := Fin.ext hi
    subst hi'
    rw [hroot, hside]
    by_cases hf2 : f % 2 = 1
    · rw [if_pos hf2, decide_eq_true_eq] at hb
      have := congrArg BitVec.toNat hb
      rw [hlen] at this
      have := hbd ⟨f / 2, hf⟩
      rw [hf2]; omega
    · rw [if_neg hf2, decide_eq_true_eq] at hb
      have : f % 2 = 0 := by omega
      rw [hb, this]; simp
  · rintro ⟨_, hb⟩
    have hb := hb ⟨f / 2, hf⟩ rfl
    rw [hroot, hside] at hb
    by_cases hf2 : f % 2 = 1
    · rw [if_pos hf2, decide_eq_true_eq]
      apply BitVec.eq_of_toNat_eq
      rw [hlen]
      rw [hf2] at hb; omega
    · rw [if_neg hf2, decide_eq_true_eq]
      apply BitVec.eq_of_toNat_eq
      have : f % 2 = 0 := by omega
      rw [this] at hb
      simpa using hb

theorem cut_root_eq_zero (h : M < 32) (x : BitVec 32) :
    (x.sshiftRight M) <<< M = 0 ↔ x.toNat < 2 ^ M := by
  rw [lt_two_pow_iff_testBit]
  constructor
  · intro h0 j hj
    rw [BitVec.testBit_toNat]
    rcases Nat.lt_or_ge j 32 with hj32 | hj32
    · have := congrArg (fun y => y.getLsbD j) h0
      simp only [BitVec.getLsbD_shiftLeft, BitVec.getLsbD_sshiftRight] at this
      have h1 : ¬ j < M := by omega
      have h2 : M + (j - M) = j := by omega
      have h3 : ¬ 32 ≤ j - M := by omega
      simpa [h1, h2, h3, hj32] using this
    · exact BitVec.getLsbD_of_ge _ _ hj32
  · intro h0
    apply BitVec.eq_of_getLsbD_eq
    intro k hk
    rw [BitVec.getLsbD_shiftLeft, BitVec.getLsbD_sshiftRight]
    rcases Nat.lt_or_ge k M with hk2 | hk2
    · simp [hk2]
    · have h2 : M + (k - M) = k := by omega
      have := h0 k hk2
      rw [BitVec.testBit_toNat] at this
      rw [BitVec.getLsbD_eq_getElem hk] at this
      simp [h2, hk, this]

/-- The neighbor is inside of the root tree unless the face is at the boundary of the root. -/
theorem faceNeighbor_spec (h : 0 < d → M < 31) {e : Elem d} (he : Valid M e) {f : Nat} (hf : f / 2 < d) :
    (isRootBoundary M e f hf = true ∧ isInsideRoot M (faceNeighbor M e f) = false) ∨
    (isRootBoundary M e f hf = false ∧ isInsideRoot M (faceNeighbor M e f) = true ∧
      Valid M (faceNeighbor M e f) ∧
      (∀ i : Fin d, i.val = f / 2 → (if f % 2 = 1
        then ((faceNeighbor M e f).coords i).toNat = (e.coords i).toNat + side M e
        else ((faceNeighbor M e f).coords i).toNat + side M e = (e.coords i).toNat)) ∧
      (∀ i : Fin d, i.val ≠ f / 2 → (faceNeighbor M e f).coords i = e.coords i)) := by
  have h31 := h (by omega)
  have h' : 0 < d → M < 32 := fun hd => by have := h hd; omega
  have hs := side_pos (M := M) e
  have hbd := coord_add_side_le he
  have hp : 2 ^ M < 2 ^ 31 := Nat.pow_lt_pow_right (by omega) h31
  have hlen := getLen_toNat (M := M) (by omega) e.level
  have hside : 2 ^ (M - e.level) = side M e := rfl
  rw [hside] at hlen
  let i0 : Fin d := ⟨f / 2, hf⟩
  -- inside root in terms of coordinates
  have hin : isInsideRoot M (faceNeighbor M e f) = true ↔
      (∀ i, ((faceNeighbor M e f).coords i).toNat < 2 ^ M) ∧
      (e.level = 0 → ∀ i, (faceNeighbor M e f).coords i = 0) := by
    rw [isInsideRoot, List.all_eq_true, ancestor]
    have hnl : (faceNeighbor M e f).level = e.level := rfl
    rw [hnl]
    by_cases hl : e.level = 0
    · rw [if_pos hl]
      constructor
      · intro hall
        have : ∀ i, (faceNeighbor M e f).coords i = 0 := fun i => by
          simpa using hall i (List.mem_finRange i)
        refine ⟨fun i => ?_, fun _ => this⟩
        rw [this i]; simp
      · rintro ⟨_, h2⟩ i _
        simp [h2 hl i]
    · rw [if_neg hl]
      simp only [cut, Nat.sub_zero]
      constructor
      · intro hall
        refine ⟨fun i => ?_, fun hc => absurd hc hl⟩
        rw [← cut_root_eq_zero (by omega)]
        simpa using hall i (List.mem_finRange i)
      · rintro ⟨h1, _⟩ i _
        have := (cut_root_eq_zero (by omega) _).2 (h1 i)
        simpa using this
  have hother : ∀ i : Fin d, i.val ≠ f / 2 → (faceNeighbor M e f).coords i = e.coords i := by
    intro i hi; simp [faceNeighbor, hi]
  have hdvd := fun i => (he.2 i).2
  -- is the face on the boundary
  have hrb : isRootBoundary M e f hf = true ↔
      (if f % 2 = 1 then (e.coords i0).toNat + side M e = 2 ^ M else (e.coords i0).toNat = 0) := by
    rw [isRootBoundary_iff h' he, face_subset_iff rfl hf]
    have hroot : ∀ i, ((root d).coords i).toNat = 0 := fun i => rfl
    have hsr : side M (root d) = 2 ^ M := rfl
    constructor
    · rintro ⟨_, h2⟩
      have := h2 i0 rfl
      rw [hroot, hsr] at this
      split
      · rename_i hf2; rw [hf2] at this; omega
      · have hf2 : f % 2 = 0 := by omega
        rw [hf2] at this; omega
    · intro hc
      refine ⟨fun i _ => ?_, fun i hi => ?_⟩
      · rw [hroot, hsr]; have := hbd i; omega
      · have : i = i0 := Fin.ext hi
        subst this
        rw [hroot, hsr]
        split at hc
        · rename_i hf2; rw [hf2]; omega
        · have hf2 : f % 2 = 0 := by omega
          rw [hf2]; omega
  -- the new coordinate
  by_cases hf2 : f % 2 = 1
  · have hnew : ((faceNeighbor M e f).coords i0).toNat = (e.coords i0).toNat + side M e := by
      have : (faceNeighbor M e f).coords i0 = e.coords i0 + getLen M e.level := by
        simp [faceNeighbor, i0, hf2]
      rw [this, BitVec.toNat_add, hlen]
      have := hbd i0
      exact Nat.mod_eq_of_lt (by omega)
    rw [if_pos hf2] at hrb
    by_cases hb : (e.coords i0).toNat + side M e = 2 ^ M
    · left
      refine ⟨hrb.2 hb, ?_⟩
      rw [Bool.eq_false_iff, Ne, hin]
      rintro ⟨h1, _⟩
      have := h1 i0
      omega
    · right
      have hlt : (e.coords i0).toNat + side M e < 2 ^ M := by have := hbd i0; omega
      have hlt' : ∀ i, ((faceNeighbor M e f).coords i).toNat < 2 ^ M := by
        intro i
        by_cases hi : i.val = f / 2
        · rw [show i = i0 from Fin.ext hi, hnew]; exact hlt
        · rw [hother i hi]; exact (he.2 i).1
      refine ⟨by rw [Bool.eq_false_iff, Ne, hrb]; exact hb, ?_, ⟨he.1, fun i => ⟨hlt' i, ?_⟩⟩, ?_, hother⟩
      · rw [hin]
        refine ⟨hlt', fun hl0 => ?_⟩
        exfalso
        have : side M e = 2 ^ M := by rw [side, hl0]; simp
        omega
      · by_cases hi : i.val = f / 2
        · rw [show i = i0 from Fin.ext hi, hnew]
          exact (Nat.dvd_add_iff_left (Dvd.intro 1 (by simp [side, faceNeighbor]))).1 (hdvd i0)
        · rw [hother i hi]; exact hdvd i
      · intro i hi
        rw [if_pos hf2, show i = i0 from Fin.ext hi, hnew]
  · have hf0 : f % 2 = 0 := by omega
    have hc : (faceNeighbor M e f).coords i0 = e.coords i0 - getLen M e.level := by
      simp [faceNeighbor, i0, hf0]
    rw [if_neg hf2] at hrb
    by_cases hb : (e.coords i0).toNat = 0
    · left
      refine ⟨hrb.2 hb, ?_⟩
      rw [Bool.eq_false_iff, Ne, hin]
      rintro ⟨h1, _⟩
      have h2 := h1 i0
      rw [hc, BitVec.toNat_sub, hlen, hb, Nat.add_zero] at h2
      have := hbd i0
      rw [Nat.mod_eq_of_lt (by omega)] at h2
      omega
    · right
      have hge : side M e ≤ (e.coords i0).toNat := Nat.le_of_dvd (by omega) (hdvd i0)
      have hnew : ((faceNeighbor M e f).coords i0).toNat = (e.coords i0).toNat - side M e := by
        rw [hc, BitVec.toNat_sub_of_le (by rw [BitVec.le_def, hlen]; exact hge), hlen]
      have hlt' : ∀ i, ((faceNeighbor M e f).coords i).toNat < 2 ^ M := by
        intro i
        by_cases hi : i.val = f / 2
        · rw [show i = i0 from Fin.ext hi, hnew]; have := (he.2 i0).1; omega
        · rw [hother i hi]; exact (he.2 i).1
      refine ⟨by rw [Bool.eq_false_iff, Ne, hrb]; exact hb, ?_, ⟨he.1, fun i => ⟨hlt' i, ?_⟩⟩, ?_, hother⟩
      · rw [hin]
        refine ⟨hlt', fun hl0 => ?_⟩
        exfalso
        have : side M e = 2 ^ M := by rw [side, hl0]; simp
        have := (he.2 i0).1
        omega
      · by_cases hi : i.val = f / 2
        · rw [show i = i0 from Fin.ext hi, hnew]
          exact Nat.dvd_sub (hdvd i0) (Dvd.intro 1 (by simp [side, faceNeighbor]))
        · rw [hother i hi]; exact hdvd i
      · intro i hi
        rw [if_neg hf2, show i = i0 from Fin.ext hi, hnew]
        omega

theorem xor_one_div (f : Nat) : (f ^^^ 1) / 2 = f / 2 := by
  apply Nat.eq_of_testBit_eq
  intro k
  rw [Nat.testBit_div_two, Nat.testBit_div_two, Nat.testBit_xor]
  have : Nat.testBit 1 (k + 1) = false := by
    rw [Nat.testBit_succ]; simp
  rw [this, Bool.xor_false]

theorem xor_one_mod (f : Nat) : (f ^^^ 1) % 2 = 1 - f % 2 := by
  rcases Nat.mod_two_eq_zero_or_one f with h | h
  · rw [Nat.xor_mod_two_eq]; omega
  · rw [Nat.xor_mod_two_eq]; omega

theorem xor_one_xor (f : Nat) : (f ^^^ 1) ^^^ 1 = f := by
  rw [Nat.xor_assoc]; simp

/-- Going to the neighbor and back. -/
theorem faceNeighbor_back {e : Elem d} (f : Nat) :
    faceNeighbor M (faceNeighbor M e f) (f ^^^ 1) = e := by
  refine Elem.ext' (fun i => ?_) rfl
  simp only [faceNeighbor, xor_one_div, xor_one_mod]
  rcases Nat.mod_two_eq_zero_or_one f with hf | hf
  · by_cases hi : i.val = f / 2
    · simp [hi, hf, BitVec.sub_add_cancel]
    · simp [hi]
  · by_cases hi : i.val = f / 2
    · simp [hi, hf, BitVec.add_sub_cancel]
    · simp [hi]

end T8.Standalone
