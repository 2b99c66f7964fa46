/-
Faces of the standalone hypercube scheme, continued: touching a face, children and descendants at a face,
boundary and extrusion, transformation between trees.
-/
import Verif.Lemmas.StandaloneFaces

namespace T8.Standalone
open RTree
variable {d M : Nat}

/-! ### Descendants and boxes -/

/-- Two multiples of `s` that are less than `s` apart are equal. -/
theorem eq_of_dvd_of_lt {s a b x : Nat} (ha : s ∣ a) (hb : s ∣ b) (h1 : a ≤ x) (h2 : x < a + s)
    (h3 : b ≤ x) (h4 : x < b + s) : a = b := by
  obtain ⟨p, rfl⟩ := ha
  obtain ⟨q, rfl⟩ := hb
  have e1 : x / s = p := by
    apply Nat.div_eq_of_lt_le
    · rw [Nat.mul_comm]; exact h1
    · rw [Nat.mul_comm, Nat.mul_succ]; exact h2
  have e2 : x / s = q := by
    apply Nat.div_eq_of_lt_le
    · rw [Nat.mul_comm]; exact h3
    · rw [Nat.mul_comm, Nat.mul_succ]; exact h4
  rw [← e1, ← e2]

theorem desc_of_box (h : 0 < d → M < 32) {e x : Elem d} (he : Valid M e) (hx : Valid M x)
    (hl : e.level ≤ x.level)
    (hb : ∀ i, (e.coords i).toNat ≤ (x.coords i).toNat ∧ (x.coords i).toNat < (e.coords i).toNat + side M e) :
    (treeOf d M h).Desc e x := by
  have hva : Valid M ((treeOf d M h).anc x e.level) := valid_anc (T := treeOf d M h) hx _
  have hla : ((treeOf d M h).anc x e.level).level = e.level := level_anc (T := treeOf d M h) hx hl
  have hda : (treeOf d M h).Desc ((treeOf d M h).anc x e.level) x := desc_anc (T := treeOf d M h) hx
  have heq : (treeOf d M h).anc x e.level = e := by
    refine Elem.ext' (fun i => BitVec.eq_of_toNat_eq ?_) hla
    have h1 := desc_box h hva hda i
    have h2 := hb i
    have hs : side M ((treeOf d M h).anc x e.level) = side M e := by simp only [side, hla]
    have hsx := side_pos (M := M) x
    rw [hs] at h1
    have d1 := (hva.2 i).2
    rw [hla] at d1
    exact eq_of_dvd_of_lt (s := side M e) (x := (x.coords i).toNat) d1 (he.2 i).2 h1.1 (by omega) h2.1 h2.2
  rwa [heq] at hda

theorem le_of_testBit_imp {i j : Nat} (h : ∀ k, j.testBit k = true → i.testBit k = true) : j ≤ i := by
  have : j &&& i = j := by
    apply Nat.eq_of_testBit_eq
    intro k
    rw [Nat.testBit_and]
    cases hj : j.testBit k
    · simp
    · simp [h k hj]
  rw [← this]; exact Nat.and_le_right

/-- The space-filling curve is monotone in the coordinates. -/
theorem morton_mono (h : 0 < d → M < 32) {x y : Elem d} (hx : Valid M x) (hy : Valid M y)
    (hl : x.level = y.level) (hc : ∀ i, (x.coords i).toNat ≤ (y.coords i).toNat) :
    lid (T := treeOf d M h) x x.level ≤ lid (T := treeOf d M h) y x.level := by
  rcases position_cases (T := treeOf d M h) hx hy with h1 | h1 | h1 | h1
  · rw [Desc.eq_of_level (T := treeOf d M h) hx h1 (le_of_eq hl.symm)]
  · rw [Desc.eq_of_level (T := treeOf d M h) hy h1 (le_of_eq hl)]
  · have := Before.lid_le (T := treeOf d M h) h1 (L := x.level) (le_refl _) (le_of_eq hl.symm) hx.1
    omega
  · exfalso
    obtain ⟨a, i, j, va, la, hij, hj, di, dj⟩ := h1
    have vi : Valid M (child M a i) := valid_child h va la i
    have vj : Valid M (child M a j) := valid_child h va la j
    have : j ≤ i := by
      apply le_of_testBit_imp
      intro k hk
      have hkd : k < d := by
        by_contra hkd
        have : j < 2 ^ k := lt_of_lt_of_le hj (Nat.pow_le_pow_right (by omega) (by omega))
        rw [Nat.testBit_lt_two_pow this] at hk
        cases hk
      by_contra hik
      have b1 := desc_box h vi di ⟨k, hkd⟩
      have b2 := desc_box h vj dj ⟨k, hkd⟩
      rw [child_toNat h va la] at b1 b2
      have hs : side M (child M a i) = side M (child M a j) := rfl
      have hik' : (i.testBit k) = false := by simpa using hik
      simp only [hk, hik', if_true] at b1 b2
      have := hc ⟨k, hkd⟩
      have := side_pos (M := M) y
      simp at b1
      omega
    omega

/-! ### Touching a face -/

/-- A descendant can touch face `f` of `e` only with its own face `f`. -/
theorem face_number {e x : Elem d} {f g : Nat} (hf : f / 2 < d)
    (hbox : ∀ i, (e.coords i).toNat ≤ (x.coords i).toNat ∧
      (x.coords i).toNat + side M x ≤ (e.coords i).toNat + side M e)
    (hsub : Face M x g ⊆ Face M e f) : g = f := by
  have hs := side_pos (M := M) x
  have hse := side_pos (M := M) e
  by_cases hgf : g / 2 = f / 2
  · have h1 := ((face_subset_iff hgf (by omega)).1 hsub).2 ⟨f / 2, hf⟩ hgf.symm
    have h2 := hbox ⟨f / 2, hf⟩
    have hg2 : g % 2 = 0 ∨ g % 2 = 1 := by omega
    have hf2 : f % 2 = 0 ∨ f % 2 = 1 := by omega
    rcases hg2 with a | a <;> rcases hf2 with b | b <;> rw [a, b] at h1 <;> omega
  · exfalso
    have h1 := (hsub (face_nonempty_lo (M := M) (e := x) g)).2 ⟨f / 2, hf⟩ rfl
    have h2 := (hsub (face_nonempty_hi (M := M) (e := x) g)).2 ⟨f / 2, hf⟩ rfl
    simp only [Ne.symm hgf, if_false] at h1 h2
    omega

/-- A descendant touches face `f` exactly if its coordinate in the normal direction is extreme. -/
theorem touch_iff {e x : Elem d} {f : Nat} (hf : f / 2 < d)
    (hbox : ∀ i, (e.coords i).toNat ≤ (x.coords i).toNat ∧
      (x.coords i).toNat + side M x ≤ (e.coords i).toNat + side M e) :
    Face M x f ⊆ Face M e f ↔ (x.coords ⟨f / 2, hf⟩).toNat + f % 2 * side M x =
      (e.coords ⟨f / 2, hf⟩).toNat + f % 2 * side M e := by
  rw [face_subset_iff rfl hf]
  constructor
  · rintro ⟨_, h2⟩; exact h2 ⟨f / 2, hf⟩ rfl
  · intro h2
    refine ⟨fun i _ => hbox i, fun i hi => ?_⟩
    rw [show i = ⟨f / 2, hf⟩ from Fin.ext hi]; exact h2

theorem child_box (h : 0 < d → M < 32) {e : Elem d} (he : Valid M e) (hl : e.level < M) {c : Nat}
    (hc : c < 2 ^ d) (i : Fin d) : (e.coords i).toNat ≤ ((child M e c).coords i).toNat ∧
      ((child M e c).coords i).toNat + side M (child M e c) ≤ (e.coords i).toNat + side M e :=
  desc_box h he (Desc.child_self (T := treeOf d M h) hl hc) i

/-- A child touches face `f` exactly if the bit of its number in the normal direction is that of the face. -/
theorem child_touch_iff (h : 0 < d → M < 32) {e : Elem d} (he : Valid M e) (hl : e.level < M) {c : Nat}
    (hc : c < 2 ^ d) {f : Nat} (hf : f / 2 < d) :
    Face M (child M e c) f ⊆ Face M e f ↔ c.testBit (f / 2) = decide (f % 2 = 1) := by
  rw [touch_iff hf (child_box h he hl hc), child_toNat h he hl]
  have h1 := side_child (M := M) hl c
  have h2 := side_pos (M := M) (child M e c)
  have hf2 : f % 2 = 0 ∨ f % 2 = 1 := by omega
  rcases hf2 with a | a <;> cases hb : c.testBit (f / 2) <;> simp [a] <;> omega

theorem faceParentFace_eq (h : 0 < d → M < 31) {e : Elem d} (he : Valid M e) (hl : 0 < e.level) {f : Nat}
    (hf : f / 2 < d) :
    faceParentFace M e f hf = if (cubeId M e e.level).testBit (f / 2) = decide (f % 2 = 1) then some f else none := by
  have h31 := h (by omega)
  have h32 : 0 < d → M < 32 := fun hd => by have := h hd; omega
  have hlt := (he.2 ⟨f / 2, hf⟩).1
  have hp31 : 2 ^ M < 2 ^ 31 := Nat.pow_lt_pow_right (by omega) h31
  have hbit : ((cubeId M e e.level).testBit (f / 2)) = (e.coords ⟨f / 2, hf⟩).toNat.testBit (M - e.level) := by
    rw [Bool.eq_iff_iff, cubeId_testBit h32 e (by omega), BitVec.testBit_toNat]
    exact ⟨fun ⟨_, h⟩ => h, fun h => ⟨hf, h⟩⟩
  have hval : ((e.coords ⟨f / 2, hf⟩).sshiftRight (M - e.level)).toInt.tmod 2 =
      (((e.coords ⟨f / 2, hf⟩).toNat / 2 ^ (M - e.level) % 2 : Nat) : Int) := by
    rw [BitVec.toInt_sshiftRight, BitVec.toInt_eq_toNat_of_lt (by omega), Int.shiftRight_eq_div_pow]
    rfl
  rw [faceParentFace, if_neg (by omega), hval, hbit, Nat.testBit_eq_decide_div_mod_eq]
  have hf2 : f % 2 = 0 ∨ f % 2 = 1 := by omega
  have hx : (e.coords ⟨f / 2, hf⟩).toNat / 2 ^ (M - e.level) % 2 = 0 ∨
    (e.coords ⟨f / 2, hf⟩).toNat / 2 ^ (M - e.level) % 2 = 1 := by omega
  rcases hf2 with a | a <;> rcases hx with b | b <;> rw [a, b] <;> simp

theorem faceParentFace_some (h : 0 < d → M < 31) {e : Elem d} (he : Valid M e) (hl : 0 < e.level) {f : Nat}
    (hf : f / 2 < d) (g : Nat) :
    faceParentFace M e f hf = some g ↔ Face M e f ⊆ Face M (parent M e) g ∧ g / 2 < d := by
  have h32 : 0 < d → M < 32 := fun hd => by have := h hd; omega
  have vp := valid_parent h32 he hl
  have hlp : (parent M e).level < M := by have := he.1; simp only [parent]; omega
  have hcp := child_parent h32 he hl
  have hc := childId_lt (M := M) h32 hl
  have hcb := child_box h32 vp hlp hc
  have ht := child_touch_iff h32 vp hlp hc hf
  rw [childId_eq hl] at hcb hcp ht
  rw [hcp] at hcb ht
  rw [faceParentFace_eq h he hl]
  constructor
  · intro hs
    split at hs
    · rename_i hb
      cases hs
      exact ⟨ht.2 hb, hf⟩
    · cases hs
  · rintro ⟨hs, hg⟩
    have : f = g := face_number hg hcb hs
    subst this
    rw [if_pos (ht.1 hs)]

/-! ### First and last descendant at a face -/

theorem len_sub_toNat (h : M < 32) {a b : Nat} (hab : a ≤ b) :
    (getLen M a - getLen M b).toNat = 2 ^ (M - a) - 2 ^ (M - b) := by
  have hle : 2 ^ (M - b) ≤ 2 ^ (M - a) := Nat.pow_le_pow_right (by omega) (by omega)
  rw [BitVec.toNat_sub_of_le]
  · rw [getLen_toNat h, getLen_toNat h]
  · rw [BitVec.le_def, getLen_toNat h, getLen_toNat h]; exact hle

theorem firstDescendantFace_coord (h : 0 < d → M < 32) {e : Elem d} (he : Valid M e) {L f : Nat}
    (hL : e.level ≤ L) (i : Fin d) : ((firstDescendantFace M e f L).coords i).toNat =
      (e.coords i).toNat + (if i.val = f / 2 then f % 2 * (side M e - 2 ^ (M - L)) else 0) := by
  have h32 := h i.pos
  have h1 := coord_add_side_le he i
  have h2 := two_pow_lt_32 h32
  have hp : 0 < 2 ^ (M - L) := Nat.two_pow_pos _
  simp only [firstDescendantFace]
  by_cases hi : i.val = f / 2
  · by_cases hf : f % 2 = 1
    · rw [if_pos ⟨hf, hi⟩, if_pos hi, BitVec.toNat_add, len_sub_toNat h32 hL, hf]
      have : side M e = 2 ^ (M - e.level) := rfl
      rw [Nat.mod_eq_of_lt (by omega)]; omega
    · have : f % 2 = 0 := by omega
      simp [hi, this]
  · simp [hi]

theorem lastDescendantFace_coord (h : 0 < d → M < 32) {e : Elem d} (he : Valid M e) {L f : Nat}
    (hL : e.level ≤ L) (i : Fin d) : ((lastDescendantFace M e f L).coords i).toNat =
      (e.coords i).toNat + (if i.val = f / 2 then f % 2 else 1) * (side M e - 2 ^ (M - L)) := by
  have h32 := h i.pos
  have h1 := coord_add_side_le he i
  have h2 := two_pow_lt_32 h32
  have hp : 0 < 2 ^ (M - L) := Nat.two_pow_pos _
  have hs : side M e = 2 ^ (M - e.level) := rfl
  simp only [lastDescendantFace]
  rw [BitVec.toNat_add, BitVec.toNat_mul, len_sub_toNat h32 hL, BitVec.toNat_ofNat, ← hs]
  have hm : (if i.val = f / 2 then f % 2 else 1) = 0 ∨ (if i.val = f / 2 then f % 2 else 1) = 1 := by
    split <;> omega
  rcases hm with hm | hm <;> rw [hm]
  · rw [Nat.zero_mod, Nat.zero_mul, Nat.zero_mod, Nat.add_zero]
    exact Nat.mod_eq_of_lt (by omega)
  · simp only [Nat.one_mod_two_pow_eq_one.2 (by omega : 0 < 32), Nat.one_mul]
    rw [Nat.mod_eq_of_lt (b := 2 ^ 32) (by omega), Nat.mod_eq_of_lt (by omega)]

/-- An element of level `L` whose coordinates are those of `e` or the largest possible is a descendant. -/
theorem desc_of_extreme (h : 0 < d → M < 32) {e x : Elem d} (he : Valid M e) {L : Nat} (hL : e.level ≤ L)
    (hLM : L ≤ M) (hx : x.level = L)
    (hc : ∀ i, (x.coords i).toNat = (e.coords i).toNat ∨
      (x.coords i).toNat = (e.coords i).toNat + (side M e - 2 ^ (M - L))) :
    Valid M x ∧ (treeOf d M h).Desc e x := by
  have hp : 0 < 2 ^ (M - L) := Nat.two_pow_pos _
  have hle : 2 ^ (M - L) ≤ side M e := Nat.pow_le_pow_right (by omega) (by omega)
  have hdv : 2 ^ (M - L) ∣ side M e := Nat.pow_dvd_pow _ (by omega)
  have hv : Valid M x := by
    refine ⟨by omega, fun i => ?_⟩
    have h1 := coord_add_side_le he i
    have h2 := (he.2 i).2
    have h3 : 2 ^ (M - L) ∣ (e.coords i).toNat := Nat.dvd_trans hdv h2
    rw [hx]
    rcases hc i with hi | hi
    · rw [hi]; exact ⟨(he.2 i).1, h3⟩
    · rw [hi]; exact ⟨by omega, Nat.dvd_add h3 (Nat.dvd_sub hdv (Nat.dvd_refl _))⟩
  refine ⟨hv, desc_of_box h he hv (by omega) fun i => ?_⟩
  rcases hc i with hi | hi <;> omega

/-! ### Boundary and extrusion -/

theorem faceDim_iff {d f : Nat} (hf : f / 2 < d + 1) (i : Fin (d + 1)) (k : Fin d) :
    faceDim i.val f = some k.val ↔ i = (⟨f / 2, hf⟩ : Fin (d + 1)).succAbove k := by
  rw [faceDim, Fin.ext_iff, Fin.succAbove]
  simp only [Fin.lt_def, Fin.val_castSucc]
  split
  · simp only [reduceCtorEq, false_iff]
    split <;> simp <;> omega
  · split
    · simp only [Option.some.injEq]
      split <;> simp <;> omega
    · simp only [Option.some.injEq]
      split <;> simp <;> omega

theorem boundaryFace_coord {d M M' : Nat} (e : Elem (d + 1)) {f : Nat} (hf : f / 2 < d + 1) (k : Fin d) :
    (boundaryFace M M' e f).coords k =
      e.coords ((⟨f / 2, hf⟩ : Fin (d + 1)).succAbove k) <<< (M' - M) := by
  have gen : ∀ (l : List (Fin (d + 1))) (c : Fin d → BitVec 32),
      (l.foldl (fun c i => match faceDim i.val (treeFace f) with
        | none => c
        | some j => fun k => if k.val = j then e.coords i <<< (M' - M) else c k) c) k =
      if (⟨f / 2, hf⟩ : Fin (d + 1)).succAbove k ∈ l then
        e.coords ((⟨f / 2, hf⟩ : Fin (d + 1)).succAbove k) <<< (M' - M) else c k := by
    intro l
    induction l with
    | nil => intro c; simp
    | cons i l ih =>
      intro c
      rw [List.foldl_cons, ih]
      have hfd := faceDim_iff hf i k
      by_cases hm : (⟨f / 2, hf⟩ : Fin (d + 1)).succAbove k ∈ l
      · simp [hm]
      · by_cases hi : i = (⟨f / 2, hf⟩ : Fin (d + 1)).succAbove k
        · rw [if_neg hm, if_pos (by rw [hi]; exact List.mem_cons_self), treeFace, hfd.2 hi]
          simp [hi]
        · rw [if_neg hm, if_neg (by simp [hm, Ne.symm hi])]
          have : faceDim i.val f ≠ some k.val := fun hh => hi (hfd.1 hh)
          rw [treeFace]
          cases hq : faceDim i.val f with
          | none => rfl
          | some j =>
            rw [hq] at this
            have : k.val ≠ j := fun hh => this (by rw [hh])
            simp [this]
  have := gen (List.finRange (d + 1)) (fun _ => 0)
  rw [if_pos (List.mem_finRange _)] at this
  exact this

theorem extrudeFace_coord {d M M' : Nat} (b : Elem d) {f : Nat} (hf : f / 2 < d + 1) (k : Fin d) :
    (extrudeFace M M' b f).1.coords ((⟨f / 2, hf⟩ : Fin (d + 1)).succAbove k) =
      (b.coords k).sshiftRight (M' - M) := by
  have := (faceDim_iff hf ((⟨f / 2, hf⟩ : Fin (d + 1)).succAbove k) k).2 rfl
  simp only [extrudeFace, this]
  simp

theorem extrudeFace_normal {d M M' : Nat} (b : Elem d) {f : Nat} (hf : f / 2 < d + 1) :
    (extrudeFace M M' b f).1.coords ⟨f / 2, hf⟩ =
      if f % 2 = 1 then rootLen (d + 1) M - getLen M b.level else 0 := by
  simp [extrudeFace, faceDim]

theorem shl_toNat {x : BitVec 32} {a b : Nat} (hx : x.toNat < 2 ^ a) (hab : a + b < 32) :
    (x <<< b).toNat = x.toNat * 2 ^ b := by
  rw [BitVec.toNat_shiftLeft, Nat.shiftLeft_eq]
  apply Nat.mod_eq_of_lt
  calc x.toNat * 2 ^ b < 2 ^ a * 2 ^ b := Nat.mul_lt_mul_of_pos_right hx (Nat.two_pow_pos _)
    _ = 2 ^ (a + b) := (pow_add ..).symm
    _ ≤ 2 ^ 32 := Nat.pow_le_pow_right (by omega) (by omega)

theorem sshr_toNat {x : BitVec 32} {b : Nat} (hx : x.toNat < 2 ^ 31) :
    (x.sshiftRight b).toNat = x.toNat / 2 ^ b := by
  have h1 : x.msb = false := by
    rw [BitVec.msb_eq_false_iff_two_mul_lt]; omega
  rw [BitVec.toNat_sshiftRight_of_msb_false h1, Nat.shiftRight_eq_div_pow]

variable {M' : Nat}

theorem boundaryFace_toNat (hM : M ≤ M') (h31 : 0 < d → M' < 31) {e : Elem (d + 1)} (he : Valid M e) {f : Nat}
    (hf : f / 2 < d + 1) (k : Fin d) : ((boundaryFace M M' e f).coords k).toNat =
      (e.coords ((⟨f / 2, hf⟩ : Fin (d + 1)).succAbove k)).toNat * 2 ^ (M' - M) := by
  rw [boundaryFace_coord e hf]
  exact shl_toNat (he.2 _).1 (by have := h31 k.pos; omega)

theorem boundaryFace_valid (hM : M ≤ M') (h31 : 0 < d → M' < 31) {e : Elem (d + 1)} (he : Valid M e) {f : Nat}
    (hf : f / 2 < d + 1) : Valid M' (boundaryFace M M' e f) := by
  refine ⟨show e.level ≤ M' from le_trans he.1 hM, fun k => ?_⟩
  rw [boundaryFace_toNat hM h31 he hf]
  have h1 := he.2 ((⟨f / 2, hf⟩ : Fin (d + 1)).succAbove k)
  constructor
  · calc _ < 2 ^ M * 2 ^ (M' - M) := Nat.mul_lt_mul_of_pos_right h1.1 (Nat.two_pow_pos _)
      _ = 2 ^ M' := by rw [← pow_add]; congr 1; omega
  · have : 2 ^ (M' - e.level) = 2 ^ (M - e.level) * 2 ^ (M' - M) := by
      rw [← pow_add]; congr 1; have := he.1; omega
    show 2 ^ (M' - e.level) ∣ _
    rw [this]
    exact Nat.mul_dvd_mul_right h1.2 _

theorem normal_toNat (h32 : M < 32) {l : Nat} (f : Nat) :
    (if f % 2 = 1 then rootLen (d + 1) M - getLen M l else 0 : BitVec 32).toNat =
      f % 2 * (2 ^ M - 2 ^ (M - l)) := by
  have hle : 2 ^ (M - l) ≤ 2 ^ M := Nat.pow_le_pow_right (by omega) (by omega)
  have hf2 : f % 2 = 0 ∨ f % 2 = 1 := by omega
  rcases hf2 with a | a <;> rw [a]
  · simp
  · rw [if_pos rfl, BitVec.toNat_sub_of_le]
    · rw [rootLen_toNat (by omega) h32, getLen_toNat h32, Nat.one_mul]
    · rw [BitVec.le_def, rootLen_toNat (by omega) h32, getLen_toNat h32]; exact hle

theorem extrudeFace_toNat (h31 : 0 < d → M' < 31) {b : Elem d} (hb : Valid M' b)
    {f : Nat} (hf : f / 2 < d + 1) (k : Fin d) :
    ((extrudeFace M M' b f).1.coords ((⟨f / 2, hf⟩ : Fin (d + 1)).succAbove k)).toNat =
      (b.coords k).toNat / 2 ^ (M' - M) := by
  rw [extrudeFace_coord b hf]
  apply sshr_toNat
  have := (hb.2 k).1
  have : 2 ^ M' < 2 ^ 31 := Nat.pow_lt_pow_right (by omega) (h31 k.pos)
  omega

/-- Every direction is normal to the face or one of the face. -/
theorem dir_cases {f : Nat} (hf : f / 2 < d + 1) (i : Fin (d + 1)) :
    i = ⟨f / 2, hf⟩ ∨ ∃ k, i = (⟨f / 2, hf⟩ : Fin (d + 1)).succAbove k := by
  by_cases hi : i = ⟨f / 2, hf⟩
  · exact Or.inl hi
  · obtain ⟨k, hk⟩ := Fin.exists_succAbove_eq hi
    exact Or.inr ⟨k, hk.symm⟩

theorem extrudeFace_valid (hM : M ≤ M') (h31 : 0 < d → M' < 31) (h32 : M < 32) {b : Elem d} (hb : Valid M' b)
    (hl : b.level ≤ M) {f : Nat} (hf : f / 2 < d + 1) :
    Valid M (extrudeFace M M' b f).1 ∧ Face M (extrudeFace M M' b f).1 f ⊆ Face M (root (d + 1)) f := by
  have hs : 2 ^ (M - b.level) ≤ 2 ^ M := Nat.pow_le_pow_right (by omega) (by omega)
  have hsp : 0 < 2 ^ (M - b.level) := Nat.two_pow_pos _
  have hf2 : f % 2 = 0 ∨ f % 2 = 1 := by omega
  have hn : ((extrudeFace M M' b f).1.coords ⟨f / 2, hf⟩).toNat = f % 2 * (2 ^ M - 2 ^ (M - b.level)) := by
    rw [extrudeFace_normal b hf, normal_toNat h32]
  have hv : Valid M (extrudeFace M M' b f).1 := by
    refine ⟨hl, fun i => ?_⟩
    show _ ∧ 2 ^ (M - b.level) ∣ _
    rcases dir_cases hf i with rfl | ⟨k, rfl⟩
    · rw [hn]
      refine ⟨by rcases hf2 with a | a <;> rw [a] <;> omega, ?_⟩
      exact Nat.dvd_mul_left_of_dvd (Nat.dvd_sub (Nat.pow_dvd_pow _ (by omega)) (Nat.dvd_refl _)) _
    · rw [extrudeFace_toNat h31 hb hf]
      have h1 := hb.2 k
      have e1 : 2 ^ M' = 2 ^ M * 2 ^ (M' - M) := by rw [← pow_add]; congr 1; omega
      have e2 : 2 ^ (M' - b.level) = 2 ^ (M - b.level) * 2 ^ (M' - M) := by rw [← pow_add]; congr 1; omega
      refine ⟨Nat.div_lt_of_lt_mul (by rw [Nat.mul_comm, ← e1]; exact h1.1), ?_⟩
      obtain ⟨q, hq⟩ := h1.2
      refine ⟨q, ?_⟩
      rw [hq, e2, show 2 ^ (M - b.level) * 2 ^ (M' - M) * q = 2 ^ (M' - M) * (2 ^ (M - b.level) * q) by ring]
      exact Nat.mul_div_cancel_left _ (Nat.two_pow_pos _)
  refine ⟨hv, ?_⟩
  have hroot : ∀ i, ((root (d + 1)).coords i).toNat = 0 := fun i => rfl
  have hsr : side M (root (d + 1)) = 2 ^ M := rfl
  have hse : side M (extrudeFace M M' b f).1 = 2 ^ (M - b.level) := rfl
  rw [touch_iff hf fun i => by have := coord_add_side_le hv i; rw [hroot, hsr]; omega, hn, hroot, hsr, hse]
  rcases hf2 with a | a <;> rw [a] <;> omega

theorem extrude_boundary (hM : M ≤ M') (h31 : 0 < d → M' < 31) (h32 : M < 32) {e : Elem (d + 1)}
    (he : Valid M e) {f : Nat} (hf : f / 2 < d + 1) (hb : Face M e f ⊆ Face M (root (d + 1)) f) :
    extrudeFace M M' (boundaryFace M M' e f) f = (e, f) := by
  have hv := boundaryFace_valid hM h31 he hf
  refine Prod.ext (Elem.ext' (fun i => BitVec.eq_of_toNat_eq ?_) rfl) rfl
  rcases dir_cases hf i with rfl | ⟨k, rfl⟩
  · rw [extrudeFace_normal _ hf, normal_toNat h32]
    have hroot : ∀ i, ((root (d + 1)).coords i).toNat = 0 := fun i => rfl
    have hsr : side M (root (d + 1)) = 2 ^ M := rfl
    rw [touch_iff hf fun i => by have := coord_add_side_le he i; rw [hroot, hsr]; omega, hroot, hsr] at hb
    show f % 2 * (2 ^ M - side M e) = (e.coords ⟨f / 2, hf⟩).toNat
    have hs : side M e ≤ 2 ^ M := Nat.pow_le_pow_right (by omega) (by omega)
    have hf2 : f % 2 = 0 ∨ f % 2 = 1 := by omega
    rcases hf2 with a | a <;> rw [a] at hb ⊢ <;> omega
  · rw [extrudeFace_toNat h31 hv hf, boundaryFace_toNat hM h31 he hf]
    exact Nat.mul_div_cancel _ (Nat.two_pow_pos _)

theorem boundary_extrude (hM : M ≤ M') (h31 : 0 < d → M' < 31) (h32 : M < 32) {b : Elem d}
    (hb : Valid M' b) (hl : b.level ≤ M) {f : Nat} (hf : f / 2 < d + 1) :
    boundaryFace M M' (extrudeFace M M' b f).1 f = b := by
  have hv := (extrudeFace_valid hM h31 h32 hb hl hf).1
  refine Elem.ext' (fun k => BitVec.eq_of_toNat_eq ?_) rfl
  rw [boundaryFace_toNat hM h31 hv hf, extrudeFace_toNat h31 hb hf]
  apply Nat.div_mul_cancel
  exact Nat.dvd_trans (Nat.pow_dvd_pow _ (by omega)) (hb.2 k).2

/-! ### Transformation between trees -/

theorem mirror_toNat {R x h : BitVec 32} (hle : x.toNat + h.toNat ≤ R.toNat) :
    (R - x - h).toNat = R.toNat - x.toNat - h.toNat ∧ (R - h - x).toNat = R.toNat - x.toNat - h.toNat := by
  constructor <;> bv_omega

/-- An element is determined to be the parent by its level and its cube. -/
theorem parent_of_box (h : 0 < d → M < 32) {p e : Elem d} (hp : Valid M p) (he : Valid M e)
    (hl : p.level + 1 = e.level)
    (hb : ∀ i, (p.coords i).toNat ≤ (e.coords i).toNat ∧ (e.coords i).toNat < (p.coords i).toNat + side M p) :
    parent M e = p := by
  have hd := desc_of_box h hp he (by omega) hb
  have h1 := Desc.anc_eq (T := treeOf d M h) hp hd
  have h2 := parent_eq_anc (T := treeOf d M h) (e := e) (by show 0 < e.level; omega)
  have h3 : (treeOf d M h).level e - 1 = p.level := by show e.level - 1 = _; omega
  rw [h3] at h2
  exact h2.trans h1

end T8.Standalone
