/-
Faces of the quadrilaterals and hexahedra of the default scheme.
-/
import Verif.Lemmas.CubeP4est
import Verif.Lemmas.Dline
import Verif.Lemmas.SimplexExtrude
import Verif.Lemmas.StandaloneTransform

namespace T8.Cube
open T8.RTree
open T8.Standalone (Elem getLen Elem.ext')

variable {c : Cls} {P : P4est c.dim}

/-- The corner of the element with the corner descendant. -/
theorem P4est.Documented.corner_coord (D : P.Documented c) {e : Elem c.dim} (he : Valid c e) {k L : Nat} (hk : k < 2 ^ c.dim)
    (hl : e.level ≤ L) (hL : L ≤ c.maxLevel) (i : Fin c.dim) :
    ((P.cornerDescendant e k L).coords i).toNat =
      (e.coords i).toNat + (if k.testBit i.val then Standalone.side c.rootLevel e - 2 ^ (c.rootLevel - L) else 0) := by
  have h := (D.cornerDescendant e k L he hk hl hL).2.2 i
  have hM := c.max_le
  have hle : 2 ^ (c.rootLevel - L) ≤ 2 ^ (c.rootLevel - e.level) := Nat.pow_le_pow_right (by omega) (by omega)
  have e1 : ((2 : Int) ^ (c.rootLevel - e.level)) = ((2 ^ (c.rootLevel - e.level) : Nat) : Int) := by norm_num
  have e2 : ((2 : Int) ^ (c.rootLevel - L)) = ((2 ^ (c.rootLevel - L) : Nat) : Int) := by norm_num
  rw [e1, e2] at h
  show _ = _ + (if k.testBit i.val then 2 ^ (c.rootLevel - e.level) - _ else 0)
  split at h <;> rename_i hb
  · rw [if_pos hb]; omega
  · rw [if_neg hb]; omega

/-- An element whose coordinates are those of `e` or the largest possible is a descendant. -/
theorem Cls.desc_of_extreme (c : Cls) {e x : Elem c.dim} (he : Valid c e) {L : Nat} (hL : e.level ≤ L)
    (hLM : L ≤ c.maxLevel) (hx : x.level = L)
    (hc : ∀ i, (x.coords i).toNat = (e.coords i).toNat ∨
      (x.coords i).toNat = (e.coords i).toNat + (Standalone.side c.rootLevel e - 2 ^ (c.rootLevel - L))) :
    Valid c x ∧ c.tree.Desc e x := by
  have hM := c.max_le
  obtain ⟨h1, h2⟩ := Standalone.desc_of_extreme c.small' he.1 hL (by omega) hx hc
  have hv : Valid c x := ⟨h1, by omega⟩
  have hs := Standalone.side_pos (M := c.rootLevel) x
  refine ⟨hv, c.desc_of_box he hv (by omega) fun i => ?_⟩
  have := Standalone.desc_box c.small' he.1 h2 i
  omega

theorem bound_eq {x y : BitVec 32} {f : Nat} :
    (x == (if f &&& 1 ≠ 0 then y else 0)) = (if f % 2 = 1 then decide (x = y) else decide (x = 0)) := by
  have hand : f &&& 1 = f % 2 := Nat.and_one_is_mod f
  rw [hand]
  have : f % 2 = 0 ∨ f % 2 = 1 := by omega
  rcases this with h | h
  · rw [if_neg (by omega), if_neg (by omega)]; exact Bool.beq_eq_decide_eq x 0
  · rw [if_pos (by omega), if_pos h]; exact Bool.beq_eq_decide_eq x y

/-- The boundary test. -/
theorem isRootBoundary_eq (c : Cls) {e : Elem c.dim} {f : Nat} (hf : f / 2 < c.dim) :
    isRootBoundary c e f = Standalone.isRootBoundary c.rootLevel e f hf := by
  have hsh : f >>> 1 = f / 2 := Nat.shiftRight_eq_div_pow f 1
  have hsh2 : f >>> 2 = f / 4 := Nat.shiftRight_eq_div_pow f 2
  cases c with
  | quad =>
    have hf4 : f / 2 < 2 := hf
    have h0 : (if f >>> 1 ≠ 0 then e.coords 1 else e.coords 0) = e.coords ⟨f / 2, hf⟩ := by
      rw [hsh]
      have : f / 2 = 0 ∨ f / 2 = 1 := by omega
      rcases this with h | h
      · rw [if_neg (by omega)]; congr 1; exact Fin.ext h.symm
      · rw [if_pos (by omega)]; congr 1; exact Fin.ext h.symm
    show ((if f >>> 1 ≠ 0 then e.coords 1 else e.coords 0) == _) = _
    rw [h0]
    exact bound_eq
  | hex M h =>
    have hf4 : f / 2 < 3 := hf
    have h0 : (if f >>> 2 ≠ 0 then e.coords 2 else if f >>> 1 ≠ 0 then e.coords 1 else e.coords 0) = e.coords ⟨f / 2, hf⟩ := by
      rw [hsh, hsh2]
      have : f / 2 = 0 ∨ f / 2 = 1 ∨ f / 2 = 2 := by omega
      rcases this with h | h | h
      · rw [if_neg (by omega), if_neg (by omega)]; congr 1; exact Fin.ext h.symm
      · rw [if_neg (by omega), if_pos (by omega)]; congr 1; exact Fin.ext h.symm
      · rw [if_pos (by omega)]; congr 1; exact Fin.ext h.symm
    show ((if f >>> 2 ≠ 0 then e.coords 2 else if f >>> 1 ≠ 0 then e.coords 1 else e.coords 0) == _) = _
    rw [h0]
    exact bound_eq

/-! ### Boundary elements -/

theorem scaleUp_toNat {M : Nat} (hM : M ≤ 30) {x : BitVec 32} (hx : x.toNat < 2 ^ M) :
    (scaleUp M x).toNat = x.toNat * 2 ^ (30 - M) := by
  have h1 : (BitVec.twoPow 64 30 / BitVec.twoPow 64 M).toNat = 2 ^ (30 - M) := by
    rw [BitVec.toNat_udiv, BitVec.toNat_twoPow, BitVec.toNat_twoPow,
      Nat.mod_eq_of_lt (Nat.pow_lt_pow_right (by omega) (by omega)),
      Nat.mod_eq_of_lt (Nat.pow_lt_pow_right (by omega) (by omega)), Nat.pow_div hM (by omega)]
  have h2 : 2 ^ M ≤ 2 ^ 30 := Nat.pow_le_pow_right (by omega) hM
  have h3 : (x.signExtend 64).toNat = x.toNat := by
    rw [BitVec.signExtend_eq_setWidth_of_msb_false (by rw [BitVec.msb_eq_false_iff_two_mul_lt]; omega),
      BitVec.toNat_setWidth]
    exact Nat.mod_eq_of_lt (by omega)
  have h4 : x.toNat * 2 ^ (30 - M) < 2 ^ 30 := by
    calc x.toNat * 2 ^ (30 - M) < 2 ^ M * 2 ^ (30 - M) := Nat.mul_lt_mul_of_pos_right hx (Nat.two_pow_pos _)
      _ = 2 ^ 30 := by rw [← Nat.pow_add]; congr 1; omega
  rw [scaleUp, BitVec.toNat_setWidth, BitVec.toNat_mul, h1, h3, Nat.mod_eq_of_lt (b := 2 ^ 64) (by omega),
    Nat.mod_eq_of_lt (by omega)]

theorem boundaryFaceHex_eq {M : Nat} (hM : M ≤ 30) {q : Elem 3} (hq : Standalone.Valid M q) {f : Nat} (hf : f < 6) :
    boundaryFaceHex M q f = Standalone.boundaryFace M 30 q f := by
  refine Elem.ext' (fun k => BitVec.eq_of_toNat_eq ?_) rfl
  rw [Standalone.boundaryFace_toNat hM (fun _ => by omega) hq (by omega : f / 2 < 2 + 1)]
  have key : (boundaryFaceHex M q f).coords k = scaleUp M (q.coords ((⟨f / 2, by omega⟩ : Fin (2 + 1)).succAbove k)) := by
    interval_cases f <;> fin_cases k <;> rfl
  rw [key, scaleUp_toNat hM (hq.2 _).1]

theorem sshr_rescale {M : Nat} (hM : M ≤ 30) {x : BitVec 32} (hx : x.toNat < 2 ^ 30) :
    Simplex.rescale M 30 x = x.sshiftRight (30 - M) := by
  apply BitVec.eq_of_toNat_eq
  rw [Simplex.rescale_toNat hM (le_refl _) (by omega), Standalone.sshr_toNat (by omega)]

theorem extrudeFaceHex_eq {M : Nat} (hM : M ≤ 30) {b : Elem 2} (hb : Standalone.Valid 30 b) {f : Nat} (hf : f < 6) :
    extrudeFaceHex M b f = some (Standalone.extrudeFace M 30 b f) := by
  have h0 := sshr_rescale hM (hb.2 0).1
  have h1 := sshr_rescale hM (hb.2 1).1
  interval_cases f <;> simp only [extrudeFaceHex, h0, h1] <;>
    refine congrArg some (Prod.ext (Elem.ext' (fun i => ?_) rfl) rfl) <;> fin_cases i <;>
    simp [Standalone.extrudeFace, Standalone.faceDim, lastOffset, rootLen, Standalone.rootLen]

theorem toElem_boundaryQuad {q : Elem 2} (hq : Standalone.Valid 30 q) {f : Nat} (hf : f < 4) :
    Dline.toElem (boundaryFaceQuad q f) = Standalone.boundaryFace 30 30 q f := by
  refine Elem.ext' (fun k => BitVec.eq_of_toNat_eq ?_) rfl
  rw [Standalone.boundaryFace_toNat (le_refl 30) (fun _ => by omega) hq (by omega : f / 2 < 1 + 1)]
  have key : (Dline.toElem (boundaryFaceQuad q f)).coords k =
      Simplex.rescale 30 30 (q.coords ((⟨f / 2, by omega⟩ : Fin (1 + 1)).succAbove k)) := by
    interval_cases f <;> fin_cases k <;> rfl
  have h := (hq.2 ((⟨f / 2, by omega⟩ : Fin (1 + 1)).succAbove k)).1
  rw [key, Simplex.rescale_toNat (le_refl _) (le_refl _) (by omega)]
  simp

theorem extrudeFaceQuad_eq {l : Dline.Line} (hl : Dline.Valid l) {f : Nat} (hf : f < 4) :
    extrudeFaceQuad l f = some (Standalone.extrudeFace 30 30 (Dline.toElem l) f) := by
  have hx : l.x.toNat < 2 ^ 30 := hl.2.1
  have h0 : Simplex.rescale 30 Dline.maxLevel l.x = l.x.sshiftRight (30 - 30) := sshr_rescale (le_refl 30) hx
  interval_cases f <;> simp only [extrudeFaceQuad, h0] <;>
    refine congrArg some (Prod.ext (Elem.ext' (fun i => ?_) rfl) rfl) <;> fin_cases i <;>
    simp [Standalone.extrudeFace, Standalone.faceDim, lastOffset, rootLen, Standalone.rootLen, Dline.toElem]

/-- The transformation is that of the standalone scheme, apart from the level. -/
theorem transformFace_eq (same : Bool) (e1 e2 : Elem 2) (o : Nat) (sign isSmaller : Bool) :
    transformFace same e1 e2 o sign isSmaller = (Standalone.transformFaceQuad e1 o sign isSmaller).map
      (fun e => ⟨e.coords, if sign ∧ ¬ same then e2.level else e1.level⟩) := by
  simp only [transformFace, Standalone.transformFaceQuad]
  generalize (if (!isSmaller) = true ∧ (o = 1 ∨ o = 2) ∧ (!sign) = true then 3 - o else o) = o'
  match o' with
  | 0 => cases sign <;> cases same <;> rfl
  | 1 => cases sign <;> cases same <;> rfl
  | 2 => cases sign <;> cases same <;> rfl
  | 3 => cases sign <;> cases same <;> rfl
  | n + 4 => rfl

end T8.Cube
