/-
Boundary elements of triangles and tetrahedra: a face at the boundary of the root as a line or a triangle, and back.
-/
import Verif.Lemmas.SimplexUnique
import Verif.Spec.Dline

namespace T8.Simplex
open T8.RTree T8.Bits

theorem rescale_toNat {a b : Nat} (hab : a ≤ b) (hb : b ≤ 30) {x : BitVec 32} (hx : x.toNat < 2 ^ 31) :
    (rescale a b x).toNat = x.toNat / 2 ^ (b - a) := by
  have h1 : (BitVec.twoPow 64 a).toNat = 2 ^ a := by
    rw [BitVec.toNat_twoPow, Nat.mod_eq_of_lt (Nat.pow_lt_pow_right (by omega) (by omega))]
  have h2 : (BitVec.twoPow 64 b).toNat = 2 ^ b := by
    rw [BitVec.toNat_twoPow, Nat.mod_eq_of_lt (Nat.pow_lt_pow_right (by omega) (by omega))]
  have h3 : x.toNat * 2 ^ a < 2 ^ 64 := by
    have : 2 ^ a ≤ 2 ^ 30 := Nat.pow_le_pow_right (by omega) (by omega)
    calc x.toNat * 2 ^ a ≤ x.toNat * 2 ^ 30 := Nat.mul_le_mul_left _ this
      _ < 2 ^ 64 := by omega
  have h4 : x.toNat * 2 ^ a / 2 ^ b = x.toNat / 2 ^ (b - a) := by
    have : 2 ^ b = 2 ^ (b - a) * 2 ^ a := by rw [← Nat.pow_add]; congr 1; omega
    rw [this, Nat.mul_div_mul_right _ _ (Nat.two_pow_pos a)]
  have h5 : x.toNat / 2 ^ (b - a) < 2 ^ 32 := lt_of_le_of_lt (Nat.div_le_self _ _) (by omega)
  rw [rescale, BitVec.toNat_setWidth, BitVec.toNat_udiv, BitVec.toNat_mul, BitVec.toNat_setWidth, h1, h2,
    Nat.mod_eq_of_lt (by omega : x.toNat < 2 ^ 64), Nat.mod_eq_of_lt h3, h4, Nat.mod_eq_of_lt h5]

theorem mul_ratio {k : Nat} (hk : k < 32) {x : BitVec 32} (hx : x.toNat * 2 ^ k < 2 ^ 32) :
    (x * BitVec.twoPow 32 k).toNat = 2 ^ k * x.toNat := by
  rw [BitVec.toNat_mul, BitVec.toNat_twoPow, Nat.mod_eq_of_lt (Nat.pow_lt_pow_right (by omega) hk), Nat.mod_eq_of_lt hx,
    Nat.mul_comm]

/-! ### Triangles and lines -/

theorem size_line {l : Nat} (hl : l ≤ Cls.tri.maxLevel) : 2 ^ (Dline.maxLevel - l) = 2 * size .tri l := by
  rw [size, ← Nat.pow_succ']
  congr 1
  simp only [Dline.maxLevel, Cls.maxLevel] at *
  omega

/-- The faces of the triangles of type 0. -/
theorem mem_face_tri {e : Elem 2} (ht : e.type = 0) {g : Nat} (hg : g < 3) {p : Fin 2 → Nat} : p ∈ Face .tri e g ↔
    ((e.x (0 : Fin 2)).toNat ≤ p 0 ∧ p 0 ≤ (e.x (0 : Fin 2)).toNat + size .tri e.level) ∧
    ((e.x (1 : Fin 2)).toNat ≤ p 1 ∧ p 1 ≤ (e.x (1 : Fin 2)).toNat + size .tri e.level) ∧
    p 1 + (e.x (0 : Fin 2)).toNat ≤ p 0 + (e.x (1 : Fin 2)).toNat ∧
    (g = 0 → p 0 = (e.x (0 : Fin 2)).toNat + size .tri e.level) ∧
    (g = 2 → p 1 = (e.x (1 : Fin 2)).toNat) ∧
    (g = 1 → p 0 + (e.x (1 : Fin 2)).toNat = p 1 + (e.x (0 : Fin 2)).toNat) := by
  have hd : Cls.tri.dim = 2 := rfl
  have fa : ∀ P : Fin Cls.tri.dim → Prop, (∀ i, P i) ↔ P (0 : Fin 2) ∧ P (1 : Fin 2) := by
    intro P; exact Fin.forall_fin_two
  simp only [Face, Points, Set.mem_setOf_eq, fa, ht, hd]
  interval_cases g <;> simp [rank, axes, List.idxOf_cons] <;> omega

theorem tri_extrude_boundary {e : Elem 2} (he : Valid .tri e) {f g : Nat} (hf : f < 3) (hg : g < 3)
    (hb : Face .tri e f ⊆ Face .tri (root .tri) g) :
    Dline.Valid (boundaryFaceTri e f) ∧ (boundaryFaceTri e f).level = e.level ∧
    extrudeFaceTri (boundaryFaceTri e f) g = (e, some f) ∧
    ∀ p ∈ Face .tri (root .tri) g, (p ∈ Face .tri e f ↔ faceMapTri g p ∈ Dline.Points (boundaryFaceTri e f)) := by
  have ha := he.aligned
  obtain ⟨h1, h2⟩ := (face_root_tri he hf hg).1 hb
  obtain rfl : g = f := by simpa [treeFace] using h2
  obtain ⟨ht, h3⟩ := (boundary_tri he hf).1 h1
  have hl : e.level ≤ Cls.tri.maxLevel := ha.1.1
  have hM : 2 ^ Cls.tri.maxLevel = 536870912 := by decide
  have hML : 2 ^ Dline.maxLevel = 1073741824 := by decide
  have hp := size_pos .tri e.level
  have hsl := size_line hl
  have m0 := x_add_le ha (0 : Fin 2)
  have m1 := x_add_le ha (1 : Fin 2)
  have hr : Dline.maxLevel - Cls.tri.maxLevel = 1 := by decide
  have v0 : (e.x (0 : Fin 2) * BitVec.twoPow 32 1).toNat = 2 ^ 1 * (e.x (0 : Fin 2)).toNat := mul_ratio (by omega) (by omega)
  have v1 : (e.x (1 : Fin 2) * BitVec.twoPow 32 1).toNat = 2 ^ 1 * (e.x (1 : Fin 2)).toNat := mul_ratio (by omega) (by omega)
  have hx : boundaryFaceTri e g = ⟨e.x (if g = 0 then (1 : Fin 2) else (0 : Fin 2)) * BitVec.twoPow 32 1, e.level⟩ := by
    simp only [boundaryFaceTri, ht, hr]
    interval_cases g <;> rfl
  have hs : ∀ i : Fin 2, (rescale Cls.tri.maxLevel Dline.maxLevel (e.x i * BitVec.twoPow 32 1)).toNat = (e.x i).toNat := by
    intro i
    have hm := x_add_le ha (i : Fin 2)
    have hv : (e.x i * BitVec.twoPow 32 1).toNat = 2 ^ 1 * (e.x i).toNat := mul_ratio (by omega) (by omega)
    rw [rescale_toNat (by decide) (by decide) (by rw [hv]; omega), hv, hr]
    omega
  have hsub := sub_len_toNat (c := .tri) e.level
  refine ⟨?_, ?_, ?_, ?_⟩
  · rw [hx]
    refine ⟨by show e.level ≤ 30; exact hl.trans (by decide), ?_, ?_⟩
    · show (e.x _ * _).toNat < _
      split
      · rw [v1, hML]; omega
      · rw [v0, hML]; omega
    · show 2 ^ (Dline.maxLevel - e.level) ∣ (e.x _ * _).toNat
      rw [hsl]
      split
      · rw [v1]; exact Nat.mul_dvd_mul_left 2 (x_dvd ha (1 : Fin 2))
      · rw [v0]; exact Nat.mul_dvd_mul_left 2 (x_dvd ha (0 : Fin 2))
  · rw [hx]
  · have key : (extrudeFaceTri (boundaryFaceTri e g) g).1 = e := by
      have h2' : ∀ i : Fin 2, i = 0 ∨ i = 1 := by decide
      rw [hx]
      refine elem_ext (c := .tri) ?_ ?_ fun i => ?_
      · simp only [extrudeFaceTri]; split_ifs <;> rfl
      · simp only [extrudeFaceTri]; rw [ht]; split_ifs <;> rfl
      · simp only [extrudeFaceTri]
        change _ ∧ (e.x (0 : Fin 2)).toNat + _ = _ ∨ _ ∧ (e.x (0 : Fin 2)).toNat = (e.x (1 : Fin 2)).toNat ∨
          _ ∧ (e.x (1 : Fin 2)).toNat = 0 at h3
        have hi := h2' i
        interval_cases g
        · rcases hi with rfl | rfl
          · show (rootLen .tri - len .tri e.level).toNat = (e.x (0 : Fin 2)).toNat
            rw [hsub]; omega
          · exact hs 1
        · rcases hi with rfl | rfl
          · exact hs 0
          · show (rescale _ _ (e.x (0 : Fin 2) * _)).toNat = (e.x (1 : Fin 2)).toNat
            rw [hs]; omega
        · rcases hi with rfl | rfl
          · exact hs 0
          · show (0 : BitVec 32).toNat = (e.x (1 : Fin 2)).toNat
            show 0 = _
            omega
    have k2 : (extrudeFaceTri (boundaryFaceTri e g) g).2 = some g := by
      have : (extrudeFaceTri (boundaryFaceTri e g) g).2 = rootFaceToFace .tri (extrudeFaceTri (boundaryFaceTri e g) g).1 g := rfl
      rw [this, key]
      simp only [rootFaceToFace]
      rw [ht]; rfl
    exact Prod.ext key k2
  · intro p hp
    rw [mem_face_root_tri hg] at hp
    have hbp : faceMapTri g p ∈ Dline.Points (boundaryFaceTri e g) ↔
        (e.x (if g = 0 then (1 : Fin 2) else (0 : Fin 2))).toNat ≤ (if g = 0 then p 1 else p 0) ∧
        (if g = 0 then p 1 else p 0) ≤ (e.x (if g = 0 then (1 : Fin 2) else (0 : Fin 2))).toNat + size .tri e.level := by
      rw [hx]
      show (e.x _ * _).toNat ≤ _ ∧ _ ≤ (e.x _ * _).toNat + 2 ^ (Dline.maxLevel - e.level) ↔ _
      rw [hsl, faceMapTri]
      split
      · rw [v1]; omega
      · rw [v0]; omega
    rw [hbp]
    change _ ∧ (e.x (0 : Fin 2)).toNat + _ = _ ∨ _ ∧ (e.x (0 : Fin 2)).toNat = (e.x (1 : Fin 2)).toNat ∨
          _ ∧ (e.x (1 : Fin 2)).toNat = 0 at h3
    rw [mem_face_tri ht hf]
    interval_cases g <;> simp at * <;> omega

theorem tri_boundary_extrude {b : Dline.Line} (hb : Dline.Valid b) (hl : b.level ≤ Cls.tri.maxLevel) {g : Nat} (hg : g < 3) :
    ∃ e, extrudeFaceTri b g = (e, some g) ∧ Valid .tri e ∧ e.level = b.level ∧
      Face .tri e g ⊆ Face .tri (root .tri) g ∧ boundaryFaceTri e g = b := by
  have hM : 2 ^ Cls.tri.maxLevel = 536870912 := by decide
  have hML : 2 ^ Dline.maxLevel = 1073741824 := by decide
  have hr : Dline.maxLevel - Cls.tri.maxLevel = 1 := by decide
  have hp := size_pos .tri b.level
  have hsl := size_line hl
  have hx := hb.2.1
  have hd : 2 * size .tri b.level ∣ b.x.toNat := hsl ▸ hb.2.2
  rw [hML] at hx
  have hs : (rescale Cls.tri.maxLevel Dline.maxLevel b.x).toNat = b.x.toNat / 2 := by
    rw [rescale_toNat (by decide) (by decide) (by omega), hr]; rfl
  have hev : 2 ∣ b.x.toNat := (Nat.dvd_mul_right 2 _).trans hd
  have hds : size .tri b.level ∣ b.x.toNat / 2 := by
    obtain ⟨k, hk⟩ := hd
    exact ⟨k, by rw [hk, Nat.mul_assoc, Nat.mul_div_cancel_left _ (by omega)]⟩
  have hdR := size_dvd .tri b.level
  have hsR : b.x.toNat / 2 + size .tri b.level ≤ 2 ^ Cls.tri.maxLevel := add_le_of_dvd hds hdR (by rw [hM]; omega)
  have hsub := sub_len_toNat (c := .tri) b.level
  have hback : rescale Cls.tri.maxLevel Dline.maxLevel b.x * BitVec.twoPow 32 1 = b.x := by
    apply BitVec.eq_of_toNat_eq
    rw [mul_ratio (by omega) (by rw [hs]; omega), hs]
    omega
  have h2' : ∀ i : Fin 2, i = 0 ∨ i = 1 := by decide
  have main : ∀ e : Elem 2, e.level = b.level → e.type = 0 → (e.x (0 : Fin 2)).toNat < 2 ^ Cls.tri.maxLevel →
      (e.x (1 : Fin 2)).toNat ≤ (e.x (0 : Fin 2)).toNat →
      size .tri b.level ∣ (e.x (0 : Fin 2)).toNat → size .tri b.level ∣ (e.x (1 : Fin 2)).toNat →
      ((g = 0 ∧ (e.x 0).toNat + size .tri e.level = 2 ^ Cls.tri.maxLevel) ∨
      (g = 1 ∧ (e.x 0).toNat = (e.x 1).toNat) ∨ (g = 2 ∧ (e.x 1).toNat = 0)) →
      Valid .tri e ∧ Face .tri e g ⊆ Face .tri (root .tri) g := by
    intro e e1 e2 e3 e4 e5 e6 e7
    have hv : Valid .tri e := by
      refine valid_iff.2 ⟨⟨⟨by show e.level ≤ _; rw [e1]; exact hl, fun i => ?_⟩, by show e.type < 2; omega⟩, ?_⟩
      · show (e.x i).toNat < _ ∧ size .tri e.level ∣ (e.x i).toNat
        rw [e1]
        rcases h2' i with rfl | rfl
        · exact ⟨e3, e5⟩
        · exact ⟨lt_of_le_of_lt e4 e3, e6⟩
      · rw [inside_tri (by omega)]
        have : (e.x 1).toNat ≤ (e.x 0).toNat := e4
        omega
    exact ⟨hv, (face_root_tri hv hg hg).2 ⟨(boundary_tri hv hg).2 ⟨e2, e7⟩, rfl⟩⟩
  interval_cases g
  · refine ⟨(extrudeFaceTri b 0).1, rfl, ?_⟩
    have y0 : ((extrudeFaceTri b 0).1.x (0 : Fin 2)).toNat = 2 ^ Cls.tri.maxLevel - size .tri b.level := hsub
    have y1 : ((extrudeFaceTri b 0).1.x (1 : Fin 2)).toNat = b.x.toNat / 2 := hs
    have hlev : (extrudeFaceTri b 0).1.level = b.level := rfl
    have y2 : ((extrudeFaceTri b 0).1.x (0 : Fin 2)).toNat + size .tri (extrudeFaceTri b 0).1.level = 2 ^ Cls.tri.maxLevel := by
      rw [hlev, y0]; omega
    obtain ⟨a, f⟩ := main (extrudeFaceTri b 0).1 rfl rfl (by rw [y0]; omega) (by rw [y0, y1]; omega)
      (by rw [y0]; exact Nat.dvd_sub hdR (Nat.dvd_refl _)) (by rw [y1]; exact hds)
      (Or.inl ⟨rfl, y2⟩)
    refine ⟨a, rfl, f, ?_⟩
    show (⟨rescale Cls.tri.maxLevel Dline.maxLevel b.x * BitVec.twoPow 32 1, b.level⟩ : Dline.Line) = b
    rw [hback]
  · refine ⟨(extrudeFaceTri b 1).1, rfl, ?_⟩
    have y0 : ((extrudeFaceTri b 1).1.x (0 : Fin 2)).toNat = b.x.toNat / 2 := hs
    have y1 : ((extrudeFaceTri b 1).1.x (1 : Fin 2)).toNat = b.x.toNat / 2 := hs
    obtain ⟨a, f⟩ := main (extrudeFaceTri b 1).1 rfl rfl (by rw [y0]; omega) (by rw [y0, y1])
      (by rw [y0]; exact hds) (by rw [y1]; exact hds) (Or.inr (Or.inl ⟨rfl, rfl⟩))
    refine ⟨a, rfl, f, ?_⟩
    show (⟨rescale Cls.tri.maxLevel Dline.maxLevel b.x * BitVec.twoPow 32 1, b.level⟩ : Dline.Line) = b
    rw [hback]
  · refine ⟨(extrudeFaceTri b 2).1, rfl, ?_⟩
    have y0 : ((extrudeFaceTri b 2).1.x (0 : Fin 2)).toNat = b.x.toNat / 2 := hs
    have y1 : ((extrudeFaceTri b 2).1.x (1 : Fin 2)).toNat = 0 := rfl
    obtain ⟨a, f⟩ := main (extrudeFaceTri b 2).1 rfl rfl (by rw [y0]; omega) (by rw [y0, y1]; omega)
      (by rw [y0]; exact hds) (by rw [y1]; exact Nat.dvd_zero _) (Or.inr (Or.inr ⟨rfl, rfl⟩))
    refine ⟨a, rfl, f, ?_⟩
    show (⟨rescale Cls.tri.maxLevel Dline.maxLevel b.x * BitVec.twoPow 32 1, b.level⟩ : Dline.Line) = b
    rw [hback]

/-! ### Tetrahedra and triangles -/

theorem size_tri {l : Nat} (hl : l ≤ Cls.tet.maxLevel) : size .tri l = 2 ^ 8 * size .tet l := by
  rw [size, size, ← Nat.pow_add]
  congr 1
  simp only [Cls.maxLevel] at *
  omega

/-- The types and faces at the boundary: the face of the root, and the two axes that the boundary triangle keeps. -/
theorem boundary_cases {e : Elem 3} (he : Valid .tet e) {f g : Nat} (hf : f < 4) (hg : g < 4)
    (hb : Face .tet e f ⊆ Face .tet (root .tet) g) :
    (e.type = 0 ∧ f = g ∨ e.type = 1 ∧ f = 0 ∧ g = 0 ∨ e.type = 2 ∧ f = 2 ∧ g = 1 ∨ e.type = 4 ∧ f = 1 ∧ g = 2 ∨
      e.type = 5 ∧ f = 3 ∧ g = 3) ∧
    ((g = 0 ∧ (e.x (0 : Fin 3)).toNat + size .tet e.level = 2 ^ Cls.tet.maxLevel) ∨
      (g = 1 ∧ (e.x (0 : Fin 3)).toNat = (e.x (2 : Fin 3)).toNat) ∨
      (g = 2 ∧ (e.x (1 : Fin 3)).toNat = (e.x (2 : Fin 3)).toNat) ∨ (g = 3 ∧ (e.x (1 : Fin 3)).toNat = 0)) := by
  obtain ⟨h1, h2⟩ := (face_root_tet he hf hg).1 hb
  have h3 := (boundary_tet he hf).1 h1
  have ht : e.type < 6 := he.aligned.2
  simp only [treeFace] at h2
  change (_ ∧ _ ∧ (e.x (0 : Fin 3)).toNat + _ = _) ∨ (_ ∧ (e.x (0 : Fin 3)).toNat = (e.x (2 : Fin 3)).toNat) ∨
      (_ ∧ (e.x (1 : Fin 3)).toNat = (e.x (2 : Fin 3)).toNat) ∨ (_ ∧ _ ∧ (e.x (1 : Fin 3)).toNat = 0) at h3
  generalize 2 ^ Cls.tet.maxLevel = M at *
  generalize size .tet e.level = h at *
  rcases h3 with ⟨a, rfl, b⟩ | ⟨⟨a, rfl⟩ | ⟨a, rfl⟩, b⟩ | ⟨⟨a, rfl⟩ | ⟨a, rfl⟩, b⟩ | ⟨a, rfl, b⟩
  · rcases a with a | a <;> simp [a] at h2 ⊢ <;> omega
  all_goals first | (simp [a] at h2 ⊢; omega) | (rcases a with a | a <;> simp [a] at h2 ⊢ <;> omega)

theorem mem_points_tri {e : Elem 2} (ht : e.type < 2) {p : Fin 2 → Nat} : p ∈ Points .tri e ↔
    ((e.x (0 : Fin 2)).toNat ≤ p 0 ∧ p 0 ≤ (e.x (0 : Fin 2)).toNat + size .tri e.level) ∧
    ((e.x (1 : Fin 2)).toNat ≤ p 1 ∧ p 1 ≤ (e.x (1 : Fin 2)).toNat + size .tri e.level) ∧
    (e.type = 0 → p 1 + (e.x (0 : Fin 2)).toNat ≤ p 0 + (e.x (1 : Fin 2)).toNat) ∧
    (e.type = 1 → p 0 + (e.x (1 : Fin 2)).toNat ≤ p 1 + (e.x (0 : Fin 2)).toNat) := by
  have hd : Cls.tri.dim = 2 := rfl
  have fa : ∀ P : Fin Cls.tri.dim → Prop, (∀ i, P i) ↔ P (0 : Fin 2) ∧ P (1 : Fin 2) := by
    intro P; exact Fin.forall_fin_two
  simp only [Points, Set.mem_setOf_eq, fa]
  generalize e.type = t at *
  interval_cases t <;> simp [rank, axes, List.idxOf_cons] <;> omega

/-- The faces of the root of tetrahedra that lie in the faces of elements. -/
theorem mem_face_tet {e : Elem 3} {f g : Nat} (hg : g < 4)
    (h : e.type = 0 ∧ f = g ∨ e.type = 1 ∧ f = 0 ∧ g = 0 ∨ e.type = 2 ∧ f = 2 ∧ g = 1 ∨ e.type = 4 ∧ f = 1 ∧ g = 2 ∨
      e.type = 5 ∧ f = 3 ∧ g = 3) {p : Fin 3 → Nat} : p ∈ Face .tet e f ↔
    ((e.x (0 : Fin 3)).toNat ≤ p 0 ∧ p 0 ≤ (e.x (0 : Fin 3)).toNat + size .tet e.level) ∧
    ((e.x (1 : Fin 3)).toNat ≤ p 1 ∧ p 1 ≤ (e.x (1 : Fin 3)).toNat + size .tet e.level) ∧
    ((e.x (2 : Fin 3)).toNat ≤ p 2 ∧ p 2 ≤ (e.x (2 : Fin 3)).toNat + size .tet e.level) ∧
    (e.type = 0 ∨ e.type = 1 ∨ e.type = 5 → p 1 + (e.x (0 : Fin 3)).toNat ≤ p 0 + (e.x (1 : Fin 3)).toNat) ∧
    (e.type = 2 ∨ e.type = 4 → p 0 + (e.x (1 : Fin 3)).toNat ≤ p 1 + (e.x (0 : Fin 3)).toNat) ∧
    (e.type < 3 → p 2 + (e.x (0 : Fin 3)).toNat ≤ p 0 + (e.x (2 : Fin 3)).toNat) ∧
    (4 ≤ e.type → p 0 + (e.x (2 : Fin 3)).toNat ≤ p 2 + (e.x (0 : Fin 3)).toNat) ∧
    (e.type = 0 ∨ e.type = 4 ∨ e.type = 5 → p 1 + (e.x (2 : Fin 3)).toNat ≤ p 2 + (e.x (1 : Fin 3)).toNat) ∧
    (e.type = 1 ∨ e.type = 2 → p 2 + (e.x (1 : Fin 3)).toNat ≤ p 1 + (e.x (2 : Fin 3)).toNat) ∧
    (g = 0 → p 0 = (e.x (0 : Fin 3)).toNat + size .tet e.level) ∧
    (g = 1 → p 0 + (e.x (2 : Fin 3)).toNat = p 2 + (e.x (0 : Fin 3)).toNat) ∧
    (g = 2 → p 1 + (e.x (2 : Fin 3)).toNat = p 2 + (e.x (1 : Fin 3)).toNat) ∧
    (g = 3 → p 1 = (e.x (1 : Fin 3)).toNat) := by
  have hd : Cls.tet.dim = 3 := rfl
  have fa : ∀ P : Fin Cls.tet.dim → Prop, (∀ i, P i) ↔ P (0 : Fin 3) ∧ P (1 : Fin 3) ∧ P (2 : Fin 3) := by
    intro P
    refine ⟨fun h => ⟨h _, h _, h _⟩, fun h i => ?_⟩
    have : ∀ i : Fin 3, i = 0 ∨ i = 1 ∨ i = 2 := by decide
    rcases this i with rfl | rfl | rfl
    exacts [h.1, h.2.1, h.2.2]
  simp only [Face, Points, Set.mem_setOf_eq, fa]
  rcases h with ⟨h, rfl⟩ | ⟨h, rfl, rfl⟩ | ⟨h, rfl, rfl⟩ | ⟨h, rfl, rfl⟩ | ⟨h, rfl, rfl⟩
  · interval_cases f <;> simp [h, hd, rank, axes, List.idxOf_cons] <;> omega
  all_goals simp [h, hd, rank, axes, List.idxOf_cons] <;> omega

/-- The boundary triangle. -/
def bdTet (e : Elem 3) (g : Nat) : Elem 2 :=
  ⟨fun i => (if i.val = 0 then (if g ≤ 1 then e.x (2 : Fin 3) else e.x (0 : Fin 3))
    else (if g ≤ 1 then e.x (1 : Fin 3) else e.x (2 : Fin 3))) * BitVec.twoPow 32 8, e.level, if e.type = 0 then 0 else 1⟩

theorem boundaryFaceTet_eq {e : Elem 3} {f g : Nat} (hg : g < 4)
    (h : e.type = 0 ∧ f = g ∨ e.type = 1 ∧ f = 0 ∧ g = 0 ∨ e.type = 2 ∧ f = 2 ∧ g = 1 ∨ e.type = 4 ∧ f = 1 ∧ g = 2 ∨
      e.type = 5 ∧ f = 3 ∧ g = 3) : boundaryFaceTet e f = some (bdTet e g) := by
  have hr : Cls.tri.maxLevel - Cls.tet.maxLevel = 8 := by decide
  simp only [boundaryFaceTet, bdTet, hr]
  rcases h with ⟨h, rfl⟩ | ⟨h, rfl, rfl⟩ | ⟨h, rfl, rfl⟩ | ⟨h, rfl, rfl⟩ | ⟨h, rfl, rfl⟩
  · interval_cases f <;> rw [h] <;> rfl
  all_goals rw [h]; rfl

theorem tet_extrude_boundary {e : Elem 3} (he : Valid .tet e) {f g : Nat} (hf : f < 4) (hg : g < 4)
    (hb : Face .tet e f ⊆ Face .tet (root .tet) g) :
    ∃ b, boundaryFaceTet e f = some b ∧ Valid .tri b ∧ b.level = e.level ∧ extrudeFaceTet b g = (e, some f) ∧
    ∀ p ∈ Face .tet (root .tet) g, (p ∈ Face .tet e f ↔ faceMapTet g p ∈ Points .tri b) := by
  have ha := he.aligned
  obtain ⟨h1, h2⟩ := boundary_cases he hf hg hb
  have hi := (inside_tet ha.2).1 (valid_iff.1 he).2
  change ((e.x (2 : Fin 3)).toNat < (e.x (0 : Fin 3)).toNat ∨ ((e.x (2 : Fin 3)).toNat = (e.x (0 : Fin 3)).toNat ∧ _)) ∧
      ((e.x (1 : Fin 3)).toNat < (e.x (2 : Fin 3)).toNat ∨ ((e.x (1 : Fin 3)).toNat = (e.x (2 : Fin 3)).toNat ∧ _)) ∧
      ((e.x (1 : Fin 3)).toNat < (e.x (0 : Fin 3)).toNat ∨ ((e.x (1 : Fin 3)).toNat = (e.x (0 : Fin 3)).toNat ∧ _)) at hi
  have hl : e.level ≤ Cls.tet.maxLevel := ha.1.1
  have hM : 2 ^ Cls.tet.maxLevel = 2097152 := by decide
  have hMT : 2 ^ Cls.tri.maxLevel = 536870912 := by decide
  have hp := size_pos .tet e.level
  have hst := size_tri hl
  have hr : Cls.tri.maxLevel - Cls.tet.maxLevel = 8 := by decide
  have hxl : ∀ i : Fin 3, (e.x i).toNat + size .tet e.level ≤ 2 ^ Cls.tet.maxLevel := fun i => x_add_le ha i
  have hv : ∀ i : Fin 3, (e.x i * BitVec.twoPow 32 8).toNat = 2 ^ 8 * (e.x i).toNat := by
    intro i
    have hm := hxl i
    exact mul_ratio (by omega) (by omega)
  have hs : ∀ i : Fin 3, (rescale Cls.tet.maxLevel Cls.tri.maxLevel (e.x i * BitVec.twoPow 32 8)).toNat = (e.x i).toNat := by
    intro i
    have hm := hxl i
    rw [rescale_toNat (by decide) (by decide) (by rw [hv]; omega), hv, hr]
    omega
  have hsub := sub_len_toNat (c := .tet) e.level
  have hlev : (bdTet e g).level = e.level := rfl
  have hty : (bdTet e g).type = if e.type = 0 then 0 else 1 := rfl
  have hb0 : ((bdTet e g).x (0 : Fin 2)).toNat = 2 ^ 8 * (e.x (if g ≤ 1 then (2 : Fin 3) else (0 : Fin 3))).toNat := by
    show ((if g ≤ 1 then e.x (2 : Fin 3) else e.x (0 : Fin 3)) * _).toNat = _
    split <;> exact hv _
  have hb1 : ((bdTet e g).x (1 : Fin 2)).toNat = 2 ^ 8 * (e.x (if g ≤ 1 then (1 : Fin 3) else (2 : Fin 3))).toNat := by
    show ((if g ≤ 1 then e.x (1 : Fin 3) else e.x (2 : Fin 3)) * _).toNat = _
    split <;> exact hv _
  have htb : (bdTet e g).type < 2 := by rw [hty]; split <;> omega
  refine ⟨bdTet e g, boundaryFaceTet_eq hg h1, ?_, rfl, ?_, ?_⟩
  · refine valid_iff.2 ⟨⟨⟨hl.trans (by decide), fun i => ?_⟩, htb⟩, ?_⟩
    · show ((bdTet e g).x i).toNat < _ ∧ size .tri e.level ∣ ((bdTet e g).x i).toNat
      have h2' : ∀ i : Fin 2, i = 0 ∨ i = 1 := by decide
      rw [hst, hMT]
      rcases h2' i with rfl | rfl
      · rw [hb0]
        have := hxl (if g ≤ 1 then (2 : Fin 3) else (0 : Fin 3))
        exact ⟨by omega, Nat.mul_dvd_mul_left _ (x_dvd ha _)⟩
      · rw [hb1]
        have := hxl (if g ≤ 1 then (1 : Fin 3) else (2 : Fin 3))
        exact ⟨by omega, Nat.mul_dvd_mul_left _ (x_dvd ha _)⟩
    · rw [inside_tri htb]
      change ((bdTet e g).x (1 : Fin 2)).toNat < ((bdTet e g).x (0 : Fin 2)).toNat ∨
        ((bdTet e g).x (1 : Fin 2)).toNat = ((bdTet e g).x (0 : Fin 2)).toNat ∧ _
      rw [hb0, hb1, hty]
      have g4 : g = 0 ∨ g = 1 ∨ g = 2 ∨ g = 3 := by omega
      rcases g4 with rfl | rfl | rfl | rfl <;> simp <;> omega
  · have key : (extrudeFaceTet (bdTet e g) g).1 = e := by
      have h3' : ∀ i : Fin 3, i = 0 ∨ i = 1 ∨ i = 2 := by decide
      refine elem_ext (c := .tet) ?_ ?_ fun i => ?_
      · simp only [extrudeFaceTet]; split_ifs <;> rfl
      · simp only [extrudeFaceTet, hty]
        split_ifs <;> simp_all <;> omega
      · have hi3 := h3' i
        interval_cases g
        · rcases hi3 with rfl | rfl | rfl
          · show (rootLen .tet - len .tet e.level).toNat = (e.x (0 : Fin 3)).toNat
            rw [hsub]; omega
          · exact hs 1
          · exact hs 2
        · rcases hi3 with rfl | rfl | rfl
          · show (rescale _ _ (e.x (2 : Fin 3) * _)).toNat = (e.x (0 : Fin 3)).toNat
            rw [hs]; omega
          · exact hs 1
          · exact hs 2
        · rcases hi3 with rfl | rfl | rfl
          · exact hs 0
          · show (rescale _ _ (e.x (2 : Fin 3) * _)).toNat = (e.x (1 : Fin 3)).toNat
            rw [hs]; omega
          · exact hs 2
        · rcases hi3 with rfl | rfl | rfl
          · exact hs 0
          · show 0 = (e.x (1 : Fin 3)).toNat
            omega
          · exact hs 2
    have k2 : (extrudeFaceTet (bdTet e g) g).2 = some f := by
      have : (extrudeFaceTet (bdTet e g) g).2 = rootFaceToFace .tet (extrudeFaceTet (bdTet e g) g).1 g := rfl
      rw [this, key]
      simp only [rootFaceToFace]
      rcases h1 with ⟨h, rfl⟩ | ⟨h, rfl, rfl⟩ | ⟨h, rfl, rfl⟩ | ⟨h, rfl, rfl⟩ | ⟨h, rfl, rfl⟩ <;> rw [h] <;> rfl
    exact Prod.ext key k2
  · intro p hpr
    rw [mem_face_root_tet hg] at hpr
    rw [mem_face_tet hg h1, mem_points_tri htb, hb0, hb1, hlev, hst]
    simp only [faceMapTet, hty]
    have m0 := hxl 0
    have m1 := hxl 1
    have m2 := hxl 2
    clear hs hv hxl hsub hst hlev hty hb0 hb1 htb he ha hb hr hMT
    generalize 2 ^ Cls.tet.maxLevel = M at *
    generalize size .tet e.level = h at *
    rcases h1 with ⟨ht, rfl⟩ | ⟨ht, rfl, rfl⟩ | ⟨ht, rfl, rfl⟩ | ⟨ht, rfl, rfl⟩ | ⟨ht, rfl, rfl⟩
    · interval_cases f <;> simp [ht] at * <;> omega
    all_goals simp [ht] at * <;> omega

set_option maxHeartbeats 2000000 in
theorem tet_boundary_extrude {b : Elem 2} (hb : Valid .tri b) (hl : b.level ≤ Cls.tet.maxLevel) {g : Nat} (hg : g < 4) :
    ∃ e f, extrudeFaceTet b g = (e, some f) ∧ f < 4 ∧ Valid .tet e ∧ e.level = b.level ∧
      Face .tet e f ⊆ Face .tet (root .tet) g ∧ boundaryFaceTet e f = some b := by
  have hba := hb.aligned
  have hM : 2 ^ Cls.tet.maxLevel = 2097152 := by decide
  have hMT : 2 ^ Cls.tri.maxLevel = 536870912 := by decide
  have hr : Cls.tri.maxLevel - Cls.tet.maxLevel = 8 := by decide
  have hp := size_pos .tet b.level
  have hst := size_tri hl
  have htb : b.type < 2 := hba.2
  have hin := (inside_tri htb).1 (valid_iff.1 hb).2
  change (b.x (1 : Fin 2)).toNat < (b.x (0 : Fin 2)).toNat ∨ (b.x (1 : Fin 2)).toNat = (b.x (0 : Fin 2)).toNat ∧ _ at hin
  have hev : ∀ i : Fin 2, 2 ^ 8 ∣ (b.x i).toNat := fun i => (Nat.dvd_mul_right (2 ^ 8) _).trans (hst ▸ x_dvd hba i)
  have hxl : ∀ i : Fin 2, (b.x i).toNat < 2 ^ Cls.tri.maxLevel := fun i => x_lt hba i
  have hs : ∀ i : Fin 2, (rescale Cls.tet.maxLevel Cls.tri.maxLevel (b.x i)).toNat = (b.x i).toNat / 2 ^ 8 := by
    intro i
    have := hxl i
    rw [rescale_toNat (by decide) (by decide) (by omega), hr]
  have hds : ∀ i : Fin 2, size .tet b.level ∣ (b.x i).toNat / 2 ^ 8 := by
    intro i
    have := x_dvd hba i
    rw [hst] at this
    obtain ⟨k, hk⟩ := this
    exact ⟨k, by rw [hk, Nat.mul_assoc, Nat.mul_div_cancel_left _ (by omega)]⟩
  have hdR := size_dvd .tet b.level
  have hsR : ∀ i : Fin 2, (b.x i).toNat / 2 ^ 8 + size .tet b.level ≤ 2 ^ Cls.tet.maxLevel := by
    intro i
    have := hxl i
    exact add_le_of_dvd (hds i) hdR (by rw [hM]; omega)
  have hsub := sub_len_toNat (c := .tet) b.level
  have hback : ∀ i : Fin 2, rescale Cls.tet.maxLevel Cls.tri.maxLevel (b.x i) * BitVec.twoPow 32 8 = b.x i := by
    intro i
    have := hxl i
    have := hev i
    apply BitVec.eq_of_toNat_eq
    rw [mul_ratio (by omega) (by rw [hs]; omega), hs]
    omega
  have h2' : ∀ i : Fin 2, i = 0 ∨ i = 1 := by decide
  have h3' : ∀ i : Fin 3, i = 0 ∨ i = 1 ∨ i = 2 := by decide
  -- the order of the coordinates
  have ho : (b.x (1 : Fin 2)).toNat / 2 ^ 8 + size .tet b.level ≤ (b.x (0 : Fin 2)).toNat / 2 ^ 8 ∨
      ((b.x (1 : Fin 2)).toNat / 2 ^ 8 = (b.x (0 : Fin 2)).toNat / 2 ^ 8 ∧ b.type = 0) := by
    have e0 := hev 0
    have e1 := hev 1
    rcases hin with h | ⟨h, ht⟩
    · exact Or.inl (add_le_of_dvd (hds 1) (hds 0) (by omega))
    · exact Or.inr ⟨by rw [h], ht⟩
  have main : ∀ (e : Elem 3) (f : Nat), f < 4 → e.level = b.level →
      (e.type = 0 ∧ f = g ∨ e.type = 1 ∧ f = 0 ∧ g = 0 ∨ e.type = 2 ∧ f = 2 ∧ g = 1 ∨ e.type = 4 ∧ f = 1 ∧ g = 2 ∨
        e.type = 5 ∧ f = 3 ∧ g = 3) →
      e.type = 0 ∧ b.type = 0 ∨ e.type ≠ 0 ∧ b.type = 1 →
      (e.x (if g ≤ 1 then (2 : Fin 3) else (0 : Fin 3))).toNat = (b.x (0 : Fin 2)).toNat / 2 ^ 8 →
      (e.x (if g ≤ 1 then (1 : Fin 3) else (2 : Fin 3))).toNat = (b.x (1 : Fin 2)).toNat / 2 ^ 8 →
      ((g = 0 ∧ (e.x (0 : Fin 3)).toNat + size .tet b.level = 2 ^ Cls.tet.maxLevel) ∨
        (g = 1 ∧ (e.x (0 : Fin 3)).toNat = (e.x (2 : Fin 3)).toNat) ∨
        (g = 2 ∧ (e.x (1 : Fin 3)).toNat = (e.x (2 : Fin 3)).toNat) ∨ (g = 3 ∧ (e.x (1 : Fin 3)).toNat = 0)) →
      Valid .tet e ∧ Face .tet e f ⊆ Face .tet (root .tet) g ∧ bdTet e g = b := by
    intro e f hf e1 e2 e3 e4 e5 e6
    have s0 := hsR 0
    have s1 := hsR 1
    have d0 := hds 0
    have d1 := hds 1
    have hal : ∀ i : Fin 3, (e.x i).toNat + size .tet b.level ≤ 2 ^ Cls.tet.maxLevel ∧ size .tet b.level ∣ (e.x i).toNat := by
      intro i
      have g4 : g = 0 ∨ g = 1 ∨ g = 2 ∨ g = 3 := by omega
      rcases g4 with rfl | rfl | rfl | rfl
      · have e4 : (e.x (2 : Fin 3)).toNat = (b.x (0 : Fin 2)).toNat / 2 ^ 8 := e4
        have e5 : (e.x (1 : Fin 3)).toNat = (b.x (1 : Fin 2)).toNat / 2 ^ 8 := e5
        have e6 : (e.x (0 : Fin 3)).toNat = 2 ^ Cls.tet.maxLevel - size .tet b.level := by omega
        rcases h3' i with rfl | rfl | rfl
        · rw [e6]; exact ⟨by omega, Nat.dvd_sub hdR (Nat.dvd_refl _)⟩
        · rw [e5]; exact ⟨s1, d1⟩
        · rw [e4]; exact ⟨s0, d0⟩
      · have e4 : (e.x (2 : Fin 3)).toNat = (b.x (0 : Fin 2)).toNat / 2 ^ 8 := e4
        have e5 : (e.x (1 : Fin 3)).toNat = (b.x (1 : Fin 2)).toNat / 2 ^ 8 := e5
        have e6 : (e.x (0 : Fin 3)).toNat = (e.x (2 : Fin 3)).toNat := by omega
        rcases h3' i with rfl | rfl | rfl
        · rw [e6, e4]; exact ⟨s0, d0⟩
        · rw [e5]; exact ⟨s1, d1⟩
        · rw [e4]; exact ⟨s0, d0⟩
      · have e4 : (e.x (0 : Fin 3)).toNat = (b.x (0 : Fin 2)).toNat / 2 ^ 8 := e4
        have e5 : (e.x (2 : Fin 3)).toNat = (b.x (1 : Fin 2)).toNat / 2 ^ 8 := e5
        have e6 : (e.x (1 : Fin 3)).toNat = (e.x (2 : Fin 3)).toNat := by omega
        rcases h3' i with rfl | rfl | rfl
        · rw [e4]; exact ⟨s0, d0⟩
        · rw [e6, e5]; exact ⟨s1, d1⟩
        · rw [e5]; exact ⟨s1, d1⟩
      · have e4 : (e.x (0 : Fin 3)).toNat = (b.x (0 : Fin 2)).toNat / 2 ^ 8 := e4
        have e5 : (e.x (2 : Fin 3)).toNat = (b.x (1 : Fin 2)).toNat / 2 ^ 8 := e5
        have e6 : (e.x (1 : Fin 3)).toNat = 0 := by omega
        rcases h3' i with rfl | rfl | rfl
        · rw [e4]; exact ⟨s0, d0⟩
        · rw [e6]; exact ⟨by omega, Nat.dvd_zero _⟩
        · rw [e5]; exact ⟨s1, d1⟩
    have ht6 : e.type < 6 := by omega
    have a0 := hal 0
    have a1 := hal 1
    have a2 := hal 2
    have hv : Valid .tet e := by
      refine valid_iff.2 ⟨⟨⟨by show e.level ≤ _; rw [e1]; exact hl, fun i => ?_⟩, ht6⟩, ?_⟩
      · show (e.x i).toNat < _ ∧ size .tet e.level ∣ (e.x i).toNat
        have := hal i
        rw [e1]
        exact ⟨by omega, this.2⟩
      · rw [inside_tet ht6]
        change ((e.x (2 : Fin 3)).toNat < (e.x (0 : Fin 3)).toNat ∨ ((e.x (2 : Fin 3)).toNat = (e.x (0 : Fin 3)).toNat ∧ _)) ∧
          ((e.x (1 : Fin 3)).toNat < (e.x (2 : Fin 3)).toNat ∨ ((e.x (1 : Fin 3)).toNat = (e.x (2 : Fin 3)).toNat ∧ _)) ∧
          ((e.x (1 : Fin 3)).toNat < (e.x (0 : Fin 3)).toNat ∨ ((e.x (1 : Fin 3)).toNat = (e.x (0 : Fin 3)).toNat ∧ _))
        have a0' := a0.1
        have a1' := a1.1
        have a2' := a2.1
        clear * - a0' a1' a2' ho e2 e3 e4 e5 e6 hp hg ht6
        generalize (b.x (0 : Fin 2)).toNat / 2 ^ 8 = u at *
        generalize (b.x (1 : Fin 2)).toNat / 2 ^ 8 = v at *
        generalize 2 ^ Cls.tet.maxLevel = M at *
        generalize size .tet b.level = h at *
        have g4 : g = 0 ∨ g = 1 ∨ g = 2 ∨ g = 3 := by omega
        rcases g4 with rfl | rfl | rfl | rfl <;> simp at * <;> omega
    refine ⟨hv, (face_root_tet hv hf hg).2 ⟨(boundary_tet hv hf).2 ?_, ?_⟩, ?_⟩
    · change (_ ∧ _ ∧ (e.x (0 : Fin 3)).toNat + _ = _) ∨ (_ ∧ (e.x (0 : Fin 3)).toNat = (e.x (2 : Fin 3)).toNat) ∨
        (_ ∧ (e.x (1 : Fin 3)).toNat = (e.x (2 : Fin 3)).toNat) ∨ (_ ∧ _ ∧ (e.x (1 : Fin 3)).toNat = 0)
      rw [e1]
      clear * - e2 e6 hg hf
      omega
    · simp only [treeFace]
      rcases e2 with ⟨h, rfl⟩ | ⟨h, rfl, rfl⟩ | ⟨h, rfl, rfl⟩ | ⟨h, rfl, rfl⟩ | ⟨h, rfl, rfl⟩ <;> rw [h] <;> rfl
    · refine elem_ext (c := .tri) e1 ?_ fun i => ?_
      · show (if e.type = 0 then 0 else 1) = b.type
        split <;> omega
      · have hv8 : ∀ j : Fin 3, (e.x j * BitVec.twoPow 32 8).toNat = 2 ^ 8 * (e.x j).toNat := by
          intro j
          have := (hal j).1
          exact mul_ratio (by omega) (by omega)
        have v0 := hev 0
        have v1 := hev 1
        rcases h2' i with rfl | rfl
        · show ((if g ≤ 1 then e.x (2 : Fin 3) else e.x (0 : Fin 3)) * _).toNat = (b.x (0 : Fin 2)).toNat
          split at e4
          · rw [if_pos (by assumption), hv8, e4]; omega
          · rw [if_neg (by assumption), hv8, e4]; omega
        · show ((if g ≤ 1 then e.x (1 : Fin 3) else e.x (2 : Fin 3)) * _).toNat = (b.x (1 : Fin 2)).toNat
          split at e5
          · rw [if_pos (by assumption), hv8, e5]; omega
          · rw [if_neg (by assumption), hv8, e5]; omega
  have bt : b.type = 0 ∨ b.type = 1 := by omega
  have fin : ∀ f, f < 4 → (extrudeFaceTet b g).2 = some f →
      ((extrudeFaceTet b g).1.type = 0 ∧ f = g ∨ (extrudeFaceTet b g).1.type = 1 ∧ f = 0 ∧ g = 0 ∨
        (extrudeFaceTet b g).1.type = 2 ∧ f = 2 ∧ g = 1 ∨ (extrudeFaceTet b g).1.type = 4 ∧ f = 1 ∧ g = 2 ∨
        (extrudeFaceTet b g).1.type = 5 ∧ f = 3 ∧ g = 3) →
      (extrudeFaceTet b g).1.type = 0 ∧ b.type = 0 ∨ (extrudeFaceTet b g).1.type ≠ 0 ∧ b.type = 1 →
      ∃ e f, extrudeFaceTet b g = (e, some f) ∧ f < 4 ∧ Valid .tet e ∧ e.level = b.level ∧
      Face .tet e f ⊆ Face .tet (root .tet) g ∧ boundaryFaceTet e f = some b := by
    intro f hf h2 h3 h4
    have hlev : (extrudeFaceTet b g).1.level = b.level := by
      simp only [extrudeFaceTet]; split_ifs <;> rfl
    have s0 := hs 0
    have s1 := hs 1
    have hsR0 := hsR 0
    obtain ⟨v1, v2, v3⟩ := main (extrudeFaceTet b g).1 f hf hlev h3 h4
      (by
        have g4 : g = 0 ∨ g = 1 ∨ g = 2 ∨ g = 3 := by omega
        rcases g4 with rfl | rfl | rfl | rfl <;> exact s0)
      (by
        have g4 : g = 0 ∨ g = 1 ∨ g = 2 ∨ g = 3 := by omega
        rcases g4 with rfl | rfl | rfl | rfl <;> exact s1)
      (by
        have g4 : g = 0 ∨ g = 1 ∨ g = 2 ∨ g = 3 := by omega
        rcases g4 with rfl | rfl | rfl | rfl
        · refine Or.inl ⟨rfl, ?_⟩
          show (rootLen .tet - len .tet b.level).toNat + _ = _
          rw [hsub]; omega
        · exact Or.inr (Or.inl ⟨rfl, rfl⟩)
        · exact Or.inr (Or.inr (Or.inl ⟨rfl, rfl⟩))
        · exact Or.inr (Or.inr (Or.inr ⟨rfl, rfl⟩)))
    refine ⟨(extrudeFaceTet b g).1, f, Prod.ext rfl h2, hf, v1, hlev, v2, ?_⟩
    rw [boundaryFaceTet_eq hg h3, v3]
  rcases bt with h | h
  · refine fin g hg ?_ (Or.inl ⟨?_, rfl⟩) (Or.inl ⟨?_, h⟩)
    all_goals
      simp only [extrudeFaceTet, h]
      have g4 : g = 0 ∨ g = 1 ∨ g = 2 ∨ g = 3 := by omega
      rcases g4 with rfl | rfl | rfl | rfl <;> rfl
  · have g4 : g = 0 ∨ g = 1 ∨ g = 2 ∨ g = 3 := by omega
    rcases g4 with rfl | rfl | rfl | rfl
    · exact fin 0 (by omega) (by simp only [extrudeFaceTet, h]; rfl) (by simp [extrudeFaceTet, h]) (by simp [extrudeFaceTet, h])
    · exact fin 2 (by omega) (by simp only [extrudeFaceTet, h]; rfl) (by simp [extrudeFaceTet, h]) (by simp [extrudeFaceTet, h])
    · exact fin 1 (by omega) (by simp only [extrudeFaceTet, h]; rfl) (by simp [extrudeFaceTet, h]) (by simp [extrudeFaceTet, h])
    · exact fin 3 (by omega) (by simp only [extrudeFaceTet, h]; rfl) (by simp [extrudeFaceTet, h]) (by simp [extrudeFaceTet, h])

end T8.Simplex
