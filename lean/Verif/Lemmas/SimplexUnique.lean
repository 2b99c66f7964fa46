/-
Triangles and tetrahedra are determined by their points: descendants are the elements inside, and an element that
contains a face of another element of the same level is this element or its face neighbor.
-/
import Verif.Lemmas.SimplexBoundary

namespace T8.Simplex
open T8.RTree T8.Bits

variable {c : Cls}

theorem elem_ext {e y : Elem c.dim} (hl : e.level = y.level) (ht : e.type = y.type)
    (hx : ∀ i, (e.x i).toNat = (y.x i).toNat) : e = y := by
  refine Elem.ext' ?_ ht
  simp only [Elem.cube, Standalone.Elem.mk.injEq]
  exact ⟨funext fun i => BitVec.eq_of_toNat_eq (hx i), hl⟩

/-! ### Elements that contain a smaller element -/

theorem points_unique {x y z : Elem c.dim} (hx : x.type < c.numTypes) (hy : Aligned c y) (hz : Aligned c z)
    (hl : y.level = z.level) (h1 : Points c x ⊆ Points c y) (h2 : Points c x ⊆ Points c z) : y = z := by
  have hp := size_pos c x.level
  have a := (points_sub_iff hx y).1 h1
  have b := (points_sub_iff hx z).1 h2
  have hs : size c y.level = size c z.level := by rw [hl]
  have hxx : ∀ i, (y.x i).toNat = (z.x i).toNat := by
    intro i
    have hri := rank_le c x.type hx i
    have a0 := (a 0 (Nat.zero_le _)).1 i
    have ad := (a c.dim le_rfl).1 i
    have b0 := (b 0 (Nat.zero_le _)).1 i
    have bd := (b c.dim le_rfl).1 i
    simp only [corner] at a0 ad b0 bd
    rw [if_neg (by omega)] at a0 b0
    rw [if_pos hri.2] at ad bd
    have d1 := x_dvd hy i
    have d2 := x_dvd hz i
    rw [← hs] at d2
    rcases Nat.lt_trichotomy (y.x i).toNat (z.x i).toNat with h | h | h
    · have := add_le_of_dvd d1 d2 h; omega
    · exact h
    · have := add_le_of_dvd d2 d1 h; omega
  refine elem_ext hl (type_ext c _ hy.2 _ hz.2 fun i j hij => ?_) hxx
  by_contra hn
  have hne : rank c z.type i ≠ rank c z.type j := fun h => by
    rw [rank_inj c _ hz.2 i j h] at hij; omega
  have hji : rank c z.type j < rank c z.type i := by omega
  have key : ∀ k ≤ c.dim, corner c x k j + (y.x i).toNat = corner c x k i + (y.x j).toNat := by
    intro k hk
    have u := (a k hk).2 i j hij
    have v := (b k hk).2 j i hji
    rw [← hxx, ← hxx] at v
    omega
  have k0 := key 0 (Nat.zero_le _)
  have ri := rank_le c x.type hx i
  have rj := rank_le c x.type hx j
  have hne' : rank c x.type i ≠ rank c x.type j := fun h => by
    rw [rank_inj c _ hx i j h] at hij; omega
  simp only [corner] at k0
  rw [if_neg (by omega), if_neg (by omega)] at k0
  rcases Nat.lt_or_gt_of_ne hne' with h | h
  · have k1 := key (rank c x.type i) ri.2
    simp only [corner] at k1
    rw [if_neg (by omega), if_pos (by omega)] at k1
    omega
  · have k1 := key (rank c x.type j) rj.2
    simp only [corner] at k1
    rw [if_neg (c := rank c x.type i ≤ _) (by omega), if_pos (by omega)] at k1
    omega

/-- The descendants of an element are the finer elements inside. -/
theorem desc_iff_points {e x : Elem c.dim} (he : Valid c e) (hx : Valid c x) (hl : e.level ≤ x.level) :
    (tree c).Desc e x ↔ Points c x ⊆ Points c e := by
  constructor
  · exact desc_points he
  · intro h
    rw [desc_iff (T := tree c) he hx]
    refine ⟨hl, ?_⟩
    have hv : Valid c ((tree c).anc x e.level) := valid_anc (T := tree c) hx _
    have hlev : ((tree c).anc x e.level).level = e.level := level_anc (T := tree c) hx hl
    have hd : (tree c).Desc ((tree c).anc x e.level) x := desc_anc (T := tree c) hx
    exact points_unique hx.aligned.2 hv.aligned he.aligned hlev (desc_points hv hd) h

/-! ### Elements that contain a face -/

/-- Two axes are separated by a corner of a face. -/
def Sep (c : Cls) (t f : Nat) (i j : Fin c.dim) : Prop := ∃ k < c.dim + 1, k ≠ f ∧ rank c t i ≤ k ∧ k < rank c t j

instance (t f : Nat) (i j : Fin c.dim) : Decidable (Sep c t f i j) := by unfold Sep; infer_instance

set_option synthInstance.maxHeartbeats 200000 in
set_option synthInstance.maxSize 1000 in
theorem sep_same (c : Cls) : ∀ t < c.numTypes, ∀ t' < c.numTypes, ∀ f < c.numFaces,
    (∀ i j : Fin c.dim, Sep c t f i j → rank c t' i < rank c t' j) →
    t' = t ∨ (t' = nbType c t f ∧ f ≠ 0 ∧ f ≠ c.dim) := by
  cases c <;> decide +kernel

set_option synthInstance.maxHeartbeats 200000 in
set_option synthInstance.maxSize 1000 in
theorem sep_zero (c : Cls) : ∀ t < c.numTypes, ∀ t' < c.numTypes,
    (∀ i j : Fin c.dim, rank c t i ≠ 1 → Sep c t 0 i j → rank c t' i < rank c t' j) →
    (∀ i j : Fin c.dim, rank c t i = 1 → rank c t j ≠ 1 → rank c t' j < rank c t' i) → t' = nbType c t 0 := by
  cases c <;> decide +kernel

set_option synthInstance.maxHeartbeats 200000 in
set_option synthInstance.maxSize 1000 in
theorem sep_dim (c : Cls) : ∀ t < c.numTypes, ∀ t' < c.numTypes,
    (∀ i j : Fin c.dim, rank c t j ≠ c.dim → Sep c t c.dim i j → rank c t' i < rank c t' j) →
    (∀ i j : Fin c.dim, rank c t i = c.dim → rank c t j ≠ c.dim → rank c t' i < rank c t' j) → t' = nbType c t c.dim := by
  cases c <;> decide +kernel

theorem face_points_unique {e y : Elem c.dim} (he : Aligned c e) (hy : Aligned c y) (hl : y.level = e.level) {f : Nat}
    (hf : f < c.numFaces) (h : Face c e f ⊆ Points c y) : y = e ∨ y = (faceNeighbour c e f).1 := by
  have hnf := numFaces_eq c
  have hd := dim_ge c
  have hp := size_pos c e.level
  have hs : size c y.level = size c e.level := by rw [hl]
  have a := (face_sub_points_iff he.2 (by omega) y).1 h
  obtain ⟨n1, n2, n3⟩ := neighbour_rest he.2 hf
  have hr := fun i => rank_le c e.type he.2 i
  have hdv : ∀ i, (e.x i).toNat + size c e.level ≤ (y.x i).toNat ∨ (e.x i).toNat = (y.x i).toNat ∨
      (y.x i).toNat + size c e.level ≤ (e.x i).toNat := by
    intro i
    have d1 := x_dvd he i
    have d2 := x_dvd hy i
    rw [hs] at d2
    rcases Nat.lt_trichotomy (e.x i).toNat (y.x i).toNat with h | h | h
    · exact Or.inl (add_le_of_dvd d1 d2 h)
    · exact Or.inr (Or.inl h)
    · exact Or.inr (Or.inr (add_le_of_dvd d2 d1 h))
  have low : ∀ i k, k ≤ c.dim → k ≠ f → k < rank c e.type i → (y.x i).toNat ≤ (e.x i).toNat := by
    intro i k hk hkf hlt
    have := (a k hk hkf).1 i
    simp only [corner] at this
    rw [if_neg (by omega)] at this
    omega
  have up : ∀ i k, k ≤ c.dim → k ≠ f → rank c e.type i ≤ k → (e.x i).toNat ≤ (y.x i).toNat := by
    intro i k hk hkf hlt
    have := (a k hk hkf).1 i
    simp only [corner] at this
    rw [if_pos (by omega), hs] at this
    omega
  have sep : ∀ i j, (e.x i).toNat = (y.x i).toNat → (e.x j).toNat = (y.x j).toNat → Sep c e.type f i j →
      rank c y.type i < rank c y.type j := by
    rintro i j hi hj ⟨k, hk, hkf, h1, h2⟩
    by_contra hn
    have hne : rank c y.type i ≠ rank c y.type j := fun h => by
      rw [rank_inj c _ hy.2 i j h] at h1; omega
    have := (a k (by omega) hkf).2 j i (by omega)
    simp only [corner] at this
    rw [if_pos h1, if_neg (by omega)] at this
    omega
  have nbx := fun i => neighbour_toNat' he hf i
  have same : ∀ i, ¬ (f = 0 ∧ rank c e.type i = 1) → ¬ (f = c.dim ∧ rank c e.type i = c.dim) →
      (e.x i).toNat = (y.x i).toNat := by
    intro i h1 h2
    have := hr i
    apply le_antisymm
    · by_cases fd : f = c.dim
      · exact up i (c.dim - 1) (by omega) (by omega) (by omega)
      · exact up i c.dim (by omega) (by omega) (by omega)
    · by_cases f0 : f = 0
      · exact low i 1 (by omega) (by omega) (by omega)
      · exact low i 0 (by omega) (by omega) (by omega)
  by_cases hall : ∀ i, (e.x i).toNat = (y.x i).toNat
  · rcases sep_same c _ he.2 _ hy.2 f hf fun i j => sep i j (hall i) (hall j) with ht | ⟨ht, f0, fd⟩
    · exact Or.inl (elem_ext hl ht fun i => (hall i).symm)
    · refine Or.inr (elem_ext (hl.trans n1.symm) (ht.trans n2.symm) fun i => ?_)
      rw [(nbx i).2.2 (by omega) (by omega), hall i]
  · right
    push Not at hall
    obtain ⟨b, hb⟩ := hall
    by_cases f0 : f = 0
    · have hb1 : rank c e.type b = 1 := by
        by_contra hb1
        exact hb (same b (by omega) (by omega))
      have hby : (y.x b).toNat = (e.x b).toNat + size c e.level := by
        have := hdv b
        have h1 := (a 1 (by omega) (by omega)).1 b
        have h2 := up b 1 (by omega) (by omega) (by omega)
        simp only [corner] at h1
        rw [if_pos (by omega)] at h1
        omega
      have huniq : ∀ i, rank c e.type i = 1 → i = b := fun i hi => rank_inj c _ he.2 i b (by omega)
      have hs0 : ∀ i, rank c e.type i ≠ 1 → (e.x i).toNat = (y.x i).toNat := fun i hi => same i (by omega) (by omega)
      have ht : y.type = nbType c e.type 0 := by
        refine sep_zero c _ he.2 _ hy.2 (fun i j hi hsep => ?_) (fun i j hi hj => ?_)
        · have hj : rank c e.type j ≠ 1 := by
            obtain ⟨k, _, _, h1, h2⟩ := hsep
            have := hr i
            omega
          exact sep i j (hs0 i hi) (hs0 j hj) (f0 ▸ hsep)
        · by_contra hn
          have hne : rank c y.type i ≠ rank c y.type j := fun h => by
            rw [rank_inj c _ hy.2 i j h] at hi; omega
          have := (a c.dim le_rfl (by omega)).2 i j (by omega)
          simp only [corner] at this
          rw [if_pos (hr i).2, if_pos (hr j).2, huniq i hi] at this
          have := hs0 j hj
          omega
      subst f0
      refine elem_ext (hl.trans n1.symm) (ht.trans n2.symm) fun i => ?_
      by_cases hi : rank c e.type i = 1
      · rw [(nbx i).1 rfl hi, huniq i hi, hby]
      · rw [(nbx i).2.2 (by omega) (by omega), hs0 i hi]
    · have fd : f = c.dim := by
        by_contra fd
        exact hb (same b (by omega) (by omega))
      have hb1 : rank c e.type b = c.dim := by
        by_contra hb1
        exact hb (same b (by omega) (by omega))
      have hby : (y.x b).toNat + size c e.level = (e.x b).toNat := by
        have := hdv b
        have h1 := (a 0 (by omega) (by omega)).1 b
        have h2 := low b 0 (by omega) (by omega) (by omega)
        simp only [corner] at h1
        rw [if_neg (by omega)] at h1
        omega
      have huniq : ∀ i, rank c e.type i = c.dim → i = b := fun i hi => rank_inj c _ he.2 i b (by omega)
      have hs0 : ∀ i, rank c e.type i ≠ c.dim → (e.x i).toNat = (y.x i).toNat := fun i hi => same i (by omega) (by omega)
      have ht : y.type = nbType c e.type f := by
        rw [fd]
        refine sep_dim c _ he.2 _ hy.2 (fun i j hj hsep => ?_) (fun i j hi hj => ?_)
        · have hi : rank c e.type i ≠ c.dim := by
            obtain ⟨k, _, _, h1, h2⟩ := hsep
            have := hr j
            omega
          exact sep i j (hs0 i hi) (hs0 j hj) (fd ▸ hsep)
        · by_contra hn
          have hne : rank c y.type i ≠ rank c y.type j := fun h => by
            rw [rank_inj c _ hy.2 i j h] at hi; omega
          have hri := hr i
          have hrj := hr j
          have := (a 0 (Nat.zero_le _) (by omega)).2 j i (by omega)
          simp only [corner] at this
          rw [if_neg (by omega), if_neg (by omega), huniq i hi] at this
          have := hs0 j hj
          omega
      refine elem_ext (hl.trans n1.symm) (ht.trans n2.symm) fun i => ?_
      by_cases hi : rank c e.type i = c.dim
      · have hib := huniq i hi
        have := (nbx i).2.1 fd hi (by rw [hib]; omega)
        rw [hib] at this
        rw [hib]
        omega
      · rw [(nbx i).2.2 (by omega) (by omega), hs0 i hi]

end T8.Simplex
