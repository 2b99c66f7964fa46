/-
Face neighbors of triangles and tetrahedra.
-/
import Verif.Lemmas.SimplexFaces2
import Verif.Lemmas.SimplexSucc

namespace T8.Simplex
open T8.RTree T8.Bits

variable {c : Cls}

/-- The type of the neighbor. -/
def nbType (c : Cls) (t f : Nat) : Nat := (faceNeighbour c ⟨fun _ => 0, 0, t⟩ f).1.type

/-- The number of the face seen from the neighbor. -/
def nbFace (c : Cls) (f : Nat) : Nat := if f = 0 then c.dim else if f = c.dim then 0 else f

theorem neighbour_x {e : Elem c.dim} (ht : e.type < c.numTypes) {f : Nat} (hf : f < c.numFaces) (i : Fin c.dim) :
    (faceNeighbour c e f).1.x i = if f = 0 ∧ rank c e.type i = 1 then e.x i + len c e.level
      else if f = c.dim ∧ rank c e.type i = c.dim then e.x i - len c e.level else e.x i := by
  obtain ⟨x, l, t⟩ := e
  cases c
  · simp only [Cls.numTypes, Cls.numFaces] at ht hf
    interval_cases t <;> interval_cases f <;> fin_cases i <;>
      simp [faceNeighbour, addAt, subAt, rank, axes, List.idxOf_cons, Cls.dim]
  · simp only [Cls.numTypes, Cls.numFaces] at ht hf
    interval_cases t <;> interval_cases f <;> fin_cases i <;>
      simp [faceNeighbour, addAt, subAt, rank, axes, List.idxOf_cons, Cls.dim]

theorem neighbour_rest {e : Elem c.dim} (ht : e.type < c.numTypes) {f : Nat} (hf : f < c.numFaces) :
    (faceNeighbour c e f).1.level = e.level ∧ (faceNeighbour c e f).1.type = nbType c e.type f ∧
    (faceNeighbour c e f).2 = nbFace c f := by
  obtain ⟨x, l, t⟩ := e
  cases c
  · simp only [Cls.numTypes, Cls.numFaces] at ht hf
    interval_cases t <;> interval_cases f <;> simp [faceNeighbour, nbType, nbFace, Cls.dim]
  · simp only [Cls.numTypes, Cls.numFaces] at ht hf
    interval_cases t <;> interval_cases f <;> simp [faceNeighbour, nbType, nbFace, Cls.dim]

theorem nb_table (c : Cls) : ∀ t < c.numTypes, ∀ f < c.numFaces,
    nbType c t f < c.numTypes ∧ nbType c t f ≠ t ∧ nbFace c f < c.numFaces ∧ nbFace c (nbFace c f) = f ∧
    nbType c (nbType c t f) (nbFace c f) = t ∧
    ∀ i : Fin c.dim, rank c (nbType c t f) i =
      if f = 0 then (if rank c t i = 1 then c.dim else rank c t i - 1)
      else if f = c.dim then (if rank c t i = c.dim then 1 else rank c t i + 1)
      else if rank c t i = f then f + 1 else if rank c t i = f + 1 then f else rank c t i := by
  cases c <;> decide +kernel

/-! ### Inside of the root -/

theorem inside_tri {e : Elem 2} (ht : e.type < 2) : Inside .tri e ↔
    (e.x 1).toNat < (e.x 0).toNat ∨ ((e.x 1).toNat = (e.x 0).toNat ∧ e.type = 0) := by
  have h1 : rank .tri 0 (0 : Fin 2) = 1 := by decide
  have h2 : rank .tri 0 (1 : Fin 2) = 2 := by decide
  have h3 := rank_tri e.type ht
  constructor
  · intro h
    have := h (0 : Fin 2) (1 : Fin 2) (by rw [h1, h2]; omega)
    rw [h3] at this
    exact this
  · intro h i j hij
    have hi : i = (0 : Fin 2) ∧ j = (1 : Fin 2) := by
      revert hij; revert i j; decide
    rw [hi.1, hi.2]
    show (e.x 1).toNat < (e.x 0).toNat ∨ (e.x 1).toNat = (e.x 0).toNat ∧ rank .tri e.type (0 : Fin 2) < rank .tri e.type (1 : Fin 2)
    rw [h3]
    exact h

theorem inside_tet {e : Elem 3} (ht : e.type < 6) : Inside .tet e ↔
    ((e.x 2).toNat < (e.x 0).toNat ∨ ((e.x 2).toNat = (e.x 0).toNat ∧ e.type < 3)) ∧
    ((e.x 1).toNat < (e.x 2).toNat ∨ ((e.x 1).toNat = (e.x 2).toNat ∧ (e.type = 0 ∨ 4 ≤ e.type))) ∧
    ((e.x 1).toNat < (e.x 0).toNat ∨ ((e.x 1).toNat = (e.x 0).toNat ∧ (e.type = 0 ∨ e.type = 1 ∨ e.type = 5))) := by
  have key : ∀ t < 6, (rank .tet t (0 : Fin 3) < rank .tet t (2 : Fin 3) ↔ t < 3) ∧
      (rank .tet t (2 : Fin 3) < rank .tet t (1 : Fin 3) ↔ (t = 0 ∨ 4 ≤ t)) ∧
      (rank .tet t (0 : Fin 3) < rank .tet t (1 : Fin 3) ↔ (t = 0 ∨ t = 1 ∨ t = 5)) := by decide +kernel
  obtain ⟨k1, k2, k3⟩ := key e.type ht
  rw [← k1, ← k2, ← k3]
  constructor
  · intro h
    exact ⟨h (0 : Fin 3) (2 : Fin 3) (by decide), h (2 : Fin 3) (1 : Fin 3) (by decide), h (0 : Fin 3) (1 : Fin 3) (by decide)⟩
  · rintro ⟨a, b, d⟩ i j hij
    have hi : (i = (0 : Fin 3) ∧ j = (2 : Fin 3)) ∨ (i = (2 : Fin 3) ∧ j = (1 : Fin 3)) ∨ (i = (0 : Fin 3) ∧ j = (1 : Fin 3)) := by
      revert hij; revert i j; decide
    rcases hi with ⟨rfl, rfl⟩ | ⟨rfl, rfl⟩ | ⟨rfl, rfl⟩
    · exact a
    · exact b
    · exact d

theorem toInt_nonneg (v : BitVec 32) : 0 ≤ v.toInt ↔ v.toNat < 2 ^ 31 := by
  rw [BitVec.toInt_eq_toNat_cond]
  have := v.isLt
  split <;> omega

theorem toInt_small {v : BitVec 32} (h : v.toNat < 2 ^ 31) : v.toInt = v.toNat := by
  rw [BitVec.toInt_eq_toNat_cond, if_pos (by omega)]

theorem sub_le_zero {v w : BitVec 32} (hv : v.toNat < 2 ^ 31) (hw : w.toNat < 2 ^ 31) :
    (v - w).toInt ≤ 0 ↔ v.toNat ≤ w.toNat := by
  rw [BitVec.toInt_eq_toNat_cond, BitVec.toNat_sub]
  rcases Nat.lt_or_ge v.toNat w.toNat with h | h
  · rw [Nat.mod_eq_of_lt (by omega)]
    split <;> omega
  · rw [show 2 ^ 32 - w.toNat + v.toNat = v.toNat - w.toNat + 2 ^ 32 by omega, Nat.add_mod_right,
      Nat.mod_eq_of_lt (by omega)]
    split <;> omega

theorem rootLen_toInt (c : Cls) : (rootLen c).toInt = ((2 ^ c.maxLevel : Nat) : Int) := by cases c <;> decide

theorem isInsideRoot_iff {e : Elem c.dim} (hl : e.level ≤ c.maxLevel) (hd : ∀ i, size c e.level ∣ (e.x i).toNat)
    (ht : e.type < c.numTypes) : isInsideRoot c e = true ↔ Valid c e := by
  have hM : 2 ^ c.maxLevel < 2 ^ 30 := pow_max_lt c
  by_cases h0 : e.level = 0
  · have : isInsideRoot c e = true ↔ e = root c := by
      obtain ⟨x, l, t⟩ := e
      simp only at h0
      subst h0
      cases c
      · simp only [isInsideRoot, if_true, Bool.and_eq_true, beq_iff_eq, root, Elem.mk.injEq, true_and, and_assoc]
        constructor
        · rintro ⟨rfl, h1, h2⟩
          refine ⟨?_, rfl⟩
          funext i; revert i
          exact Fin.forall_fin_two.2 ⟨h1, h2⟩
        · rintro ⟨rfl, rfl⟩
          exact ⟨rfl, rfl, rfl⟩
      · simp only [isInsideRoot, if_true, Bool.and_eq_true, beq_iff_eq, root, Elem.mk.injEq, true_and, and_assoc]
        constructor
        · rintro ⟨rfl, h1, h2, h3⟩
          refine ⟨?_, rfl⟩
          funext i
          have h : ∀ i : Fin 3, i = 0 ∨ i = 1 ∨ i = 2 := by decide
          rcases h i with rfl | rfl | rfl
          · exact h1
          · exact h2
          · exact h3
        · rintro ⟨rfl, rfl⟩
          exact ⟨rfl, rfl, rfl, rfl⟩
    rw [this]
    constructor
    · rintro rfl; exact valid_root
    · intro h; exact root_unique h h0
  · rw [valid_iff]
    have hal : Aligned c e ↔ ∀ i, (e.x i).toNat < 2 ^ c.maxLevel := by
      constructor
      · intro h i; exact x_lt h i
      · intro h; exact ⟨⟨hl, fun i => ⟨h i, hd i⟩⟩, ht⟩
    rw [hal]
    obtain ⟨x, l, t⟩ := e
    cases c
    · rw [inside_tri ht]
      simp only [isInsideRoot, h0, if_false, Bool.and_eq_true, decide_eq_true_eq, toInt_nonneg]
      constructor
      · rintro ⟨⟨⟨⟨a1, a2⟩, a3⟩, a4⟩, a5⟩
        rw [toInt_small a1, rootLen_toInt] at a2
        rw [sub_le_zero a3 a1] at a4
        refine ⟨Fin.forall_fin_two.2 ⟨?_, ?_⟩, ?_⟩
        · show (x 0).toNat < _; omega
        · show (x 1).toNat < _; omega
        · rcases Nat.lt_or_ge (x 1).toNat (x 0).toNat with h | h
          · exact Or.inl h
          · right
            have : (x 1).toNat = (x 0).toNat := by omega
            rw [if_pos (BitVec.eq_of_toNat_eq this)] at a5
            exact ⟨this, by simpa using a5⟩
      · rintro ⟨a1, a2⟩
        have b0 : (x 0).toNat < 2 ^ Cls.tri.maxLevel := a1 (0 : Fin 2)
        have b1 : (x 1).toNat < 2 ^ Cls.tri.maxLevel := a1 (1 : Fin 2)
        refine ⟨⟨⟨⟨by omega, ?_⟩, by omega⟩, ?_⟩, ?_⟩
        · rw [toInt_small (by omega), rootLen_toInt]; omega
        · rw [sub_le_zero (by omega) (by omega)]; omega
        · split
          · rename_i h
            have := congrArg BitVec.toNat h
            have : t = 0 := by omega
            rw [this]; rfl
          · rfl
    · rw [inside_tet ht]
      simp only [isInsideRoot, h0, if_false, Bool.and_eq_true, decide_eq_true_eq, toInt_nonneg]
      constructor
      · rintro ⟨⟨⟨⟨⟨⟨⟨⟨a1, a2⟩, a3⟩, a4⟩, a5⟩, a6⟩, a7⟩, a8⟩, a9⟩
        rw [toInt_small a1, rootLen_toInt] at a2
        rw [sub_le_zero a4 a1] at a5
        rw [sub_le_zero a3 a4] at a6
        have b7 : (x 2).toNat = (x 0).toNat → t < 3 := by
          intro h
          rw [if_pos (BitVec.eq_of_toNat_eq h)] at a7
          simpa using a7
        have b8 : (x 1).toNat = (x 2).toNat → t = 0 ∨ 4 ≤ t := by
          intro h
          rw [if_pos (BitVec.eq_of_toNat_eq h)] at a8
          simpa using a8
        refine ⟨?_, ?_, ?_, ?_⟩
        · intro i
          have h : ∀ i : Fin 3, i = 0 ∨ i = 1 ∨ i = 2 := by decide
          rcases h i with rfl | rfl | rfl
          · show (x 0).toNat < _; omega
          · show (x 1).toNat < _; omega
          · show (x 2).toNat < _; omega
        · omega
        · omega
        · have : t < 6 := ht
          omega
      · rintro ⟨a1, a2, a3, a4⟩
        have b0 : (x 0).toNat < 2 ^ Cls.tet.maxLevel := a1 (0 : Fin 3)
        have b1 : (x 1).toNat < 2 ^ Cls.tet.maxLevel := a1 (1 : Fin 3)
        have b2 : (x 2).toNat < 2 ^ Cls.tet.maxLevel := a1 (2 : Fin 3)
        refine ⟨⟨⟨⟨⟨⟨⟨⟨by omega, ?_⟩, by omega⟩, by omega⟩, ?_⟩, ?_⟩, ?_⟩, ?_⟩, ?_⟩
        · rw [toInt_small (by omega), rootLen_toInt]; omega
        · rw [sub_le_zero (by omega) (by omega)]; omega
        · rw [sub_le_zero (by omega) (by omega)]; omega
        · split
          · rename_i h
            have := congrArg BitVec.toNat h
            rw [decide_eq_true_eq]; omega
          · rfl
        · split
          · rename_i h
            have := congrArg BitVec.toNat h
            simp only [Bool.or_eq_true, beq_iff_eq, decide_eq_true_eq]; omega
          · rfl
        · split
          · rename_i h
            have h1 := congrArg BitVec.toNat h.1
            have h2 := congrArg BitVec.toNat h.2
            simp only [beq_iff_eq]; omega
          · rfl

/-! ### The neighbor -/

theorem neighbour_dvd {e : Elem c.dim} (he : Aligned c e) {f : Nat} (hf : f < c.numFaces) (i : Fin c.dim) :
    size c (faceNeighbour c e f).1.level ∣ ((faceNeighbour c e f).1.x i).toNat := by
  rw [(neighbour_rest he.2 hf).1, neighbour_x he.2 hf]
  have h1 := x_dvd he i
  have h2 : size c e.level ∣ 2 ^ 32 :=
    Nat.dvd_trans (size_dvd c _) (Nat.pow_dvd_pow 2 (le_of_lt (lt_trans (maxLevel_lt c) (by omega))))
  split
  · rw [BitVec.toNat_add, len_toNat, Nat.dvd_mod_iff h2]
    exact Nat.dvd_add h1 (Nat.dvd_refl _)
  · split
    · rw [BitVec.toNat_sub, len_toNat, Nat.dvd_mod_iff h2]
      exact Nat.dvd_add (Nat.dvd_sub h2 (Nat.dvd_refl _)) h1
    · exact h1

theorem inside_neighbour_iff {e : Elem c.dim} (he : Aligned c e) {f : Nat} (hf : f < c.numFaces) :
    isInsideRoot c (faceNeighbour c e f).1 = true ↔ Valid c (faceNeighbour c e f).1 := by
  obtain ⟨h1, h2, h3⟩ := neighbour_rest he.2 hf
  refine isInsideRoot_iff ?_ (neighbour_dvd he hf) ?_
  · rw [h1]; exact he.1.1
  · rw [h2]; exact (nb_table c _ he.2 f hf).1

/-- The neighbor of the neighbor. -/
theorem neighbour_neighbour {e : Elem c.dim} (ht : e.type < c.numTypes) {f : Nat} (hf : f < c.numFaces) :
    faceNeighbour c (faceNeighbour c e f).1 (faceNeighbour c e f).2 = (e, f) := by
  obtain ⟨h1, h2, h3⟩ := neighbour_rest ht hf
  obtain ⟨t1, _, t2, t3, t4, t5⟩ := nb_table c _ ht f hf
  have ht' : (faceNeighbour c e f).1.type < c.numTypes := by rw [h2]; exact t1
  have hf' : (faceNeighbour c e f).2 < c.numFaces := by rw [h3]; exact t2
  obtain ⟨k1, k2, k3⟩ := neighbour_rest ht' hf'
  have hd := dim_ge c
  replace k2 := k2.trans (by rw [h2, h3, t4])
  replace k3 := k3.trans (by rw [h3, t3])
  replace k1 := k1.trans h1
  have hx : ∀ i, (faceNeighbour c (faceNeighbour c e f).1 (faceNeighbour c e f).2).1.x i = e.x i := by
    intro i
    have ri := rank_le c e.type ht i
    rw [neighbour_x ht' hf', h2, h3, h1, t5, neighbour_x ht hf]
    have hn := numFaces_eq c
    by_cases f0 : f = 0
    · have hg : nbFace c f = c.dim := by rw [nbFace, if_pos f0]
      rw [hg, if_neg (show ¬ (c.dim = 0 ∧ _) from fun h => by omega)]
      simp only [if_pos f0]
      by_cases r1 : rank c e.type i = 1
      · rw [if_pos r1, if_pos ⟨trivial, rfl⟩, if_pos ⟨f0, r1⟩, BitVec.add_sub_cancel]
      · rw [if_neg r1, if_neg (by omega), if_neg (by omega), if_neg (by omega)]
    · by_cases fd : f = c.dim
      · have hg : nbFace c f = 0 := by rw [nbFace, if_neg f0, if_pos fd]
        rw [hg]
        simp only [if_neg f0, if_pos fd]
        by_cases r1 : rank c e.type i = c.dim
        · rw [if_pos r1, if_pos ⟨trivial, rfl⟩, if_neg (by omega), if_pos ⟨fd, r1⟩, BitVec.sub_add_cancel]
        · rw [if_neg r1, if_neg (by omega), if_neg (by omega), if_neg (by omega), if_neg (by omega)]
      · have hg : nbFace c f = f := by rw [nbFace, if_neg f0, if_neg fd]
        rw [hg, if_neg (by omega), if_neg (by omega), if_neg (by omega), if_neg (by omega)]
  generalize faceNeighbour c (faceNeighbour c e f).1 (faceNeighbour c e f).2 = z at *
  obtain ⟨⟨zx, zl, zt⟩, zf⟩ := z
  obtain ⟨x, l, t⟩ := e
  simp only at k1 k2 k3 hx
  rw [k1, k2, k3, funext hx]

/-- The coordinates of a neighbor inside of the root. -/
theorem neighbour_toNat {e : Elem c.dim} (he : Aligned c e) {f : Nat} (hf : f < c.numFaces)
    (hn : Aligned c (faceNeighbour c e f).1) (i : Fin c.dim) :
    (f = 0 → rank c e.type i = 1 → ((faceNeighbour c e f).1.x i).toNat = (e.x i).toNat + size c e.level) ∧
    (f = c.dim → rank c e.type i = c.dim → ((faceNeighbour c e f).1.x i).toNat + size c e.level = (e.x i).toNat) ∧
    (¬ (f = 0 ∧ rank c e.type i = 1) → ¬ (f = c.dim ∧ rank c e.type i = c.dim) →
      ((faceNeighbour c e f).1.x i).toNat = (e.x i).toNat) := by
  have hlt := x_lt hn i
  have hM := pow_max_lt c
  have hs := x_add_le he i
  have hp := size_pos c e.level
  have hd := dim_ge c
  rw [neighbour_x he.2 hf] at hlt ⊢
  refine ⟨fun h1 h2 => ?_, fun h1 h2 => ?_, fun h1 h2 => ?_⟩
  · rw [if_pos ⟨h1, h2⟩, BitVec.toNat_add, len_toNat, Nat.mod_eq_of_lt (by omega)]
  · rw [if_neg (by omega), if_pos ⟨h1, h2⟩] at hlt ⊢
    rw [BitVec.toNat_sub, len_toNat] at hlt ⊢
    rcases Nat.lt_or_ge (e.x i).toNat (size c e.level) with h | h
    · rw [Nat.mod_eq_of_lt (by omega)] at hlt; omega
    · rw [show 2 ^ 32 - size c e.level + (e.x i).toNat = (e.x i).toNat - size c e.level + 2 ^ 32 by omega,
        Nat.add_mod_right, Nat.mod_eq_of_lt (by omega)]
      omega
  · rw [if_neg h1, if_neg h2]

/-- The corners of the common face. -/
theorem neighbour_corner {e : Elem c.dim} (he : Aligned c e) {f : Nat} (hf : f < c.numFaces)
    (hn : Aligned c (faceNeighbour c e f).1) {k : Nat} (hk : k ≤ c.dim) (hne : k ≠ nbFace c f) :
    corner c (faceNeighbour c e f).1 k = corner c e (if f = 0 then k + 1 else if f = c.dim then k - 1 else k) ∧
    (if f = 0 then k + 1 else if f = c.dim then k - 1 else k) ≤ c.dim ∧
    (if f = 0 then k + 1 else if f = c.dim then k - 1 else k) ≠ f := by
  obtain ⟨h1, h2, h3⟩ := neighbour_rest he.2 hf
  obtain ⟨t1, _, t2, t3, t4, t5⟩ := nb_table c _ he.2 f hf
  have hd := dim_ge c
  refine ⟨?_, ?_⟩
  · funext i
    have hx := neighbour_toNat he hf hn i
    have ri := rank_le c e.type he.2 i
    simp only [corner, h1, h2, t5]
    unfold nbFace at hne
    by_cases f0 : f = 0
    · simp only [if_pos f0] at hne ⊢
      by_cases r1 : rank c e.type i = 1
      · rw [hx.1 f0 r1, if_pos r1, if_neg (by omega), if_pos (by omega)]; omega
      · rw [hx.2.2 (by omega) (by omega), if_neg r1]
        congr 1
        by_cases hk : rank c e.type i ≤ k + 1
        · rw [if_pos hk, if_pos (by omega)]
        · rw [if_neg hk, if_neg (by omega)]
    · by_cases fd : f = c.dim
      · simp only [if_neg f0, if_pos fd] at hne ⊢
        by_cases r1 : rank c e.type i = c.dim
        · have := hx.2.1 fd r1
          rw [if_pos r1, if_pos (by omega), if_neg (by omega)]; omega
        · rw [hx.2.2 (by omega) (by omega), if_neg r1]
          congr 1
          by_cases hk : rank c e.type i ≤ k - 1
          · rw [if_pos hk, if_pos (by omega)]
          · rw [if_neg hk, if_neg (by omega)]
      · simp only [if_neg f0, if_neg fd] at hne ⊢
        rw [hx.2.2 (by omega) (by omega)]
        congr 1
        by_cases r1 : rank c e.type i = f
        · rw [if_pos r1, r1]
          by_cases hk : f ≤ k
          · rw [if_pos hk, if_pos (by omega)]
          · rw [if_neg hk, if_neg (by omega)]
        · rw [if_neg r1]
          by_cases r2 : rank c e.type i = f + 1
          · rw [if_pos r2, r2]
            by_cases hk : f ≤ k
            · rw [if_pos hk, if_pos (by omega)]
            · rw [if_neg hk, if_neg (by omega)]
          · rw [if_neg r2]
  · unfold nbFace at hne
    split
    · rename_i h; rw [if_pos h] at hne; omega
    · rename_i h
      rw [if_neg h] at hne
      split
      · rename_i h'; rw [if_pos h'] at hne; omega
      · rename_i h'; rw [if_neg h'] at hne; omega

theorem neighbour_face_sub {e : Elem c.dim} (he : Aligned c e) {f : Nat} (hf : f < c.numFaces)
    (hn : Aligned c (faceNeighbour c e f).1) :
    Face c (faceNeighbour c e f).1 (faceNeighbour c e f).2 ⊆ Face c e f := by
  have hnf := numFaces_eq c
  obtain ⟨h1, h2, h3⟩ := neighbour_rest he.2 hf
  have hb := (nb_table c _ he.2 f hf).2.2.1
  rw [h3, face_sub_iff hn.2 (by omega)]
  intro k hk hne
  obtain ⟨a1, a2, a3⟩ := neighbour_corner he hf hn hk hne
  rw [a1]
  exact (corner_mem_face he.2 a2 (by omega)).2 a3

/-- The neighbor has the same face. -/
theorem neighbour_face {e : Elem c.dim} (he : Aligned c e) {f : Nat} (hf : f < c.numFaces)
    (hn : Aligned c (faceNeighbour c e f).1) :
    Face c (faceNeighbour c e f).1 (faceNeighbour c e f).2 = Face c e f := by
  apply Set.Subset.antisymm (neighbour_face_sub he hf hn)
  have hb := (nb_table c _ he.2 f hf).2.2.1
  rw [← (neighbour_rest he.2 hf).2.2] at hb
  have := neighbour_face_sub hn hb (by rw [neighbour_neighbour he.2 hf]; exact he)
  rw [neighbour_neighbour he.2 hf] at this
  exact this

end T8.Simplex
