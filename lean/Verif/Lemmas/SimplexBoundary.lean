/-
The boundary of the root of triangles and tetrahedra, and the uniqueness of face neighbors.
-/
import Verif.Lemmas.SimplexNeighbor

namespace T8.Simplex
open T8.RTree T8.Bits

variable {c : Cls}

/-! ### A face with a neighbor inside of the root is not at the boundary -/

theorem sum_mem_face {e : Elem c.dim} {f : Nat} {p q r s : Fin c.dim → Nat} (hp : p ∈ Points c e) (hq : q ∈ Points c e)
    (hr : r ∈ Face c e f) (hs : s ∈ Face c e f) (hm : ∀ i, p i + q i = r i + s i) : p ∈ Face c e f := by
  obtain ⟨_, a1, a2, a3⟩ := hr
  obtain ⟨_, b1, b2, b3⟩ := hs
  refine ⟨hp, fun hf i hi => ?_, fun hf i hi => ?_, fun i j hi hj => ?_⟩
  · have := a1 hf i hi; have := b1 hf i hi; have := hm i; have := hp.1 i; have := hq.1 i; omega
  · have := a2 hf i hi; have := b2 hf i hi; have := hm i; have := hp.1 i; have := hq.1 i; omega
  · have := a3 i j hi hj; have := b3 i j hi hj; have := hm i; have := hm j
    have := hp.2 i j (by omega); have := hq.2 i j (by omega); omega

/-- The opposite corners of an element and its neighbor have the same midpoint as two corners of the common face. -/
theorem opposite_corners {e : Elem c.dim} (he : Aligned c e) {f : Nat} (hf : f < c.numFaces)
    (hn : Aligned c (faceNeighbour c e f).1) : ∃ a b, a ≤ c.dim ∧ b ≤ c.dim ∧ a ≠ f ∧ b ≠ f ∧
      ∀ i, corner c e f i + corner c (faceNeighbour c e f).1 (nbFace c f) i = corner c e a i + corner c e b i := by
  obtain ⟨h1, h2, h3⟩ := neighbour_rest he.2 hf
  obtain ⟨t1, _, t2, t3, t4, t5⟩ := nb_table c _ he.2 f hf
  have hd := dim_ge c
  have hnf := numFaces_eq c
  by_cases f0 : f = 0
  · refine ⟨1, c.dim, by omega, le_rfl, by omega, by omega, fun i => ?_⟩
    have hx := neighbour_toNat he hf hn i
    have ri := rank_le c e.type he.2 i
    simp only [corner, h1, h2, t5, nbFace, if_pos f0]
    by_cases r1 : rank c e.type i = 1
    · rw [hx.1 f0 r1, if_pos r1, if_neg (by omega), if_pos (by omega), if_pos (by omega), if_pos (by omega)]; omega
    · rw [hx.2.2 (by omega) (by omega), if_neg r1, if_neg (by omega), if_pos (by omega), if_neg (by omega), if_pos (by omega)]
  · by_cases fd : f = c.dim
    · refine ⟨0, c.dim - 1, by omega, by omega, by omega, by omega, fun i => ?_⟩
      have hx := neighbour_toNat he hf hn i
      have ri := rank_le c e.type he.2 i
      simp only [corner, h1, h2, t5, nbFace, if_neg f0, if_pos fd]
      by_cases r1 : rank c e.type i = c.dim
      · have := hx.2.1 fd r1
        rw [if_pos r1, if_pos (by omega), if_neg (by omega), if_neg (by omega), if_neg (by omega)]; omega
      · rw [hx.2.2 (by omega) (by omega), if_neg r1, if_pos (by omega), if_neg (by omega), if_neg (by omega),
          if_pos (by omega)]
        omega
    · refine ⟨f - 1, f + 1, by omega, by omega, by omega, by omega, fun i => ?_⟩
      have hx := neighbour_toNat he hf hn i
      have ri := rank_le c e.type he.2 i
      simp only [corner, h1, h2, t5, nbFace, if_neg f0, if_neg fd]
      rw [hx.2.2 (by omega) (by omega)]
      by_cases r1 : rank c e.type i = f
      · rw [if_pos r1, if_pos (by omega), if_neg (by omega), if_neg (by omega), if_pos (by omega)]; omega
      · rw [if_neg r1]
        by_cases r2 : rank c e.type i = f + 1
        · rw [if_pos r2, if_neg (by omega), if_pos (by omega), if_neg (by omega), if_pos (by omega)]
        · rw [if_neg r2]
          by_cases r3 : rank c e.type i ≤ f
          · rw [if_pos r3, if_pos (by omega), if_pos (by omega)]
          · rw [if_neg r3, if_neg (by omega), if_neg (by omega)]

theorem not_boundary_of_neighbour {e : Elem c.dim} (he : Valid c e) {f : Nat} (hf : f < c.numFaces)
    (hn : Valid c (faceNeighbour c e f).1) {g : Nat} (hg : g < c.numFaces) : ¬ Face c e f ⊆ Face c (root c) g := by
  intro h
  have hnf := numFaces_eq c
  obtain ⟨a, b, ha, hb, haf, hbf, hab⟩ := opposite_corners he.aligned hf hn.aligned
  have hr : ∀ k ≤ c.dim, k ≠ f → corner c e k ∈ Face c (root c) g :=
    (face_sub_iff he.aligned.2 (by omega) (root c) g).1 h
  have hop := sum_mem_face (he.2.2 (corner_mem e f)) (hn.2.2 (corner_mem _ (nbFace c f))) (hr a ha haf) (hr b hb hbf) hab
  refine not_all_corners he.aligned.2 (e := root c) (zero_lt_numTypes c) (by omega : g ≤ c.dim) fun k hk => ?_
  by_cases hkf : k = f
  · rw [hkf]; exact hop
  · exact hr k hk hkf

/-! ### The test for the boundary -/

theorem sub_len_toNat (l : Nat) : (rootLen c - len c l).toNat = 2 ^ c.maxLevel - size c l := by
  have hp := size_pos c l
  have hle : size c l ≤ 2 ^ c.maxLevel := Nat.le_of_dvd (Nat.two_pow_pos _) (size_dvd c l)
  have hM := pow_max_lt c
  have hR : (rootLen c).toNat = 2 ^ c.maxLevel := by cases c <;> decide
  rw [BitVec.toNat_sub, hR, len_toNat, show 2 ^ 32 - size c l + 2 ^ c.maxLevel = 2 ^ c.maxLevel - size c l + 2 ^ 32 by omega,
    Nat.add_mod_right, Nat.mod_eq_of_lt (by omega)]

theorem eq_iff_toNat (v w : BitVec 32) : v = w ↔ v.toNat = w.toNat := BitVec.toNat_inj.symm

theorem eq_sub_len {e : Elem c.dim} (he : Aligned c e) (i : Fin c.dim) : e.x i = rootLen c - len c e.level ↔
    (e.x i).toNat + size c e.level = 2 ^ c.maxLevel := by
  have hs := x_add_le he i
  rw [eq_iff_toNat, sub_len_toNat]
  omega

theorem eq_zero_iff (v : BitVec 32) : v = 0 ↔ v.toNat = 0 := eq_iff_toNat v 0

theorem boundary_tri {e : Elem 2} (he : Valid .tri e) {f : Nat} (hf : f < 3) : isRootBoundary .tri e f = true ↔
    e.type = 0 ∧ ((f = 0 ∧ (e.x 0).toNat + size .tri e.level = 2 ^ Cls.tri.maxLevel) ∨
      (f = 1 ∧ (e.x 0).toNat = (e.x 1).toNat) ∨ (f = 2 ∧ (e.x 1).toNat = 0)) := by
  have ht : e.type < 2 := he.aligned.2
  have h0 := eq_sub_len he.aligned (0 : Fin 2)
  have h1 := eq_zero_iff (e.x (1 : Fin 2))
  have h2 := eq_iff_toNat (e.x (0 : Fin 2)) (e.x (1 : Fin 2))
  rw [show (e.x 0).toNat = (e.x (0 : Fin 2)).toNat from rfl, show (e.x 1).toNat = (e.x (1 : Fin 2)).toNat from rfl,
    ← h0, ← h1, ← h2]
  simp only [isRootBoundary]
  generalize e.type = t at ht
  interval_cases t <;> interval_cases f <;> simp <;> rfl

theorem boundary_tet {e : Elem 3} (he : Valid .tet e) {f : Nat} (hf : f < 4) : isRootBoundary .tet e f = true ↔
    ((e.type = 0 ∨ e.type = 1) ∧ f = 0 ∧ (e.x 0).toNat + size .tet e.level = 2 ^ Cls.tet.maxLevel) ∨
    (((e.type = 0 ∧ f = 1) ∨ (e.type = 2 ∧ f = 2)) ∧ (e.x 0).toNat = (e.x 2).toNat) ∨
    (((e.type = 0 ∧ f = 2) ∨ (e.type = 4 ∧ f = 1)) ∧ (e.x 1).toNat = (e.x 2).toNat) ∨
    ((e.type = 0 ∨ e.type = 5) ∧ f = 3 ∧ (e.x 1).toNat = 0) := by
  have ht : e.type < 6 := he.aligned.2
  have h0 := eq_sub_len he.aligned (0 : Fin 3)
  have h1 := eq_zero_iff (e.x (1 : Fin 3))
  have h2 := eq_iff_toNat (e.x (0 : Fin 3)) (e.x (2 : Fin 3))
  have h3 := eq_iff_toNat (e.x (1 : Fin 3)) (e.x (2 : Fin 3))
  rw [show (e.x 0).toNat = (e.x (0 : Fin 3)).toNat from rfl, show (e.x 1).toNat = (e.x (1 : Fin 3)).toNat from rfl,
    show (e.x 2).toNat = (e.x (2 : Fin 3)).toNat from rfl, ← h0, ← h1, ← h2, ← h3]
  simp only [isRootBoundary]
  generalize e.type = t at ht
  interval_cases t <;> interval_cases f <;> simp <;> rfl

theorem mem_points_root_tri {p : Fin 2 → Nat} : p ∈ Points .tri (root .tri) ↔
    p 0 ≤ 2 ^ Cls.tri.maxLevel ∧ p 1 ≤ p 0 := by
  have hs : size .tri (root .tri).level = 2 ^ Cls.tri.maxLevel := rfl
  have h0 : ∀ i : Fin 2, ((root .tri).x i).toNat = 0 := fun _ => rfl
  constructor
  · rintro ⟨h1, h2⟩
    have a := (h1 (0 : Fin 2)).2
    have b := h2 (0 : Fin 2) (1 : Fin 2) (by decide)
    rw [h0, hs] at a
    rw [h0, h0] at b
    omega
  · rintro ⟨h1, h2⟩
    refine ⟨fun i => ?_, fun i j hij => ?_⟩
    · rw [h0, hs]
      have h : ∀ i : Fin 2, i = 0 ∨ i = 1 := by decide
      rcases h i with rfl | rfl <;> constructor <;> omega
    · have : i = (0 : Fin 2) ∧ j = (1 : Fin 2) := by revert hij; revert i j; decide
      rw [this.1, this.2, h0, h0]
      omega

theorem mem_face_root_tri {p : Fin 2 → Nat} {g : Nat} (hg : g < 3) : p ∈ Face .tri (root .tri) g ↔
    p 0 ≤ 2 ^ Cls.tri.maxLevel ∧ p 1 ≤ p 0 ∧ (g = 0 → p 0 = 2 ^ Cls.tri.maxLevel) ∧ (g = 1 → p 0 = p 1) ∧
    (g = 2 → p 1 = 0) := by
  have hs : size .tri (root .tri).level = 2 ^ Cls.tri.maxLevel := rfl
  have h0 : ∀ i : Fin 2, ((root .tri).x i).toNat = 0 := fun _ => rfl
  have ht : (root .tri).type = 0 := rfl
  constructor
  · rintro ⟨h1, h2, h3, h4⟩
    rw [mem_points_root_tri] at h1
    refine ⟨h1.1, h1.2, fun h => ?_, fun h => ?_, fun h => ?_⟩
    · have := h2 h (0 : Fin 2) (by decide)
      rw [h0, hs] at this
      omega
    · have := h4 (0 : Fin 2) (1 : Fin 2) (by rw [h]; decide) (by rw [h]; decide)
      rw [h0, h0] at this
      omega
    · have := h3 h (1 : Fin 2) (by decide)
      rw [h0] at this
      omega
  · rintro ⟨a, b, h1, h2, h3⟩
    refine ⟨mem_points_root_tri.2 ⟨a, b⟩, fun h i hi => ?_, fun h i hi => ?_, fun i j hi hj => ?_⟩
    · have : i = (0 : Fin 2) := by revert hi; revert i; decide
      rw [this, h0, hs, h1 h]; omega
    · have : i = (1 : Fin 2) := by revert hi; revert i; decide
      rw [this, h0, h3 h]
    · rw [ht] at hi hj
      have : i = (0 : Fin 2) ∧ j = (1 : Fin 2) ∧ g = 1 := by
        interval_cases g
        · exfalso; revert hi; revert i; decide
        · revert hi hj; revert i j; decide
        · exfalso; revert hj; revert j; decide
      rw [this.1, this.2.1, h0, h0, h2 this.2.2]

theorem mem_points_root_tet {p : Fin 3 → Nat} : p ∈ Points .tet (root .tet) ↔
    p 0 ≤ 2 ^ Cls.tet.maxLevel ∧ p 2 ≤ p 0 ∧ p 1 ≤ p 2 := by
  have hs : size .tet (root .tet).level = 2 ^ Cls.tet.maxLevel := rfl
  have h0 : ∀ i : Fin 3, ((root .tet).x i).toNat = 0 := fun _ => rfl
  constructor
  · rintro ⟨h1, h2⟩
    have a := (h1 (0 : Fin 3)).2
    have b := h2 (0 : Fin 3) (2 : Fin 3) (by decide)
    have d := h2 (2 : Fin 3) (1 : Fin 3) (by decide)
    rw [h0, hs] at a
    rw [h0, h0] at b d
    omega
  · rintro ⟨h1, h2, h3⟩
    refine ⟨fun i => ?_, fun i j hij => ?_⟩
    · rw [h0, hs]
      have h : ∀ i : Fin 3, i = 0 ∨ i = 1 ∨ i = 2 := by decide
      rcases h i with rfl | rfl | rfl <;> constructor <;> omega
    · have : (i = (0 : Fin 3) ∧ j = (2 : Fin 3)) ∨ (i = (2 : Fin 3) ∧ j = (1 : Fin 3)) ∨ (i = (0 : Fin 3) ∧ j = (1 : Fin 3)) := by
        revert hij; revert i j; decide
      rw [h0, h0]
      rcases this with ⟨rfl, rfl⟩ | ⟨rfl, rfl⟩ | ⟨rfl, rfl⟩ <;> omega

theorem mem_face_root_tet {p : Fin 3 → Nat} {g : Nat} (hg : g < 4) : p ∈ Face .tet (root .tet) g ↔
    p 0 ≤ 2 ^ Cls.tet.maxLevel ∧ p 2 ≤ p 0 ∧ p 1 ≤ p 2 ∧ (g = 0 → p 0 = 2 ^ Cls.tet.maxLevel) ∧ (g = 1 → p 0 = p 2) ∧
    (g = 2 → p 2 = p 1) ∧ (g = 3 → p 1 = 0) := by
  have hs : size .tet (root .tet).level = 2 ^ Cls.tet.maxLevel := rfl
  have h0 : ∀ i : Fin 3, ((root .tet).x i).toNat = 0 := fun _ => rfl
  have ht : (root .tet).type = 0 := rfl
  constructor
  · rintro ⟨h1, h2, h3, h4⟩
    rw [mem_points_root_tet] at h1
    refine ⟨h1.1, h1.2.1, h1.2.2, fun h => ?_, fun h => ?_, fun h => ?_, fun h => ?_⟩
    · have := h2 h (0 : Fin 3) (by decide)
      rw [h0, hs] at this
      omega
    · have := h4 (0 : Fin 3) (2 : Fin 3) (by rw [h]; decide) (by rw [h]; decide)
      rw [h0, h0] at this
      omega
    · have := h4 (2 : Fin 3) (1 : Fin 3) (by rw [h]; decide) (by rw [h]; decide)
      rw [h0, h0] at this
      omega
    · have := h3 h (1 : Fin 3) (by decide)
      rw [h0] at this
      omega
  · rintro ⟨a, b, d, h1, h2, h3, h4⟩
    refine ⟨mem_points_root_tet.2 ⟨a, b, d⟩, fun h i hi => ?_, fun h i hi => ?_, fun i j hi hj => ?_⟩
    · have : i = (0 : Fin 3) := by revert hi; revert i; decide
      rw [this, h0, hs, h1 h]; omega
    · have : i = (1 : Fin 3) := by revert hi; revert i; decide
      rw [this, h0, h4 h]
    · rw [ht] at hi hj
      have : (i = (0 : Fin 3) ∧ j = (2 : Fin 3) ∧ g = 1) ∨ (i = (2 : Fin 3) ∧ j = (1 : Fin 3) ∧ g = 2) := by
        interval_cases g
        · exfalso; revert hi; revert i; decide
        · revert hi hj; revert i j; decide
        · revert hi hj; revert i j; decide
        · exfalso; revert hj; revert j; decide
      rcases this with ⟨rfl, rfl, h⟩ | ⟨rfl, rfl, h⟩
      · rw [h0, h0, h2 h]
      · rw [h0, h0, h3 h]

/-- The relations between the coordinates of elements. -/
theorem x_rel {e : Elem c.dim} (he : Aligned c e) (i j : Fin c.dim) :
    (e.x i).toNat + size c e.level ≤ (e.x j).toNat ∨ (e.x i).toNat = (e.x j).toNat ∨
      (e.x j).toNat + size c e.level ≤ (e.x i).toNat := by
  rcases Nat.lt_trichotomy (e.x i).toNat (e.x j).toNat with h | h | h
  · exact Or.inl (add_le_of_dvd (x_dvd he i) (x_dvd he j) h)
  · exact Or.inr (Or.inl h)
  · exact Or.inr (Or.inr (add_le_of_dvd (x_dvd he j) (x_dvd he i) h))

theorem x_zero {e : Elem c.dim} (he : Aligned c e) (i : Fin c.dim) : (e.x i).toNat = 0 ∨ size c e.level ≤ (e.x i).toNat := by
  rcases Nat.eq_zero_or_pos (e.x i).toNat with h | h
  · exact Or.inl h
  · exact Or.inr (Nat.le_of_dvd h (x_dvd he i))

theorem neighbour_toNat' {e : Elem c.dim} (he : Aligned c e) {f : Nat} (hf : f < c.numFaces) (i : Fin c.dim) :
    (f = 0 → rank c e.type i = 1 → ((faceNeighbour c e f).1.x i).toNat = (e.x i).toNat + size c e.level) ∧
    (f = c.dim → rank c e.type i = c.dim → size c e.level ≤ (e.x i).toNat →
      ((faceNeighbour c e f).1.x i).toNat + size c e.level = (e.x i).toNat) ∧
    (¬ (f = 0 ∧ rank c e.type i = 1) → ¬ (f = c.dim ∧ rank c e.type i = c.dim) →
      ((faceNeighbour c e f).1.x i).toNat = (e.x i).toNat) := by
  have hM := pow_max_lt c
  have hx := x_add_le he i
  have hd := dim_ge c
  rw [neighbour_x he.2 hf]
  refine ⟨fun a b => ?_, fun a b h => ?_, fun a b => ?_⟩
  · rw [if_pos ⟨a, b⟩, BitVec.toNat_add, len_toNat, Nat.mod_eq_of_lt (by omega)]
  · rw [if_neg (by omega), if_pos ⟨a, b⟩, BitVec.toNat_sub, len_toNat,
      show 2 ^ 32 - size c e.level + (e.x i).toNat = (e.x i).toNat - size c e.level + 2 ^ 32 by omega,
      Nat.add_mod_right, Nat.mod_eq_of_lt (by omega)]
    omega
  · rw [if_neg a, if_neg b]

theorem aligned_neighbour {e : Elem c.dim} (he : Aligned c e) {f : Nat} (hf : f < c.numFaces)
    (h : ∀ i, ((faceNeighbour c e f).1.x i).toNat < 2 ^ c.maxLevel) : Aligned c (faceNeighbour c e f).1 := by
  obtain ⟨h1, h2, h3⟩ := neighbour_rest he.2 hf
  refine ⟨⟨?_, fun i => ⟨h i, neighbour_dvd he hf i⟩⟩, ?_⟩
  · show (faceNeighbour c e f).1.level ≤ _
    rw [h1]; exact he.1.1
  · rw [h2]; exact (nb_table c _ he.2 f hf).1

theorem valid_neighbour_tri {e : Elem 2} (he : Valid .tri e) {f : Nat} (hf : f < 3)
    (hb : ¬ isRootBoundary .tri e f = true) : Valid .tri (faceNeighbour .tri e f).1 := by
  rw [boundary_tri he hf] at hb
  have ha := he.aligned
  have hi := (inside_tri ha.2).1 (valid_iff.1 he).2
  have ht : e.type < 2 := ha.2
  have w0 := neighbour_toNat' (c := .tri) ha (f := f) hf (0 : Fin 2)
  have w1 := neighbour_toNat' (c := .tri) ha (f := f) hf (1 : Fin 2)
  have r01 := x_rel ha (0 : Fin 2) (1 : Fin 2)
  have z0 := x_zero ha (0 : Fin 2)
  have z1 := x_zero ha (1 : Fin 2)
  have m0 := x_add_le ha (0 : Fin 2)
  have m1 := x_add_le ha (1 : Fin 2)
  have hp := size_pos .tri e.level
  have hn := (neighbour_rest (c := .tri) ha.2 (f := f) hf).2.1
  have key : ((faceNeighbour .tri e f).1.x (0 : Fin 2)).toNat < 2 ^ Cls.tri.maxLevel ∧
      ((faceNeighbour .tri e f).1.x (1 : Fin 2)).toNat < 2 ^ Cls.tri.maxLevel ∧ Inside .tri (faceNeighbour .tri e f).1 := by
    rw [inside_tri (by rw [hn]; exact (nb_table .tri _ ht f hf).1), hn]
    change (e.x (1 : Fin 2)).toNat < (e.x (0 : Fin 2)).toNat ∨ ((e.x (1 : Fin 2)).toNat = (e.x (0 : Fin 2)).toNat ∧ _) at hi
    change ¬ (_ ∧ ((_ ∧ (e.x (0 : Fin 2)).toNat + _ = _) ∨ (_ ∧ (e.x (0 : Fin 2)).toNat = (e.x (1 : Fin 2)).toNat) ∨
      (_ ∧ (e.x (1 : Fin 2)).toNat = 0))) at hb
    change _ ∧ _ ∧ (((faceNeighbour .tri e f).1.x (1 : Fin 2)).toNat < ((faceNeighbour .tri e f).1.x (0 : Fin 2)).toNat ∨
      ((faceNeighbour .tri e f).1.x (1 : Fin 2)).toNat = ((faceNeighbour .tri e f).1.x (0 : Fin 2)).toNat ∧ _)
    generalize ((faceNeighbour .tri e f).1.x (0 : Fin 2)).toNat = n0 at *
    generalize ((faceNeighbour .tri e f).1.x (1 : Fin 2)).toNat = n1 at *
    generalize (e.x (0 : Fin 2)).toNat = x0 at *
    generalize (e.x (1 : Fin 2)).toNat = x1 at *
    generalize e.type = t at *
    generalize size .tri e.level = h at *
    generalize 2 ^ Cls.tri.maxLevel = M at *
    have hd : Cls.tri.dim = 2 := rfl
    clear he ha hn
    interval_cases t <;> interval_cases f <;>
      simp [rank, axes, hd, List.idxOf_cons, nbType, faceNeighbour] at * <;> omega
  refine valid_iff.2 ⟨aligned_neighbour ha hf fun i => ?_, key.2.2⟩
  have h : ∀ i : Fin 2, i = 0 ∨ i = 1 := by decide
  rcases h i with rfl | rfl
  · exact key.1
  · exact key.2.1

theorem valid_neighbour_tet {e : Elem 3} (he : Valid .tet e) {f : Nat} (hf : f < 4)
    (hb : ¬ isRootBoundary .tet e f = true) : Valid .tet (faceNeighbour .tet e f).1 := by
  rw [boundary_tet he hf] at hb
  have ha := he.aligned
  have hi := (inside_tet ha.2).1 (valid_iff.1 he).2
  have ht : e.type < 6 := ha.2
  have w0 := neighbour_toNat' (c := .tet) ha (f := f) hf (0 : Fin 3)
  have w1 := neighbour_toNat' (c := .tet) ha (f := f) hf (1 : Fin 3)
  have w2 := neighbour_toNat' (c := .tet) ha (f := f) hf (2 : Fin 3)
  have r01 := x_rel ha (0 : Fin 3) (1 : Fin 3)
  have r02 := x_rel ha (0 : Fin 3) (2 : Fin 3)
  have r12 := x_rel ha (1 : Fin 3) (2 : Fin 3)
  have z0 := x_zero ha (0 : Fin 3)
  have z1 := x_zero ha (1 : Fin 3)
  have z2 := x_zero ha (2 : Fin 3)
  have m0 := x_add_le ha (0 : Fin 3)
  have m1 := x_add_le ha (1 : Fin 3)
  have m2 := x_add_le ha (2 : Fin 3)
  have hp := size_pos .tet e.level
  have hn := (neighbour_rest (c := .tet) ha.2 (f := f) hf).2.1
  have key : ((faceNeighbour .tet e f).1.x (0 : Fin 3)).toNat < 2 ^ Cls.tet.maxLevel ∧
      ((faceNeighbour .tet e f).1.x (1 : Fin 3)).toNat < 2 ^ Cls.tet.maxLevel ∧
      ((faceNeighbour .tet e f).1.x (2 : Fin 3)).toNat < 2 ^ Cls.tet.maxLevel ∧ Inside .tet (faceNeighbour .tet e f).1 := by
    rw [inside_tet (by rw [hn]; exact (nb_table .tet _ ht f hf).1), hn]
    change ((e.x (2 : Fin 3)).toNat < (e.x (0 : Fin 3)).toNat ∨ ((e.x (2 : Fin 3)).toNat = (e.x (0 : Fin 3)).toNat ∧ _)) ∧
      ((e.x (1 : Fin 3)).toNat < (e.x (2 : Fin 3)).toNat ∨ ((e.x (1 : Fin 3)).toNat = (e.x (2 : Fin 3)).toNat ∧ _)) ∧
      ((e.x (1 : Fin 3)).toNat < (e.x (0 : Fin 3)).toNat ∨ ((e.x (1 : Fin 3)).toNat = (e.x (0 : Fin 3)).toNat ∧ _)) at hi
    change ¬ ((_ ∧ _ ∧ (e.x (0 : Fin 3)).toNat + _ = _) ∨ (_ ∧ (e.x (0 : Fin 3)).toNat = (e.x (2 : Fin 3)).toNat) ∨
      (_ ∧ (e.x (1 : Fin 3)).toNat = (e.x (2 : Fin 3)).toNat) ∨ (_ ∧ _ ∧ (e.x (1 : Fin 3)).toNat = 0)) at hb
    change _ ∧ _ ∧ _ ∧ (((faceNeighbour .tet e f).1.x (2 : Fin 3)).toNat < ((faceNeighbour .tet e f).1.x (0 : Fin 3)).toNat ∨
      ((faceNeighbour .tet e f).1.x (2 : Fin 3)).toNat = ((faceNeighbour .tet e f).1.x (0 : Fin 3)).toNat ∧ _) ∧
      (((faceNeighbour .tet e f).1.x (1 : Fin 3)).toNat < ((faceNeighbour .tet e f).1.x (2 : Fin 3)).toNat ∨
      ((faceNeighbour .tet e f).1.x (1 : Fin 3)).toNat = ((faceNeighbour .tet e f).1.x (2 : Fin 3)).toNat ∧ _) ∧
      (((faceNeighbour .tet e f).1.x (1 : Fin 3)).toNat < ((faceNeighbour .tet e f).1.x (0 : Fin 3)).toNat ∨
      ((faceNeighbour .tet e f).1.x (1 : Fin 3)).toNat = ((faceNeighbour .tet e f).1.x (0 : Fin 3)).toNat ∧ _)
    generalize ((faceNeighbour .tet e f).1.x (0 : Fin 3)).toNat = n0 at *
    generalize ((faceNeighbour .tet e f).1.x (1 : Fin 3)).toNat = n1 at *
    generalize ((faceNeighbour .tet e f).1.x (2 : Fin 3)).toNat = n2 at *
    generalize (e.x (0 : Fin 3)).toNat = x0 at *
    generalize (e.x (1 : Fin 3)).toNat = x1 at *
    generalize (e.x (2 : Fin 3)).toNat = x2 at *
    generalize e.type = t at *
    generalize size .tet e.level = h at *
    generalize 2 ^ Cls.tet.maxLevel = M at *
    have hd : Cls.tet.dim = 3 := rfl
    clear he ha hn
    interval_cases t <;> interval_cases f <;>
      simp [rank, axes, hd, List.idxOf_cons, nbType, faceNeighbour] at * <;> omega
  refine valid_iff.2 ⟨aligned_neighbour ha hf fun i => ?_, key.2.2.2⟩
  have h : ∀ i : Fin 3, i = 0 ∨ i = 1 ∨ i = 2 := by decide
  rcases h i with rfl | rfl | rfl
  · exact key.1
  · exact key.2.1
  · exact key.2.2.1

theorem valid_neighbour {e : Elem c.dim} (he : Valid c e) {f : Nat} (hf : f < c.numFaces)
    (hb : ¬ isRootBoundary c e f = true) : Valid c (faceNeighbour c e f).1 := by
  cases c
  · exact valid_neighbour_tri he hf hb
  · exact valid_neighbour_tet he hf hb

/-! ### The faces at the boundary -/

theorem corner_tri (e : Elem 2) (k : Nat) (i : Fin 2) : corner .tri e k i =
    (e.x i).toNat + if rank .tri e.type i ≤ k then size .tri e.level else 0 := rfl

theorem corner_tet (e : Elem 3) (k : Nat) (i : Fin 3) : corner .tet e k i =
    (e.x i).toNat + if rank .tet e.type i ≤ k then size .tet e.level else 0 := rfl

theorem face_root_tri {e : Elem 2} (he : Valid .tri e) {f g : Nat} (hf : f < 3) (hg : g < 3) :
    Face .tri e f ⊆ Face .tri (root .tri) g ↔ isRootBoundary .tri e f = true ∧ (g : Int) = treeFace .tri e f := by
  have ha := he.aligned
  have hi := (inside_tri ha.2).1 (valid_iff.1 he).2
  have ht : e.type < 2 := ha.2
  have hp := size_pos .tri e.level
  have r01 := x_rel ha (0 : Fin 2) (1 : Fin 2)
  have m0 := x_add_le ha (0 : Fin 2)
  have m1 := x_add_le ha (1 : Fin 2)
  rw [boundary_tri he hf, face_sub_iff ht (by show f ≤ 2; omega)]
  simp only [mem_face_root_tri hg, corner_tri, treeFace]
  change (e.x (1 : Fin 2)).toNat < (e.x (0 : Fin 2)).toNat ∨ ((e.x (1 : Fin 2)).toNat = (e.x (0 : Fin 2)).toNat ∧ _) at hi
  change _ ↔ (_ ∧ ((_ ∧ (e.x (0 : Fin 2)).toNat + _ = _) ∨ (_ ∧ (e.x (0 : Fin 2)).toNat = (e.x (1 : Fin 2)).toNat) ∨
      (_ ∧ (e.x (1 : Fin 2)).toNat = 0))) ∧ _
  have h3 : ∀ P : Nat → Prop, (∀ k ≤ Cls.tri.dim, P k) ↔ P 0 ∧ P 1 ∧ P 2 := by
    intro P
    refine ⟨fun h => ⟨h 0 (by decide), h 1 (by decide), h 2 (by decide)⟩, fun h k hk => ?_⟩
    change k ≤ 2 at hk
    interval_cases k
    exacts [h.1, h.2.1, h.2.2]
  rw [h3]
  generalize (e.x (0 : Fin 2)).toNat = x0 at *
  generalize (e.x (1 : Fin 2)).toNat = x1 at *
  generalize e.type = t at *
  generalize size .tri e.level = h at *
  generalize 2 ^ Cls.tri.maxLevel = M at *
  clear he ha
  interval_cases t <;> interval_cases f <;> interval_cases g <;>
    simp [rank, axes, List.idxOf_cons] at * <;> omega

set_option maxHeartbeats 2000000 in
theorem face_root_tet {e : Elem 3} (he : Valid .tet e) {f g : Nat} (hf : f < 4) (hg : g < 4) :
    Face .tet e f ⊆ Face .tet (root .tet) g ↔ isRootBoundary .tet e f = true ∧ (g : Int) = treeFace .tet e f := by
  have ha := he.aligned
  have hi := (inside_tet ha.2).1 (valid_iff.1 he).2
  have ht : e.type < 6 := ha.2
  have hp := size_pos .tet e.level
  have r01 := x_rel ha (0 : Fin 3) (1 : Fin 3)
  have r02 := x_rel ha (0 : Fin 3) (2 : Fin 3)
  have r12 := x_rel ha (1 : Fin 3) (2 : Fin 3)
  have m0 := x_add_le ha (0 : Fin 3)
  have m1 := x_add_le ha (1 : Fin 3)
  have m2 := x_add_le ha (2 : Fin 3)
  rw [boundary_tet he hf, face_sub_iff ht (by show f ≤ 3; omega)]
  simp only [mem_face_root_tet hg, corner_tet, treeFace]
  change ((e.x (2 : Fin 3)).toNat < (e.x (0 : Fin 3)).toNat ∨ ((e.x (2 : Fin 3)).toNat = (e.x (0 : Fin 3)).toNat ∧ _)) ∧
      ((e.x (1 : Fin 3)).toNat < (e.x (2 : Fin 3)).toNat ∨ ((e.x (1 : Fin 3)).toNat = (e.x (2 : Fin 3)).toNat ∧ _)) ∧
      ((e.x (1 : Fin 3)).toNat < (e.x (0 : Fin 3)).toNat ∨ ((e.x (1 : Fin 3)).toNat = (e.x (0 : Fin 3)).toNat ∧ _)) at hi
  change _ ↔ ((_ ∧ _ ∧ (e.x (0 : Fin 3)).toNat + _ = _) ∨ (_ ∧ (e.x (0 : Fin 3)).toNat = (e.x (2 : Fin 3)).toNat) ∨
      (_ ∧ (e.x (1 : Fin 3)).toNat = (e.x (2 : Fin 3)).toNat) ∨ (_ ∧ _ ∧ (e.x (1 : Fin 3)).toNat = 0)) ∧ _
  have h3 : ∀ P : Nat → Prop, (∀ k ≤ Cls.tet.dim, P k) ↔ P 0 ∧ P 1 ∧ P 2 ∧ P 3 := by
    intro P
    refine ⟨fun h => ⟨h 0 (by decide), h 1 (by decide), h 2 (by decide), h 3 (by decide)⟩, fun h k hk => ?_⟩
    change k ≤ 3 at hk
    interval_cases k
    exacts [h.1, h.2.1, h.2.2.1, h.2.2.2]
  rw [h3]
  generalize (e.x (0 : Fin 3)).toNat = x0 at *
  generalize (e.x (1 : Fin 3)).toNat = x1 at *
  generalize (e.x (2 : Fin 3)).toNat = x2 at *
  generalize e.type = t at *
  generalize size .tet e.level = h at *
  generalize 2 ^ Cls.tet.maxLevel = M at *
  clear he ha
  interval_cases t <;> interval_cases f <;> interval_cases g <;>
    simp [rank, axes, List.idxOf_cons] at * <;> omega

/-- A face of an element lies in a face of the root if and only if the test for the boundary says so, and the face of the
root is the tree face. -/
theorem face_root_iff {e : Elem c.dim} (he : Valid c e) {f g : Nat} (hf : f < c.numFaces) (hg : g < c.numFaces) :
    Face c e f ⊆ Face c (root c) g ↔ isRootBoundary c e f = true ∧ (g : Int) = treeFace c e f := by
  cases c
  · exact face_root_tri he hf hg
  · exact face_root_tet he hf hg

theorem treeFace_of_boundary {e : Elem c.dim} (he : Valid c e) {f : Nat} (hf : f < c.numFaces)
    (hb : isRootBoundary c e f = true) : ∃ g : Nat, g < c.numFaces ∧ (g : Int) = treeFace c e f := by
  cases c
  · exact ⟨f, hf, rfl⟩
  · have ht : e.type < 6 := he.aligned.2
    rw [boundary_tet he hf] at hb
    simp only [treeFace]
    rcases hb with ⟨a, rfl, _⟩ | ⟨⟨a, rfl⟩ | ⟨a, rfl⟩, _⟩ | ⟨⟨a, rfl⟩ | ⟨a, rfl⟩, _⟩ | ⟨a, rfl, _⟩
    · rcases a with a | a <;> rw [a] <;> exact ⟨0, by decide, by decide⟩
    · rw [a]; exact ⟨1, by decide, by decide⟩
    · rw [a]; exact ⟨1, by decide, by decide⟩
    · rw [a]; exact ⟨2, by decide, by decide⟩
    · rw [a]; exact ⟨2, by decide, by decide⟩
    · rcases a with a | a <;> rw [a] <;> exact ⟨3, by decide, by decide⟩

/-- The neighbor lies inside of the root if and only if the face is not at the boundary. -/
theorem valid_neighbour_iff {e : Elem c.dim} (he : Valid c e) {f : Nat} (hf : f < c.numFaces) :
    Valid c (faceNeighbour c e f).1 ↔ ∀ g < c.numFaces, ¬ Face c e f ⊆ Face c (root c) g := by
  constructor
  · exact fun h g hg => not_boundary_of_neighbour he hf h hg
  · intro h
    refine valid_neighbour he hf fun hb => ?_
    obtain ⟨g, hg, hgt⟩ := treeFace_of_boundary he hf hb
    exact h g hg ((face_root_iff he hf hg).2 ⟨hb, hgt⟩)

end T8.Simplex
