/-
Face neighbors of the elements of the refinement of a pyramid as point sets, and faces at the boundary of the root (C10).
-/
import Verif.Lemmas.PyramidFaces

namespace T8.Pyramid
open T8.RTree T8.Bits
open T8.Simplex (look Cls)

/-! ### When is there a neighbor? -/

theorem al_nb {p : S} (hp : Al p) {f : Nat} (hf : f < 4) : Al (nb p f) ↔ ∀ i : Fin 3,
    (f = 0 → Simplex.rank .tet p.type i = 1 → (p.x i).toNat + 2 ^ (21 - p.level) < 2 ^ 21) ∧
    (f = 3 → Simplex.rank .tet p.type i = 3 → 2 ^ (21 - p.level) ≤ (p.x i).toNat) := by
  constructor
  · intro h i
    obtain ⟨h1, h2, _⟩ := nb_toNat hp hf h i
    have h3 : ((nb p f).x i).toNat < 2 ^ 21 := Simplex.x_lt (c := .tet) h i
    exact ⟨fun a b => by rw [← h1 a b]; exact h3, fun a b => by rw [← h2 a b]; omega⟩
  · intro h
    refine Simplex.aligned_neighbour (c := .tet) hp hf fun i => ?_
    obtain ⟨h1, h2, h3⟩ := Simplex.neighbour_toNat' (c := .tet) hp (f := f) hf i
    replace h1 : f = 0 → Simplex.rank .tet p.type i = 1 → ((nb p f).x i).toNat = (p.x i).toNat + 2 ^ (21 - p.level) := h1
    replace h2 : f = 3 → Simplex.rank .tet p.type i = 3 → 2 ^ (21 - p.level) ≤ (p.x i).toNat →
      ((nb p f).x i).toNat + 2 ^ (21 - p.level) = (p.x i).toNat := h2
    replace h3 : ¬ (f = 0 ∧ Simplex.rank .tet p.type i = 1) → ¬ (f = 3 ∧ Simplex.rank .tet p.type i = 3) →
      ((nb p f).x i).toNat = (p.x i).toNat := h3
    show ((nb p f).x i).toNat < 2 ^ 21
    have h4 : (p.x i).toNat < 2 ^ 21 := Simplex.x_lt (c := .tet) hp i
    by_cases a : f = 0 ∧ Simplex.rank .tet p.type i = 1
    · rw [h1 a.1 a.2]; exact (h i).1 a.1 a.2
    · by_cases b : f = 3 ∧ Simplex.rank .tet p.type i = 3
      · have := h2 b.1 b.2 ((h i).2 b.1 b.2)
        have := Nat.two_pow_pos (21 - p.level)
        omega
      · rw [h3 a b]; exact h4

/-- The face of a tetrahedron lies in the boundary of the root. -/
def tb (t f X Y Z h : Nat) : Prop :=
  ((t = 0 ∧ f = 0 ∨ t = 1 ∧ f = 0) ∧ X + h = 2 ^ 21) ∨ ((t = 0 ∧ f = 1 ∨ t = 2 ∧ f = 2) ∧ X = Z) ∨
  ((t = 2 ∧ f = 0 ∨ t = 3 ∧ f = 0) ∧ Y + h = 2 ^ 21) ∨ ((t = 1 ∧ f = 2 ∨ t = 3 ∧ f = 1) ∧ Y = Z) ∨
  ((t = 1 ∧ f = 3 ∨ t = 2 ∧ f = 3) ∧ Z = 0)

/-- Multiples of the edge length. -/
theorem step_le {a b h : Nat} (ha : h ∣ a) (hb : h ∣ b) (hlt : a < b) : a + h ≤ b := add_le_of_dvd ha hb hlt

theorem nb_inside {p : S} (hp : Al p) (hi : InP p) {f : Nat} (hf : f < 4) :
    (Al (nb p f) ∧ InP (nb p f)) ↔ ¬ tb p.type f (p.x 0).toNat (p.x 1).toNat (p.x 2).toNat (2 ^ (21 - p.level)) := by
  have hal := al_nb hp hf
  have hin := (inP_iff hp).1 hi
  have hty := nb_type hp hf
  have hpos := Nat.two_pow_pos (21 - p.level)
  have d : ∀ i j : Fin 3, (p.x i).toNat < (p.x j).toNat → (p.x i).toNat + 2 ^ (21 - p.level) ≤ (p.x j).toNat :=
    fun i j => step_le (Simplex.x_dvd (c := .tet) hp i) (Simplex.x_dvd (c := .tet) hp j)
  have d20 := d 2 0
  have d21 := d 2 1
  have u : ∀ i : Fin 3, (p.x i).toNat + 2 ^ (21 - p.level) ≤ 2 ^ 21 := fun i => Simplex.x_add_le (c := .tet) hp i
  have u0 := u 0
  have u1 := u 1
  have u2 := u 2
  have hle : ∀ i : Fin 3, (p.x i).toNat = 0 ∨ 2 ^ (21 - p.level) ≤ (p.x i).toNat := fun i => by
    rcases Nat.eq_zero_or_pos (p.x i).toNat with h | h
    · exact Or.inl h
    · exact Or.inr (Nat.le_of_dvd h (Simplex.x_dvd (c := .tet) hp i))
  have z2 := hle 2
  have nbt : ∀ t < 6, ∀ f < 4, Simplex.nbType .tet t f = ([[4, 5, 1, 2], [3, 2, 0, 5], [0, 1, 3, 4], [5, 4, 2, 1], [2, 3, 5, 0], [1, 0, 4, 3]].getD t []).getD f 0 := by
    decide +kernel
  rw [nbt _ hp.2 _ hf] at hty
  constructor
  · rintro ⟨hA, hI⟩
    have hI' := (inP_iff hA).1 hI
    have n0 := nb_toNat hp hf hA 0
    have n1 := nb_toNat hp hf hA 1
    have n2 := nb_toNat hp hf hA 2
    have v0 : ((nb p f).x 0).toNat < 2 ^ 21 := Simplex.x_lt (c := .tet) hA 0
    have v1 : ((nb p f).x 1).toNat < 2 ^ 21 := Simplex.x_lt (c := .tet) hA 1
    rw [hty] at hI'
    have ht : p.type < 6 := hp.2
    clear hal hA hI hle u d nbt hty hp hi
    generalize ((nb p f).x 0).toNat = X' at *
    generalize ((nb p f).x 1).toNat = Y' at *
    generalize ((nb p f).x 2).toNat = Z' at *
    generalize 2 ^ (21 - p.level) = h at *
    generalize (p.x 0).toNat = X at *
    generalize (p.x 1).toNat = Y at *
    generalize (p.x 2).toNat = Z at *
    generalize p.type = t at *
    interval_cases t <;> interval_cases f <;>
      simp [Simplex.rank, Simplex.axes, List.idxOf, List.findIdx, List.findIdx.go] at n0 n1 n2 hI' hin <;> simp [tb] <;> omega
  · intro htb
    have hA : Al (nb p f) := by
      rw [hal]
      have ht : p.type < 6 := hp.2
      clear hal hty u d nbt hi hle
      intro i
      have w : (p.x i).toNat = if i = 0 then (p.x 0).toNat else if i = 1 then (p.x 1).toNat else (p.x 2).toNat := by
        fin_cases i <;> rfl
      rw [w]
      clear w hp
      generalize 2 ^ (21 - p.level) = h at *
      generalize (p.x 0).toNat = X at *
      generalize (p.x 1).toNat = Y at *
      generalize (p.x 2).toNat = Z at *
      generalize p.type = t at *
      interval_cases t <;> interval_cases f <;> simp [tb] at htb hin <;> fin_cases i <;>
        simp [Simplex.rank, Simplex.axes, List.idxOf, List.findIdx, List.findIdx.go] <;> omega
    refine ⟨hA, (inP_iff hA).2 ?_⟩
    have n0 := nb_toNat hp hf hA 0
    have n1 := nb_toNat hp hf hA 1
    have n2 := nb_toNat hp hf hA 2
    rw [hty]
    have ht : p.type < 6 := hp.2
    clear hal hA hle u d nbt hty hp hi
    generalize ((nb p f).x 0).toNat = X' at *
    generalize ((nb p f).x 1).toNat = Y' at *
    generalize ((nb p f).x 2).toNat = Z' at *
    generalize 2 ^ (21 - p.level) = h at *
    generalize (p.x 0).toNat = X at *
    generalize (p.x 1).toNat = Y at *
    generalize (p.x 2).toNat = Z at *
    generalize p.type = t at *
    interval_cases t <;> interval_cases f <;>
      simp [Simplex.rank, Simplex.axes, List.idxOf, List.findIdx, List.findIdx.go] at n0 n1 n2 hin <;> simp [tb] at htb ⊢ <;> omega

/-! ### Faces at the boundary of the root -/

/-- A tetrahedron of the tree does not touch the base of the root with a face. -/
theorem tet_z_pos {e : Elem} (he : Valid e) (ht : e.type = 1 ∨ e.type = 2) : 0 < (e.tet.x 2).toNat := by
  by_contra h0
  have hz : (e.tet.x 2).toNat = 0 := by omega
  have hs : e.type ∈ slots e.type := mem_slots_self (by omega)
  have hp := part_aligned he.good hs
  have hcl : Cl (part e e.type) := by
    intro l hl
    have hlt := ct_lt hp l
    have r := ct_rank hp hl
    have nr : ∀ i : Fin 3, ¬ Simplex.rank .tet (ct (part e e.type) l) (2 : Fin 3) < Simplex.rank .tet (ct (part e e.type) l) i := by
      intro i
      rw [r 2 i]
      rintro (h1 | ⟨_, h2⟩)
      · have : ((part e e.type).x (2 : Fin 3)).toNat % 2 ^ (21 - l) = 0 := by
          show (e.tet.x 2).toNat % _ = 0
          rw [hz]; exact Nat.zero_mod _
        exact Nat.not_lt_zero _ (this ▸ h1)
      · have : ∀ t, t = 1 ∨ t = 2 → ∀ i : Fin 3, ¬ Simplex.rank .tet t (2 : Fin 3) < Simplex.rank .tet t i := by
          rintro t (rfl | rfl) <;> decide +kernel
        exact this e.type ht i h2
    generalize ct (part e e.type) l = t at *
    have : ∀ t < 6, (∀ i : Fin 3, ¬ Simplex.rank .tet t (2 : Fin 3) < Simplex.rank .tet t i) → t ≠ 0 ∧ t ≠ 3 := by decide +kernel
    exact this t hlt nr
  have := (part_cl he hs).1 hcl
  omega

/-- Coordinates of the elements of the tree. -/
theorem tree_coords {e : Elem} (he : Valid e) :
    ((e.tet.x 2).toNat ≤ (e.tet.x 0).toNat ∧ (e.tet.x 2).toNat ≤ (e.tet.x 1).toNat) ∧
    (e.type = 3 ∨ e.type = 4 ∨ e.type = 5 ∨ e.type = 7 → (e.tet.x 2).toNat < (e.tet.x 0).toNat) ∧
    (e.type = 0 ∨ e.type = 4 ∨ e.type = 5 ∨ e.type = 7 → (e.tet.x 2).toNat < (e.tet.x 1).toNat) := by
  have hb := type_lt he.good
  have tab : ∀ b < 8, ∃ t ∈ slots b, (b = 3 ∨ b = 4 ∨ b = 5 ∨ b = 7 → t = 3 ∨ t = 4 ∨ t = 5) ∧
      (b = 0 ∨ b = 4 ∨ b = 5 ∨ b = 7 → t = 0 ∨ t = 4 ∨ t = 5) := by decide +kernel
  obtain ⟨t, t1, t2, t3⟩ := tab _ hb
  obtain ⟨h1, h2⟩ := (inP_iff (part_aligned he.good t1)).1 (part_inP he t1)
  replace h1 : (e.tet.x 2).toNat < (e.tet.x 0).toNat ∨ ((e.tet.x 0).toNat = (e.tet.x 2).toNat ∧ (t = 0 ∨ t = 1 ∨ t = 2)) := h1
  replace h2 : (e.tet.x 2).toNat < (e.tet.x 1).toNat ∨ ((e.tet.x 1).toNat = (e.tet.x 2).toNat ∧ (t = 1 ∨ t = 2 ∨ t = 3)) := h2
  refine ⟨⟨by omega, by omega⟩, fun h => ?_, fun h => ?_⟩
  · have := t2 h; omega
  · have := t3 h; omega

/-- The face `f` lies in the boundary of the root. -/
def AtRoot (e : Elem) (f : Nat) : Prop :=
  tb (faceSlot e.type f).1 (faceSlot e.type f).2 (e.tet.x 0).toNat (e.tet.x 1).toNat (e.tet.x 2).toNat (2 ^ (21 - e.level))

/-- The face of the root. -/
def rootFaceOf (b f : Nat) : Nat :=
  if 6 ≤ b then f else if f = 0 then (if b = 0 ∨ b = 1 then 1 else 3) else if b = 0 ∨ b = 2 then 0 else 2

theorem root_face_iff {e : Elem} (he : Valid e) {f g : Nat} (hf : f < nf e.type) (hg : g < 5) :
    Face e f ⊆ Face root g ↔ AtRoot e f ∧ g = rootFaceOf e.type f := by
  have hb := type_lt he.good
  rw [face_sub hb (show root.type < 8 by decide) (desc_points Valid.root (desc_root (T := tree) he)) hf (show g < nf root.type from hg)]
  obtain ⟨⟨c1, c2⟩, c3, c4⟩ := tree_coords he
  have hz := tet_z_pos he
  have hpos := Nat.two_pow_pos (21 - e.level)
  have u0 := x_add_le he.good 0
  have u1 := x_add_le he.good 1
  have hd : diff e root = fun i => ((e.tet.x i).toNat : Int) := by
    funext i; show ((e.tet.x i).toNat : Int) - (((0 : BitVec 32)).toNat : Int) = _; simp
  have hc : ((2 : Int) ^ (21 - e.level)) = ((2 ^ (21 - e.level) : Nat) : Int) := by push_cast; rfl
  rw [hd, AtRoot, hc]
  show Par (plane e.type f) (plane 6 g) ∧ _ = (plane 6 g).o * 2 ^ 21 ↔ _
  simp only [Plane.form]
  generalize 2 ^ (21 - e.level) = h at *
  generalize (e.tet.x 0).toNat = X at *
  generalize (e.tet.x 1).toNat = Y at *
  generalize (e.tet.x 2).toNat = Z at *
  generalize e.type = b at *
  clear hd hc he
  have hf5 : f < 5 := lt_of_lt_of_le hf (by rw [nf]; split <;> omega)
  interval_cases b <;> interval_cases f <;> first | exact absurd hf (by decide) | skip
  all_goals
    simp [plane, planes, faceSlot, tb, rootFaceOf, Par] at hz c3 c4 ⊢
    interval_cases g <;> simp <;> omega

/-- `t8_dpyramid_is_inside_root` in coordinates. -/
theorem isInsideRoot_coords {x : Fin 3 → BitVec 32} {l T : Nat} (h0 : l ≠ 0) : isInsideRoot ⟨x, l, T⟩ = true ↔
    (∀ i, (x i).toNat < 2 ^ 21) ∧ (x 2).toNat ≤ (x 0).toNat ∧ (x 2).toNat ≤ (x 1).toNat ∧
    ¬ (((x 0).toNat = (x 2).toNat ∧ (T = 3 ∨ T = 5)) ∨ ((x 1).toNat = (x 2).toNat ∧ (T = 0 ∨ T = 4))) := by
  unfold isInsideRoot
  rw [if_neg h0]
  simp only [rootLen_toInt]
  rw [show (∀ i : Fin 3, (x i).toNat < 2 ^ 21) ↔ ((x 0).toNat < 2 ^ 21 ∧ (x 1).toNat < 2 ^ 21 ∧ (x 2).toNat < 2 ^ 21) from
    ⟨fun h => ⟨h 0, h 1, h 2⟩, fun h i => by fin_cases i; exacts [h.1, h.2.1, h.2.2]⟩]
  have r0 := inRange (x := x 0)
  have r1 := inRange (x := x 1)
  have r2 := inRange (x := x 2)
  constructor
  · intro h
    split at h
    · rename_i hc
      have k0 := r0.1 (by omega)
      have k1 := r1.1 (by omega)
      have k2 := r2.1 (by omega)
      have e0 := toInt_of_lt (v := x 0) (by omega)
      have e1 := toInt_of_lt (v := x 1) (by omega)
      have e2 := toInt_of_lt (v := x 2) (by omega)
      rw [e0, e1, e2] at h hc
      refine ⟨⟨k0, k1, k2⟩, by omega, by omega, fun hcon => ?_⟩
      rw [if_pos] at h
      · exact absurd h (by decide)
      · exact hcon.imp (fun h => ⟨by omega, h.2⟩) (fun h => ⟨by omega, h.2⟩)
    · exact absurd h (by decide)
  · rintro ⟨⟨k0, k1, k2⟩, h1, h2, h3⟩
    have e0 := toInt_of_lt (v := x 0) (by omega)
    have e1 := toInt_of_lt (v := x 1) (by omega)
    have e2 := toInt_of_lt (v := x 2) (by omega)
    rw [e0, e1, e2]
    rw [if_pos (by omega), if_neg]
    intro hc
    exact h3 (hc.imp (fun h => ⟨by omega, h.2⟩) (fun h => ⟨by omega, h.2⟩))

theorem tree_inside {e : Elem} (he : Valid e) : isInsideRoot e.tet = true := by
  by_cases h0 : e.level = 0
  · have := tree.root_unique e he h0
    subst this
    decide +kernel
  · obtain ⟨⟨c1, c2⟩, c3, c4⟩ := tree_coords he
    show isInsideRoot ⟨e.tet.x, e.level, e.type⟩ = true
    rw [isInsideRoot_coords h0]
    refine ⟨fun i => (he.good.cube.2 i).1, c1, c2, ?_⟩
    rintro (⟨h1, h2⟩ | ⟨h1, h2⟩)
    · have := c3 (by omega); omega
    · have := c4 (by omega); omega

theorem touching {e : Elem} (he : Good e) (i : Fin 3) :
    (e.tet.x i == rootLen - len e.level) = true ↔ (e.tet.x i).toNat + 2 ^ (21 - e.level) = 2 ^ 21 := by
  have hle : 2 ^ (21 - e.level) ≤ 2 ^ 21 := Nat.pow_le_pow_right (by omega) (by omega)
  have h1 : rootLen.toNat = 2 ^ 21 := by decide
  rw [beq_iff_eq, ← BitVec.toNat_inj, BitVec.toNat_sub_of_le (by rw [BitVec.le_def, len_toNat, h1]; exact hle), len_toNat, h1]
  omega

theorem rootBoundary_iff {e : Elem} (he : Valid e) {f : Nat} (hf : f < nf e.type) : isRootBoundary e f = true ↔ AtRoot e f := by
  have hb := type_lt he.good
  have ht := touching he.good
  have hz : ∀ i : Fin 3, (e.tet.x i == e.tet.x 2) = true ↔ (e.tet.x i).toNat = (e.tet.x 2).toNat := fun i => by
    rw [beq_iff_eq, ← BitVec.toNat_inj]
  have hz0 : (e.tet.x 2 == 0) = true ↔ (e.tet.x 2).toNat = 0 := by
    rw [beq_iff_eq, ← BitVec.toNat_inj]; rfl
  have hzp := tet_z_pos he
  obtain ⟨⟨c1, c2⟩, c3, c4⟩ := tree_coords he
  rw [isRootBoundary, tree_inside he, AtRoot]
  simp only [Bool.not_true, Bool.false_eq_true, if_false]
  have hf5 : f < 5 := lt_of_lt_of_le hf (by rw [nf]; split <;> omega)
  have t0 := ht 0
  have t1 := ht 1
  have z0 := hz 0
  have z1 := hz 1
  clear ht hz he
  generalize (e.tet.x 0 == rootLen - len e.level) = T0 at *
  generalize (e.tet.x 1 == rootLen - len e.level) = T1 at *
  generalize (e.tet.x 0 == e.tet.x 2) = Z0 at *
  generalize (e.tet.x 1 == e.tet.x 2) = Z1 at *
  generalize (e.tet.x 2 == 0) = Z2 at *
  generalize 2 ^ (21 - e.level) = h at *
  generalize (e.tet.x 0).toNat = X at *
  generalize (e.tet.x 1).toNat = Y at *
  generalize (e.tet.x 2).toNat = Z at *
  generalize e.type = b at *
  interval_cases b <;> interval_cases f <;> first | exact absurd hf (by decide) | skip
  all_goals
    simp [faceSlot, tb] at hzp c3 c4 t0 t1 z0 z1 hz0 ⊢
    try first | exact t0 | exact t1 | exact z0 | exact z1 | exact hz0 | omega

theorem treeFace_eq {e : Elem} (he : Valid e) {f : Nat} (hf : f < nf e.type) (h : AtRoot e f) :
    treeFace e f = some (rootFaceOf e.type f) := by
  rw [treeFace, if_pos ((rootBoundary_iff he hf).2 h)]
  have hzp := tet_z_pos he
  obtain ⟨⟨c1, c2⟩, c3, c4⟩ := tree_coords he
  have hb := type_lt he.good
  rw [rootFaceOf]
  by_cases h6 : 6 ≤ e.type
  · rw [if_pos ((isPyra_iff e).2 h6), if_pos h6]
  · rw [if_neg (by rw [isPyra_iff]; exact h6), if_neg h6]
    rw [AtRoot] at h
    have hf5 : f < 5 := lt_of_lt_of_le hf (by rw [nf]; split <;> omega)
    clear he
    generalize 2 ^ (21 - e.level) = h at *
    generalize (e.tet.x 0).toNat = X at *
    generalize (e.tet.x 1).toNat = Y at *
    generalize (e.tet.x 2).toNat = Z at *
    generalize e.type = b at *
    interval_cases b <;> interval_cases f <;> first | exact absurd hf (by decide) | skip
    all_goals
      simp [faceSlot, tb] at hzp c3 c4 h ⊢
      try omega

theorem adj_inside {e : Elem} (he : Valid e) {f : Nat} (hf : f < nf e.type) : (Al (adj e f) ∧ InP (adj e f)) ↔ ¬ AtRoot e f := by
  obtain ⟨o1, o2, _⟩ := out_table _ (type_lt he.good) f hf false
  exact nb_inside (part_aligned he.good o1) (part_inP he o1) o2

/-! ### The faces of pyramids and their tetrahedra -/

/-- Triangular faces are faces of the tetrahedra of the cube. -/
theorem tri_face {e : Elem} (he : Good e) {f : Nat} (hf : f < nf e.type) (hq : ¬ (6 ≤ e.type ∧ f = 4)) :
    Face e f = Simplex.Face .tet (part e (faceSlot e.type f).1) (faceSlot e.type f).2 := by
  have hb := type_lt he
  by_cases h6 : 6 ≤ e.type
  · have key : ∀ t < 6, ∀ φ < 4, Simplex.Face .tet (part e t) φ = Face ⟨part e t, 0⟩ φ := fun t ht φ _ => by
      rw [Face, if_neg]; show ¬ 6 ≤ t; omega
    obtain ⟨o1, o2, _⟩ := out_table _ hb f hf false
    have o3 := (slots_lt _ hb _ o1).1
    rw [key _ o3 _ o2]
    ext p
    rw [face_iff e hb hf, face_iff ⟨part e (faceSlot e.type f).1, 0⟩ (show (faceSlot e.type f).1 < 8 by omega)
      (show (faceSlot e.type f).2 < nf (faceSlot e.type f).1 by rw [nf, if_neg (by omega)]; exact o2), points_iff e hb,
      points_iff ⟨part e (faceSlot e.type f).1, 0⟩ (show (faceSlot e.type f).1 < 8 by omega)]
    show ((∀ i, 0 ≤ rel e.tet.x p i ∧ rel e.tet.x p i ≤ 2 ^ (21 - e.level)) ∧ _) ∧ _ ↔
      ((∀ i, 0 ≤ rel e.tet.x p i ∧ rel e.tet.x p i ≤ 2 ^ (21 - e.level)) ∧ ∀ φ < nf (faceSlot e.type f).1,
        0 ≤ (plane (faceSlot e.type f).1 φ).s * ((plane (faceSlot e.type f).1 φ).form (rel e.tet.x p) -
          (plane (faceSlot e.type f).1 φ).o * 2 ^ (21 - e.level))) ∧
        (plane (faceSlot e.type f).1 (faceSlot e.type f).2).form (rel e.tet.x p) =
          (plane (faceSlot e.type f).1 (faceSlot e.type f).2).o * 2 ^ (21 - e.level)
    generalize rel e.tet.x p = q
    generalize (2 : Int) ^ (21 - e.level) = H at *
    have hf5 : f < 4 := by
      rw [nf, if_pos h6] at hf
      omega
    have hb' := (he.pyra h6).1
    clear key hq o1 o2 o3 hf h6 hb he
    simp only [Fin.forall_fin_succ]
    generalize e.type = b at *
    rcases hb' with rfl | rfl <;> interval_cases f <;> simp [faceSlot, nf, plane, planes, Nat.forall_lt_succ_right, Plane.form] <;> omega
  · have : faceSlot e.type f = (e.type, f) := by
      rw [faceSlot, if_neg (by omega), if_neg (by omega)]
    rw [Face, if_neg h6, this]
    rfl

set_option synthInstance.maxHeartbeats 200000 in
set_option synthInstance.maxSize 5000 in
/-- The number of the neighbor's type and face in the tables. -/
theorem out_unique : ∀ b < 8, ∀ f < nf b, ∀ c : Bool, ∀ b' < 8, ∀ g < nf b', (6 ≤ b' ↔ 6 ≤ (out b f c).1) →
    faceSlot b' g = (Simplex.nbType .tet (faceSlot b f).1 (faceSlot b f).2, Simplex.nbFace .tet (faceSlot b f).2) →
    b' ≠ b ∧ ((6 ≤ b ∧ f = 4) ↔ (6 ≤ b' ∧ g = 4)) := by decide +kernel

theorem slot_inj : ∀ b < 8, ∀ f < nf b, ∀ g < nf b, faceSlot b f = faceSlot b g → f = g := by decide +kernel

/-- The square face seen from the other side. -/
theorem quad_face {e m : Elem} (he : Good e) (hm : Good m) (h6 : 6 ≤ e.type) (h6' : 6 ≤ m.type) (hne : m.type ≠ e.type)
    (hl : m.level = e.level) (h0 : m.tet.x 0 = e.tet.x 0) (h1 : m.tet.x 1 = e.tet.x 1)
    (h2 : e.type = 6 → (m.tet.x 2).toNat + 2 ^ (21 - e.level) = (e.tet.x 2).toNat)
    (h3 : e.type = 7 → (m.tet.x 2).toNat = (e.tet.x 2).toNat + 2 ^ (21 - e.level)) : Face m 4 = Face e 4 := by
  ext p
  rw [face_iff e (type_lt he) (by rw [nf, if_pos h6]; omega), face_iff m (type_lt hm) (by rw [nf, if_pos h6']; omega),
    points_iff e (type_lt he), points_iff m (type_lt hm)]
  have hb := (he.pyra h6).1
  have hb' := (hm.pyra h6').1
  have hc : ((2 : Int) ^ (21 - e.level)) = ((2 ^ (21 - e.level) : Nat) : Int) := by push_cast; rfl
  rw [hl, hc]
  simp only [rel, Fin.forall_fin_succ, h0, h1, Plane.form]
  clear he hm hc hl
  generalize 2 ^ (21 - e.level) = H at *
  rcases hb with hb | hb <;> rcases hb' with hb' | hb'
  · omega
  · have := h2 hb
    simp [hb, hb', nf, plane, planes, Nat.forall_lt_succ_right, h1]
    omega
  · have := h3 hb
    simp [hb, hb', nf, plane, planes, Nat.forall_lt_succ_right, h1]
    omega
  · omega

/-- The neighbor across a face that is not in the boundary. -/
theorem neighbour_full {e : Elem} (he : Valid e) {f : Nat} (hf : f < nf e.type) (ha : ¬ AtRoot e f) :
    ∃ m g, faceNeighborInside e f = some (some (m, g)) ∧ Valid m ∧ m.level = e.level ∧ m ≠ e ∧ g < nf m.type ∧
      Face m g = Face e f ∧ faceNeighborInside m g = some (some (e, f)) ∧ part m (faceSlot m.type g).1 = adj e f := by
  obtain ⟨hA, hI⟩ := (adj_inside he hf).2 ha
  obtain ⟨m, g, n1, n2, n3, n4, n5, n6⟩ := (neighbour_spec he hf).2 hA hI
  obtain ⟨o1, o2, _⟩ := out_table _ (type_lt he.good) f hf false
  obtain ⟨p1, p2, _⟩ := out_table _ (type_lt n2.good) g n4 false
  have hal := part_aligned he.good o1
  have hty : (faceSlot m.type g).1 = Simplex.nbType .tet (faceSlot e.type f).1 (faceSlot e.type f).2 := by
    rw [← adj_type he.good hf, ← n5]; rfl
  have hslot : faceSlot m.type g =
      (Simplex.nbType .tet (faceSlot e.type f).1 (faceSlot e.type f).2, Simplex.nbFace .tet (faceSlot e.type f).2) :=
    Prod.ext hty n6
  have hcl : 6 ≤ m.type ↔ 6 ≤ (out e.type f (tetBoundary e f)).1 := by
    rw [out_cl he hf hA, ← n5, part_cl n2 p1]
  obtain ⟨u1, u2⟩ := out_unique _ (type_lt he.good) f hf (tetBoundary e f) _ (type_lt n2.good) g n4 hcl hslot
  have hnf : (Simplex.faceNeighbour .tet (part e (faceSlot e.type f).1) (faceSlot e.type f).2).2 =
      Simplex.nbFace .tet (faceSlot e.type f).2 := (Simplex.neighbour_rest (c := .tet) hal.2 o2).2.2
  have hnn := Simplex.neighbour_neighbour (c := .tet) hal.2 (f := (faceSlot e.type f).2) o2
  rw [hnf] at hnn
  have hadj : adj m g = part e (faceSlot e.type f).1 := by
    rw [adj, n5, n6]
    exact congrArg Prod.fst hnn
  refine ⟨m, g, n1, n2, n3, fun h => u1 (by rw [h]), n4, ?_, ?_, n5⟩
  · by_cases hq : 6 ≤ e.type ∧ f = 4
    · obtain ⟨q1, rfl⟩ := u2.1 hq
      obtain ⟨h6, rfl⟩ := hq
      have hx : ∀ i : Fin 3, m.tet.x i = (adj e 4).x i := fun i => by rw [← n5]; rfl
      have hn := fun i => nb_toNat hal o2 hA i
      replace hn : ∀ i : Fin 3,
          ((faceSlot e.type 4).2 = 0 → Simplex.rank .tet (faceSlot e.type 4).1 i = 1 →
            (m.tet.x i).toNat = (e.tet.x i).toNat + 2 ^ (21 - e.level)) ∧
          ((faceSlot e.type 4).2 = 3 → Simplex.rank .tet (faceSlot e.type 4).1 i = 3 →
            (m.tet.x i).toNat + 2 ^ (21 - e.level) = (e.tet.x i).toNat) ∧
          (¬ ((faceSlot e.type 4).2 = 0 ∧ Simplex.rank .tet (faceSlot e.type 4).1 i = 1) →
            ¬ ((faceSlot e.type 4).2 = 3 ∧ Simplex.rank .tet (faceSlot e.type 4).1 i = 3) →
            (m.tet.x i).toNat = (e.tet.x i).toNat) := fun i => by rw [hx i]; exact hn i
      have r : ∀ b, b = 6 ∨ b = 7 → (∀ i : Fin 3, i ≠ 2 → ¬ ((faceSlot b 4).2 = 0 ∧ Simplex.rank .tet (faceSlot b 4).1 i = 1) ∧
          ¬ ((faceSlot b 4).2 = 3 ∧ Simplex.rank .tet (faceSlot b 4).1 i = 3)) ∧
          (b = 6 → (faceSlot b 4).2 = 3 ∧ Simplex.rank .tet (faceSlot b 4).1 (2 : Fin 3) = 3) ∧
          (b = 7 → (faceSlot b 4).2 = 0 ∧ Simplex.rank .tet (faceSlot b 4).1 (2 : Fin 3) = 1) := by
        rintro b (rfl | rfl) <;> decide +kernel
      obtain ⟨r1, r2, r3⟩ := r _ (he.good.pyra h6).1
      refine quad_face he.good n2.good h6 q1 u1 n3 (BitVec.eq_of_toNat_eq ((hn 0).2.2 (r1 0 (by decide)).1 (r1 0 (by decide)).2))
        (BitVec.eq_of_toNat_eq ((hn 1).2.2 (r1 1 (by decide)).1 (r1 1 (by decide)).2)) (fun h => (hn 2).2.1 (r2 h).1 (r2 h).2)
        (fun h => (hn 2).1 (r3 h).1 (r3 h).2)
    · rw [tri_face he.good hf hq, tri_face n2.good n4 (fun h => hq (u2.2 h)), n5, n6, ← hnf]
      exact Simplex.neighbour_face (c := .tet) hal o2 hA
  · obtain ⟨m', g', k1, k2, k3, k4, k5, k6⟩ := (neighbour_spec n2 n4).2 (by rw [hadj]; exact hal) (by rw [hadj]; exact part_inP he o1)
    obtain ⟨q1, q2, _⟩ := out_table _ (type_lt k2.good) g' k4 false
    rw [hadj] at k5
    have e1 : (faceSlot m'.type g').1 = (faceSlot e.type f).1 := congrArg Simplex.Elem.type k5
    have e2 : m' = e := by
      have e0 : (part m' (faceSlot m'.type g').1).cube = (part e (faceSlot e.type f).1).cube := by rw [k5]
      exact eq_of_slots k2 he e0 q1 (by rw [e1]; exact o1)
    subst e2
    have e3 : (faceSlot m'.type g').2 = (faceSlot m'.type f).2 := by
      rw [k6, n6]
      exact (Simplex.nb_table .tet _ hal.2 _ o2).2.2.2.1
    rw [k1, slot_inj _ (type_lt k2.good) g' k4 f hf (Prod.ext e1 e3)]

/-! ### The only neighbor -/

/-- One half of the square face is a face of a tetrahedron of the cube. -/
theorem slot_face_sub {e : Elem} (he : Good e) {f : Nat} (hf : f < nf e.type) :
    Simplex.Face .tet (part e (faceSlot e.type f).1) (faceSlot e.type f).2 ⊆ Face e f := by
  by_cases hq : 6 ≤ e.type ∧ f = 4
  · obtain ⟨h6, rfl⟩ := hq
    have hb := type_lt he
    have key : ∀ t < 6, ∀ φ < 4, Simplex.Face .tet (part e t) φ = Face ⟨part e t, 0⟩ φ := fun t ht φ _ => by
      rw [Face, if_neg]; show ¬ 6 ≤ t; omega
    obtain ⟨o1, o2, _⟩ := out_table _ hb 4 hf false
    have o3 := (slots_lt _ hb _ o1).1
    rw [key _ o3 _ o2]
    intro p
    rw [face_iff e hb hf, face_iff ⟨part e (faceSlot e.type 4).1, 0⟩ (show (faceSlot e.type 4).1 < 8 by omega)
      (show (faceSlot e.type 4).2 < nf (faceSlot e.type 4).1 by rw [nf, if_neg (by omega)]; exact o2), points_iff e hb,
      points_iff ⟨part e (faceSlot e.type 4).1, 0⟩ (show (faceSlot e.type 4).1 < 8 by omega)]
    show ((∀ i, 0 ≤ rel e.tet.x p i ∧ rel e.tet.x p i ≤ 2 ^ (21 - e.level)) ∧ ∀ φ < nf (faceSlot e.type 4).1,
        0 ≤ (plane (faceSlot e.type 4).1 φ).s * ((plane (faceSlot e.type 4).1 φ).form (rel e.tet.x p) -
          (plane (faceSlot e.type 4).1 φ).o * 2 ^ (21 - e.level))) ∧
        (plane (faceSlot e.type 4).1 (faceSlot e.type 4).2).form (rel e.tet.x p) =
          (plane (faceSlot e.type 4).1 (faceSlot e.type 4).2).o * 2 ^ (21 - e.level) →
      ((∀ i, 0 ≤ rel e.tet.x p i ∧ rel e.tet.x p i ≤ 2 ^ (21 - e.level)) ∧ _) ∧ _
    generalize rel e.tet.x p = q
    generalize (2 : Int) ^ (21 - e.level) = H at *
    have hb' := (he.pyra h6).1
    clear key o1 o2 o3 hf h6 hb he
    simp only [Fin.forall_fin_succ]
    generalize e.type = b at *
    rcases hb' with rfl | rfl <;> simp [faceSlot, nf, plane, planes, Nat.forall_lt_succ_right, Plane.form] <;> omega
  · rw [tri_face he hf hq]

/-- The points of a pyramid with `x ≥ y`, or with `x ≤ y`, belong to one of its tetrahedra. -/
theorem half_points {y : Elem} (hy : Good y) (h6 : 6 ≤ y.type) {q : Fin 3 → Nat} (hq : q ∈ Points y) :
    (q 1 + (y.tet.x 0).toNat ≤ q 0 + (y.tet.x 1).toNat →
      q ∈ Simplex.Points .tet (part y (if y.type = 6 then 1 else 5))) ∧
    (q 0 + (y.tet.x 1).toNat ≤ q 1 + (y.tet.x 0).toNat →
      q ∈ Simplex.Points .tet (part y (if y.type = 6 then 2 else 4))) := by
  have hb := (hy.pyra h6).1
  obtain ⟨h1, h2, h3⟩ := (mem_pyra h6 q).1 hq
  have key : ∀ t, q ∈ Simplex.Points .tet (part y t) ↔
      ((∀ i : Fin 3, (y.tet.x i).toNat ≤ q i ∧ q i ≤ (y.tet.x i).toNat + 2 ^ (21 - y.level)) ∧ ∀ i j : Fin 3,
        Simplex.rank .tet t i < Simplex.rank .tet t j → q j + (y.tet.x i).toNat ≤ q i + (y.tet.x j).toNat) := fun t => Iff.rfl
  rw [key, key]
  generalize 2 ^ (21 - y.level) = H at *
  clear key hq hy
  simp only [Fin.forall_fin_succ] at *
  generalize y.type = b at *
  rcases hb with rfl | rfl <;> simp [Simplex.rank, Simplex.axes, List.idxOf, List.findIdx, List.findIdx.go] at * <;> omega

/-- A face of a tetrahedron in a pyramid of the same level is in one of the tetrahedra of the pyramid. -/
theorem face_half {y : Elem} (hy : Good y) (h6 : 6 ≤ y.type) {p : S} (hp : Al p) (hl : y.level = p.level) {φ : Nat} (hφ : φ < 4)
    (h : Simplex.Face .tet p φ ⊆ Points y) : ∃ s ∈ slots y.type, Simplex.Face .tet p φ ⊆ Simplex.Points .tet (part y s) := by
  have hc : ∀ k ≤ 3, k ≠ φ → Simplex.corner .tet p k ∈ Points y := fun k hk hne =>
    h ((Simplex.corner_mem_face (c := .tet) hp.2 hk (show φ ≤ 3 by omega)).2 hne)
  have hd : ∀ i : Fin 3, 2 ^ (21 - p.level) ∣ (p.x i).toNat := fun i => Simplex.x_dvd (c := .tet) hp i
  have hd' : ∀ i : Fin 3, 2 ^ (21 - p.level) ∣ (y.tet.x i).toNat := fun i => hl ▸ (hy.cube.2 i).2
  have hv : ∀ k, ∀ i : Fin 3, Simplex.corner .tet p k i = (p.x i).toNat + if Simplex.rank .tet p.type i ≤ k then 2 ^ (21 - p.level) else 0 :=
    fun _ _ => rfl
  have hb := (hy.pyra h6).1
  have hpos := Nat.two_pow_pos (21 - p.level)
  have h1 : (p.x 1).toNat + (y.tet.x 0).toNat < (p.x 0).toNat + (y.tet.x 1).toNat →
      (p.x 1).toNat + (y.tet.x 0).toNat + 2 ^ (21 - p.level) ≤ (p.x 0).toNat + (y.tet.x 1).toNat :=
    step_le (Nat.dvd_add (hd 1) (hd' 0)) (Nat.dvd_add (hd 0) (hd' 1))
  have h2 : (p.x 0).toNat + (y.tet.x 1).toNat < (p.x 1).toNat + (y.tet.x 0).toNat →
      (p.x 0).toNat + (y.tet.x 1).toNat + 2 ^ (21 - p.level) ≤ (p.x 1).toNat + (y.tet.x 0).toNat :=
    step_le (Nat.dvd_add (hd 0) (hd' 1)) (Nat.dvd_add (hd 1) (hd' 0))
  by_cases hr : Simplex.rank .tet p.type (0 : Fin 3) < Simplex.rank .tet p.type (1 : Fin 3)
  · by_cases hs : (p.x 1).toNat + (y.tet.x 0).toNat ≤ (p.x 0).toNat + (y.tet.x 1).toNat
    · refine ⟨if y.type = 6 then 1 else 5, by rcases hb with hb | hb <;> simp [hb, slots], ?_⟩
      rw [Simplex.face_sub_points_iff (c := .tet) hp.2 (show φ ≤ 3 by omega)]
      intro k hk hne
      refine (half_points hy h6 (hc k hk hne)).1 ?_
      rw [hv, hv]
      split <;> split <;> omega
    · refine ⟨if y.type = 6 then 2 else 4, by rcases hb with hb | hb <;> simp [hb, slots], ?_⟩
      rw [Simplex.face_sub_points_iff (c := .tet) hp.2 (show φ ≤ 3 by omega)]
      intro k hk hne
      refine (half_points hy h6 (hc k hk hne)).2 ?_
      rw [hv, hv]
      have := h2 (by omega)
      split <;> split <;> omega
  · by_cases hs : (p.x 0).toNat + (y.tet.x 1).toNat ≤ (p.x 1).toNat + (y.tet.x 0).toNat
    · refine ⟨if y.type = 6 then 2 else 4, by rcases hb with hb | hb <;> simp [hb, slots], ?_⟩
      rw [Simplex.face_sub_points_iff (c := .tet) hp.2 (show φ ≤ 3 by omega)]
      intro k hk hne
      refine (half_points hy h6 (hc k hk hne)).2 ?_
      rw [hv, hv]
      split <;> split <;> omega
    · refine ⟨if y.type = 6 then 1 else 5, by rcases hb with hb | hb <;> simp [hb, slots], ?_⟩
      rw [Simplex.face_sub_points_iff (c := .tet) hp.2 (show φ ≤ 3 by omega)]
      intro k hk hne
      refine (half_points hy h6 (hc k hk hne)).1 ?_
      rw [hv, hv]
      have := h1 (by omega)
      split <;> split <;> omega

/-- The neighbor is the only other element of the level that contains the face. -/
theorem neighbour_unique {e y : Elem} (he : Valid e) (hy : Valid y) {f : Nat} (hf : f < nf e.type) (hl : y.level = e.level)
    (hne : y ≠ e) (h : Face e f ⊆ Points y) : ∃ g, faceNeighborInside e f = some (some (y, g)) := by
  obtain ⟨o1, o2, _⟩ := out_table _ (type_lt he.good) f hf false
  have hal := part_aligned he.good o1
  have h' := (slot_face_sub he.good hf).trans h
  obtain ⟨s, s1, s2⟩ : ∃ s ∈ slots y.type, Simplex.Face .tet (part e (faceSlot e.type f).1) (faceSlot e.type f).2 ⊆
      Simplex.Points .tet (part y s) := by
    by_cases h6 : 6 ≤ y.type
    · exact face_half hy.good h6 hal hl o2 h'
    · refine ⟨y.type, mem_slots_self (by omega), ?_⟩
      rw [Points, if_neg h6] at h'
      exact h'
  have hals := part_aligned hy.good s1
  rcases Simplex.face_points_unique (c := .tet) hal hals hl o2 s2 with h1 | h1
  · refine absurd (eq_of_slots hy he ?_ s1 ?_) hne
    · have : (part y s).cube = (part e (faceSlot e.type f).1).cube := by rw [h1]
      exact this
    · have : (part y s).type = (part e (faceSlot e.type f).1).type := by rw [h1]
      exact (show s = (faceSlot e.type f).1 from this) ▸ o1
  · have hadj : part y s = adj e f := h1
    have ha : ¬ AtRoot e f := (adj_inside he hf).1 ⟨hadj ▸ hals, hadj ▸ part_inP hy s1⟩
    obtain ⟨m, g, m1, m2, m3, m4, m5, m6, m7, m8⟩ := neighbour_full he hf ha
    obtain ⟨p1, _⟩ := out_table _ (type_lt m2.good) g m5 false
    have hmy : m = y := by
      have e0 : part m (faceSlot m.type g).1 = part y s := by rw [m8, hadj]
      refine eq_of_slots m2 hy ?_ p1 ?_
      · have : (part m (faceSlot m.type g).1).cube = (part y s).cube := by rw [e0]
        exact this
      · have : (part m (faceSlot m.type g).1).type = (part y s).type := by rw [e0]
        exact (show (faceSlot m.type g).1 = s from this) ▸ s1
    exact ⟨g, hmy ▸ m1⟩

end T8.Pyramid
