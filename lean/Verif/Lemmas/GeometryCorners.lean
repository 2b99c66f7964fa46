/-
The corners of the faces of the elements are the points of the face in the grid of the level of the element.
-/
import Verif.Lemmas.GeometryFaces
import Verif.Props.PyramidFaces

namespace T8.Geometry
open Neighbor

/-- The exponents of the lengths of the trees. -/
def rootExp (S : P4ests) (c : Eclass) (k : Nat) : Nat :=
  match c with
  | .vertex => 0 | .line => 30 | .quad => 30 | .triangle => 29 | .hex => S.M | .tet => 21
  | .prism => if k = 2 then 30 else 29
  | .pyramid => 21

/-- The points of the grid of level `l`. -/
def Lattice (S : P4ests) (c : Eclass) (l : Nat) (p : Fin 3 → Nat) : Prop :=
  ∀ k : Fin 3, if k.val < c.dim then 2 ^ (rootExp S c k.val - l) ∣ p k else p k = 0

theorem step {h x p : Nat} (hx : h ∣ x) (hp : h ∣ p) (h1 : x ≤ p) (h2 : p ≤ x + h) : p = x ∨ p = x + h := by
  obtain ⟨a, rfl⟩ := hx
  obtain ⟨b, rfl⟩ := hp
  rcases Nat.eq_zero_or_pos h with rfl | hpos
  · simp
  have h3 : a ≤ b := Nat.le_of_mul_le_mul_left h1 hpos
  have h4 : b ≤ a + 1 := Nat.le_of_mul_le_mul_left (by rw [Nat.mul_add, Nat.mul_one]; exact h2) hpos
  have : b = a ∨ b = a + 1 := by omega
  rcases this with rfl | rfl
  · exact Or.inl rfl
  · right; ring

/-! ### Pyramids and tetrahedra -/

def vec (u0 u1 u2 : Fin 2) : Fin 3 → Int := ![(u0.val : Int), (u1.val : Int), (u2.val : Int)]

theorem unit_table : ∀ b < 8, ∀ u0 u1 u2 : Fin 2,
    (∀ f < Pyramid.nf b, 0 ≤ (Pyramid.plane b f).s * ((Pyramid.plane b f).form (vec u0 u1 u2) - (Pyramid.plane b f).o)) →
      ∃ k ∈ List.range (Pyramid.nf b), ∀ i, Pyramid.uc b k i = vec u0 u1 u2 i := by decide +kernel

theorem pyr_points {e : Pyramid.Elem} (ht : e.type < 8) {p : Fin 3 → Nat} (hx : ∀ i, 2 ^ (21 - e.level) ∣ (e.tet.x i).toNat)
    (hl : ∀ i, 2 ^ (21 - e.level) ∣ p i) (hp : p ∈ Pyramid.Points e) : ∃ k < Pyramid.nf e.type, Pyramid.corner e k = p := by
  rw [Pyramid.points_iff e ht] at hp
  obtain ⟨h1, h2⟩ := hp
  have hc : ((2 : Int) ^ (21 - e.level)) = ((2 ^ (21 - e.level) : Nat) : Int) := by push_cast; rfl
  have hs : ∀ i, ∃ u : Fin 2, Pyramid.rel e.tet.x p i = (u.val : Int) * 2 ^ (21 - e.level) := by
    intro i
    have a := h1 i
    rw [hc] at a ⊢
    simp only [Pyramid.rel] at a ⊢
    rcases step (hx i) (hl i) (by omega) (by omega) with h | h
    · exact ⟨0, by rw [h]; simp⟩
    · exact ⟨1, by rw [h]; push_cast; simp⟩
  choose u hu using hs
  have hv : ∀ i, vec (u 0) (u 1) (u 2) i = ((u i).val : Int) := by intro i; fin_cases i <;> rfl
  have hr : Pyramid.rel e.tet.x p = fun i => vec (u 0) (u 1) (u 2) i * 2 ^ (21 - e.level) := funext fun i => by rw [hv]; exact hu i
  have hpos := Pyramid.two_pow_pos' (21 - e.level)
  obtain ⟨k, hk, hk2⟩ := unit_table _ ht (u 0) (u 1) (u 2) (fun f hf => by
    have := h2 f hf
    rw [hr, Pyramid.form_mul, ← sub_mul, ← mul_assoc] at this
    exact nonneg_of_mul_nonneg_left this hpos)
  rw [List.mem_range] at hk
  refine ⟨k, hk, funext fun i => ?_⟩
  have h3 := Pyramid.rel_corner e ht hk i
  rw [hk2, hv, ← hu] at h3
  simp only [Pyramid.rel] at h3
  omega

theorem pyr_face {e : Pyramid.Elem} (ht : e.type < 8) {f : Nat} (hf : f < Pyramid.nf e.type) {p : Fin 3 → Nat}
    (hx : ∀ i, 2 ^ (21 - e.level) ∣ (e.tet.x i).toNat) (hl : ∀ i, 2 ^ (21 - e.level) ∣ p i) :
    p ∈ Pyramid.Face e f ↔ ∃ k ∈ Pyramid.facesCorners e.type f, Pyramid.corner e k = p := by
  obtain ⟨_, _, t3, t4⟩ := Pyramid.facesCorners_table _ ht f hf
  constructor
  · intro h
    obtain ⟨k, hk, rfl⟩ := pyr_points ht hx hl ((Pyramid.face_iff e ht hf p).1 h).1
    exact ⟨k, (t4 k hk).2 ((Pyramid.corner_face e ht hk hf).1 h), rfl⟩
  · rintro ⟨k, hk, rfl⟩
    exact (Pyramid.corner_face e ht (t3 k hk) hf).2 ((t4 k (t3 k hk)).1 hk)

/-! ### Triangles -/

/-- The inequalities of a triangle, with the coordinates in the order of its type. -/
def TriIn (H a b p q f : Nat) : Prop :=
  ((a ≤ p ∧ p ≤ a + H) ∧ (b ≤ q ∧ q ≤ b + H) ∧ q + a ≤ p + b) ∧ (f = 0 → p = a + H) ∧ (f = 2 → q = b) ∧ (f = 1 → p + b = q + a)

theorem tri_face_iff {x : Fin 2 → BitVec 32} {l ty : Nat} (hty : ty < 2) {f : Nat} (hf : f < 3) (p : Fin 2 → Nat) :
    p ∈ Simplex.Face .tri ⟨x, l, ty⟩ f ↔ TriIn (Simplex.size .tri l) (x ⟨ty, hty⟩).toNat (x ⟨1 - ty, by omega⟩).toNat (p ⟨ty, hty⟩)
      (p ⟨1 - ty, by omega⟩) f := by
  generalize hH : Simplex.size .tri l = H
  interval_cases ty <;> interval_cases f <;>
    simp [Simplex.Face, Simplex.Points, Fin.forall_fin_two, Simplex.rank, Simplex.axes, List.idxOf_cons, TriIn, hH] <;> omega

theorem tri_points_iff {x : Fin 2 → BitVec 32} {l ty : Nat} (hty : ty < 2) (p : Fin 2 → Nat) :
    p ∈ Simplex.Points .tri ⟨x, l, ty⟩ ↔ TriIn (Simplex.size .tri l) (x ⟨ty, hty⟩).toNat (x ⟨1 - ty, by omega⟩).toNat (p ⟨ty, hty⟩)
      (p ⟨1 - ty, by omega⟩) 3 := by
  generalize hH : Simplex.size .tri l = H
  interval_cases ty <;>
    simp [Simplex.Points, Fin.forall_fin_two, Simplex.rank, Simplex.axes, List.idxOf_cons, TriIn, hH] <;> omega

theorem tri_corner_eq {x : Fin 2 → BitVec 32} {l ty : Nat} (hty : ty < 2) {k : Nat} (hk : k < 3) :
    Simplex.corner .tri ⟨x, l, ty⟩ k (⟨ty, hty⟩ : Fin 2) = (x ⟨ty, hty⟩).toNat + (if 1 ≤ k then Simplex.size .tri l else 0) ∧
    Simplex.corner .tri ⟨x, l, ty⟩ k (⟨1 - ty, by omega⟩ : Fin 2) =
      (x ⟨1 - ty, by omega⟩).toNat + (if 2 ≤ k then Simplex.size .tri l else 0) := by
  generalize hH : Simplex.size .tri l = H
  interval_cases ty <;> interval_cases k <;>
    simp [Simplex.corner, Simplex.rank, Simplex.axes, List.idxOf_cons, hH]

theorem tri_ext {ty : Nat} (hty : ty < 2) {p q : Fin 2 → Nat} (h0 : p ⟨ty, hty⟩ = q ⟨ty, hty⟩)
    (h1 : p ⟨1 - ty, by omega⟩ = q ⟨1 - ty, by omega⟩) : p = q := by
  funext i
  have : i = ⟨ty, hty⟩ ∨ i = ⟨1 - ty, by omega⟩ := by
    rcases Nat.lt_or_ge i.val 1 with h | h <;> rcases Nat.lt_or_ge ty 1 with h' | h'
    · left; apply Fin.ext; simp; omega
    · right; apply Fin.ext; simp; omega
    · right; apply Fin.ext; simp; omega
    · left; apply Fin.ext; simp; omega
  rcases this with rfl | rfl
  · exact h0
  · exact h1

/-- The points of the grid in a triangle (`f = 3`) or in one of its faces. -/
theorem tri_grid {H a b p q f : Nat} (hf : f < 4) (ha : H ∣ a) (hb : H ∣ b) (hp : H ∣ p) (hq : H ∣ q) (hH : 0 < H) :
    TriIn H a b p q f ↔ ∃ k < 3, k ≠ f ∧ a + (if 1 ≤ k then H else 0) = p ∧ b + (if 2 ≤ k then H else 0) = q := by
  constructor
  · rintro ⟨⟨⟨h1, h2⟩, ⟨h3, h4⟩, h5⟩, h6⟩
    rcases step ha hp h1 h2 with rfl | rfl <;> rcases step hb hq h3 h4 with rfl | rfl
    · exact ⟨0, by omega, by omega, by simp⟩
    · omega
    · exact ⟨1, by omega, by omega, by simp⟩
    · exact ⟨2, by omega, by omega, by simp⟩
  · rintro ⟨k, hk, hkf, rfl, rfl⟩
    interval_cases k <;> simp [TriIn] <;> omega

theorem tri_face_grid {t : Simplex.Elem 2} (ht : t.type < 2) {f : Nat} (hf : f < 3) {p : Fin 2 → Nat}
    (hx : ∀ i, Simplex.size .tri t.level ∣ (t.x i).toNat) (hl : ∀ i, Simplex.size .tri t.level ∣ p i) :
    p ∈ Simplex.Face .tri t f ↔ ∃ k < 3, k ≠ f ∧ Simplex.corner .tri t k = p := by
  obtain ⟨x, l, ty⟩ := t
  rw [tri_face_iff ht hf, tri_grid (by omega) (hx _) (hx _) (hl _) (hl _) (by rw [Simplex.size]; positivity)]
  refine exists_congr fun k => and_congr_right fun hk => and_congr_right fun _ => ?_
  obtain ⟨e1, e2⟩ := tri_corner_eq (x := x) (l := l) ht hk
  rw [← e1, ← e2]
  exact ⟨fun h => tri_ext ht h.1 h.2, fun h => by rw [h]; exact ⟨rfl, rfl⟩⟩

theorem tri_points_grid {t : Simplex.Elem 2} (ht : t.type < 2) {p : Fin 2 → Nat}
    (hx : ∀ i, Simplex.size .tri t.level ∣ (t.x i).toNat) (hl : ∀ i, Simplex.size .tri t.level ∣ p i) :
    p ∈ Simplex.Points .tri t ↔ ∃ k < 3, Simplex.corner .tri t k = p := by
  obtain ⟨x, l, ty⟩ := t
  rw [tri_points_iff ht, tri_grid (by omega) (hx _) (hx _) (hl _) (hl _) (by rw [Simplex.size]; positivity)]
  refine exists_congr fun k => and_congr_right fun hk => ?_
  obtain ⟨e1, e2⟩ := tri_corner_eq (x := x) (l := l) ht hk
  rw [← e1, ← e2]
  exact ⟨fun h => tri_ext ht h.2.1 h.2.2, fun h => by rw [h]; exact ⟨by omega, rfl, rfl⟩⟩

/-! ### Cubes -/

theorem bit_iff (k j f : Nat) (hj : j = f / 2) : Cube.CornerOnFace k f ↔ k / 2 ^ j % 2 = f % 2 := by
  subst hj
  rw [Cube.CornerOnFace, Nat.testBit_eq_decide_div_mod_eq]
  have h1 : k / 2 ^ (f / 2) % 2 < 2 := Nat.mod_lt _ (by decide)
  have h2 : f % 2 < 2 := Nat.mod_lt _ (by decide)
  generalize k / 2 ^ (f / 2) % 2 = a at *
  generalize f % 2 = b at *
  interval_cases a <;> interval_cases b <;> simp

/-- The number of a corner with given bits. -/
theorem bits_exist {d : Nat} (hd : d = 2 ∨ d = 3) (u : Fin d → Nat) (hu : ∀ i, u i < 2) : ∃ k < 2 ^ d, ∀ i, k / 2 ^ i.val % 2 = u i := by
  rcases hd with rfl | rfl
  · have := hu 0; have := hu 1
    refine ⟨u 0 + 2 * u 1, by omega, fun i => ?_⟩
    fin_cases i <;> simp <;> omega
  · have := hu 0; have := hu 1; have := hu 2
    refine ⟨u 0 + 2 * u 1 + 4 * u 2, by omega, fun i => ?_⟩
    fin_cases i <;> simp <;> omega

theorem cube_face_grid {d M : Nat} (hd : d = 2 ∨ d = 3) {e : Standalone.Elem d} {f : Nat} (hf : f < 2 * d) {p : Fin d → Nat}
    (hx : ∀ i, 2 ^ (M - e.level) ∣ (e.coords i).toNat) (hl : ∀ i, 2 ^ (M - e.level) ∣ p i) :
    p ∈ Standalone.Face M e f ↔ ∃ k < 2 ^ d, Cube.CornerOnFace k f ∧
      ∀ i, (e.coords i).toNat + k / 2 ^ i.val % 2 * 2 ^ (M - e.level) = p i := by
  have hpos : 0 < 2 ^ (M - e.level) := by positivity
  simp only [Standalone.Face, Standalone.Box, Standalone.side, Set.mem_setOf_eq]
  generalize 2 ^ (M - e.level) = H at *
  have hfd : f / 2 < d := by omega
  constructor
  · rintro ⟨h1, h2⟩
    have hs : ∀ i, ∃ u < 2, (e.coords i).toNat + u * H = p i := fun i => by
      rcases step (hx i) (hl i) (h1 i).1 (h1 i).2 with h | h
      · exact ⟨0, by decide, by omega⟩
      · exact ⟨1, by decide, by omega⟩
    choose u hu hu2 using hs
    obtain ⟨k, hk, hk2⟩ := bits_exist hd u hu
    refine ⟨k, hk, (bit_iff k _ f rfl).2 ?_, fun i => by rw [hk2, hu2]⟩
    have h3 := h2 ⟨f / 2, hfd⟩ rfl
    rw [← hu2, ← hk2] at h3
    exact Nat.eq_of_mul_eq_mul_right hpos (Nat.add_left_cancel h3)
  · rintro ⟨k, hk, hkf, h⟩
    refine ⟨fun i => ?_, fun i hi => ?_⟩
    · have h1 : k / 2 ^ i.val % 2 < 2 := Nat.mod_lt _ (by decide)
      rw [← h i]
      generalize k / 2 ^ i.val % 2 = a at *
      interval_cases a <;> omega
    · rw [← h i, (bit_iff k i.val f hi).1 hkf]

/-! ### All classes -/

theorem to2_eq {p q : Fin 3 → Nat} (h : to2 p = to2 q) (h2 : p 2 = q 2) : p = q := by
  funext k
  have h0 := congrFun h 0
  have h1 := congrFun h 1
  fin_cases k
  · exact h0
  · exact h1
  · exact h2

theorem dvd_add_mul {h x : Nat} (a : Nat) (hx : h ∣ x) : h ∣ x + a * h := Nat.dvd_add hx (Nat.dvd_mul_left _ _)

/-- The corners of the faces, case by case. -/
theorem tri_corners_mem : ∀ f < 3, ∀ k, k ∈ (Simplex.faceCorner .tri).getD f [] ↔ k < 3 ∧ k ≠ f := by
  intro f hf k
  interval_cases f <;> simp [Simplex.faceCorner] <;> omega

theorem prism_corners_mem (f : Nat) (hf : f < 5) (k : Nat) :
    k ∈ Prism.faceCorners.getD f [] ↔ k < 6 ∧ (if f < 3 then k % 3 ≠ f else k / 3 = f - 3) := by
  interval_cases f <;> simp [Prism.faceCorners] <;> omega

theorem cube_corners_mem {c : Cube.Cls} {P : Cube.P4est c.dim} (D : P.Documented c) {f : Nat} (hf : f < 2 * c.dim) (k : Nat) :
    k ∈ (List.range (2 ^ (c.dim - 1))).map (Cube.faceCorner P f) ↔ k < 2 ^ c.dim ∧ Cube.CornerOnFace k f := by
  have h := D.faceCorners f hf
  show k ∈ (List.range (2 ^ (c.dim - 1))).map (P.faceCorners f) ↔ _
  rw [h, List.mem_filter, List.mem_range, decide_eq_true_iff]

theorem faceCorners_lt {S : P4ests} (D : S.Documented) {e : Element} (he : e.Valid S) {f : Nat} (hf : f < e.numFaces) {i : Nat}
    (hi : i ∈ faceCorners S e f) : i < (shape e).numVertices := by
  cases e with
  | vertex v => exact absurd hf (by simp [Element.numFaces, Element.eclass, Eclass.numFaces])
  | line l =>
    simp only [faceCorners, List.mem_singleton] at hi
    subst hi; exact hf
  | quad q => exact ((cube_corners_mem D.1 hf i).1 hi).1
  | triangle t => exact ((tri_corners_mem f hf i).1 hi).1
  | hex h => exact ((cube_corners_mem D.2 hf i).1 hi).1
  | tet t =>
    have hf' : f < 4 := hf
    have : ∀ f < 4, ∀ i ∈ (Simplex.faceCorner .tet).getD f [], i < 4 := by decide
    exact this f hf' i hi
  | prism p => exact ((prism_corners_mem f hf i).1 hi).1
  | pyramid p =>
    have hf' : f < Pyramid.nf p.type := (Pyramid.numFaces_eq p) ▸ hf
    have hi' : i ∈ Pyramid.facesCorners p.type f := (Pyramid.faceCorners_eq p f) ▸ hi
    have := (Pyramid.facesCorners_table _ (Pyramid.type_lt (Pyramid.Valid.good he)) f hf').2.2.1 i hi'
    rw [isPyra_shape]
    rw [Pyramid.nf] at this
    split <;> simp_all [Eclass.numVertices]

theorem corner_dvd {c : Simplex.Cls} {t : Simplex.Elem c.dim} (hx : ∀ i, Simplex.size c t.level ∣ (t.x i).toNat) (k : Nat) (i : Fin c.dim) :
    Simplex.size c t.level ∣ Simplex.corner c t k i := by
  rw [Simplex.corner]
  split
  · exact Nat.dvd_add (hx i) (dvd_refl _)
  · exact hx i

/-- The corners are points of the grid. -/
theorem corner_lattice {S : P4ests} {e : Element} (he : e.Valid S) (i : Nat) : Lattice S e.eclass e.level (cornerPoint S e i) := by
  intro k
  cases e with
  | vertex v => fin_cases k <;> simp [cornerPoint, Element.eclass, Eclass.dim]
  | line l =>
    have h := dvd_add_mul i he.2.2
    fin_cases k <;> simp [cornerPoint, Element.eclass, Eclass.dim, Element.level, rootExp]
    exact h
  | quad q =>
    have h : ∀ k : Fin 2, _ := fun k => dvd_add_mul (i / 2 ^ k.val % 2) (he.1.2 k).2
    fin_cases k
    · exact h 0
    · exact h 1
    · rfl
  | triangle t =>
    have h := corner_dvd (c := .tri) (t := t) (fun i => (he.1.2 i).2) i
    fin_cases k
    · exact h 0
    · exact h 1
    · rfl
  | hex e =>
    have h : ∀ k : Fin 3, _ := fun k => dvd_add_mul (i / 2 ^ k.val % 2) (he.1.2 k).2
    fin_cases k
    · exact h 0
    · exact h 1
    · exact h 2
  | tet t =>
    have h := corner_dvd (c := .tet) (t := t) (fun i => (he.1.2 i).2) i
    fin_cases k
    · exact h 0
    · exact h 1
    · exact h 2
  | prism p =>
    have h := corner_dvd (c := .tri) (t := p.1) (fun i => (he.1.1.2 i).2) (i % 3)
    have h2 := dvd_add_mul (i / 3) he.2.1.2.2
    have hl := he.2.2.1
    fin_cases k
    · have := h 0; rw [Simplex.size, hl] at this; exact this
    · have := h 1; rw [Simplex.size, hl] at this; exact this
    · exact h2
  | pyramid p =>
    have hx := fun j => ((Pyramid.Valid.good he).cube.2 j).2
    have h : ∀ j, 2 ^ (21 - p.level) ∣ Pyramid.corner p i j := fun j => by
      rw [Pyramid.corner]
      by_cases h6 : 6 ≤ p.type
      · rw [if_pos h6, Pyramid.pyraCorner]
        exact Nat.dvd_add (hx j) (Nat.dvd_mul_right _ _)
      · rw [if_neg h6]
        exact corner_dvd (c := .tet) (t := p.tet) hx i j
    fin_cases k
    · exact h 0
    · exact h 1
    · exact h 2

/-- The points of the grid in a face are the corners of the face. -/
theorem corner_iff {S : P4ests} (D : S.Documented) {e : Element} (he : e.Valid S) {f : Nat} (hf : f < e.numFaces) {p : Fin 3 → Nat}
    (hl : Lattice S e.eclass e.level p) : e.InFace S f p ↔ ∃ i ∈ faceCorners S e f, cornerPoint S e i = p := by
  cases e with
  | vertex v => exact absurd hf (by simp [Element.numFaces, Element.eclass, Eclass.numFaces])
  | line l =>
    have h1 : p 1 = 0 := hl 1
    have h2 : p 2 = 0 := hl 2
    simp only [faceCorners, List.mem_singleton, exists_eq_left]
    show p 0 = _ ↔ _
    constructor
    · intro h
      funext k
      fin_cases k
      · exact h.symm
      · exact h1.symm
      · exact h2.symm
    · rintro rfl; rfl
  | quad q =>
    have h0 : _ ∣ p 0 := hl 0
    have h1 : _ ∣ p 1 := hl 1
    have h2 : p 2 = 0 := hl 2
    have hf' : f < 2 * 2 := hf
    refine (cube_face_grid (M := 30) (Or.inl rfl) hf' (p := to2 p) (fun i => (he.1.2 i).2)
      (fun i => by fin_cases i; exacts [h0, h1])).trans (exists_congr fun k => ?_)
    rw [← and_assoc]
    refine and_congr (cube_corners_mem D.1 hf' k).symm ⟨fun h => ?_, ?_⟩
    · refine to2_eq (funext fun i => ?_) h2.symm
      fin_cases i
      · exact h 0
      · exact h 1
    · rintro rfl i
      fin_cases i <;> rfl
  | triangle t =>
    have h0 : _ ∣ p 0 := hl 0
    have h1 : _ ∣ p 1 := hl 1
    have h2 : p 2 = 0 := hl 2
    refine (tri_face_grid (p := to2 p) he.2.1 hf (fun i => (he.1.2 i).2)
      (fun i => by fin_cases i; exacts [h0, h1])).trans (exists_congr fun k => ?_)
    rw [← and_assoc]
    refine and_congr (tri_corners_mem f hf k).symm ⟨fun h => to2_eq ?_ h2.symm, ?_⟩
    · rw [← h]; funext i; fin_cases i <;> rfl
    · rintro rfl; funext i; fin_cases i <;> rfl
  | hex x =>
    have hf' : f < 2 * 3 := hf
    refine (cube_face_grid (M := S.M) (Or.inr rfl) hf' (p := p) (fun i => (he.1.2 i).2)
      (fun i => by fin_cases i; exacts [hl 0, hl 1, hl 2])).trans (exists_congr fun k => ?_)
    rw [← and_assoc]
    exact and_congr (cube_corners_mem D.2 hf' k).symm ⟨fun h => funext h, fun h i => congrFun h i⟩
  | tet t =>
    have ht : t.type < 6 := he.2.1
    have := pyr_face (e := ⟨t, 1⟩) (f := f) (p := p) (show t.type < 8 by omega)
      (by show f < Pyramid.nf t.type; rw [Pyramid.nf, if_neg (by omega)]; exact hf) (fun i => (he.1.2 i).2)
      (fun i => by fin_cases i; exacts [hl 0, hl 1, hl 2])
    rw [Pyramid.Face, if_neg (by show ¬ 6 ≤ t.type; omega)] at this
    refine this.trans (exists_congr fun k => ?_)
    rw [Pyramid.facesCorners, if_neg (by show ¬ 6 ≤ t.type; omega), Pyramid.corner, if_neg (by show ¬ 6 ≤ t.type; omega)]
    rfl
  | prism x =>
    have hlev := he.2.2.1
    have h0 : 2 ^ (29 - x.1.level) ∣ p 0 := hlev ▸ hl 0
    have h1 : 2 ^ (29 - x.1.level) ∣ p 1 := hlev ▸ hl 1
    have h2 : 2 ^ (30 - x.2.level) ∣ p 2 := hl 2
    have hf' : f < 5 := hf
    have hx : ∀ i, Simplex.size .tri x.1.level ∣ (x.1.x i).toNat := fun i => (he.1.1.2 i).2
    have hp : ∀ i, Simplex.size .tri x.1.level ∣ to2 p i := fun i => by fin_cases i; exacts [h0, h1]
    have hc : ∀ k, cornerPoint S (.prism x) k = p ↔ Simplex.corner .tri x.1 (k % 3) = to2 p ∧
        x.2.x.toNat + k / 3 * 2 ^ (30 - x.2.level) = p 2 := fun k => by
      constructor
      · rintro rfl
        exact ⟨by funext i; fin_cases i <;> rfl, rfl⟩
      · rintro ⟨a, b⟩
        refine to2_eq ?_ b
        rw [← a]; funext i; fin_cases i <;> rfl
    simp only [faceCorners, prism_corners_mem f hf', hc]
    show (to2 p, p 2) ∈ Prism.Face x f ↔ _
    rw [Prism.Face]
    by_cases h3 : f < 3
    · simp only [if_pos h3]
      show (to2 p ∈ Simplex.Face .tri x.1 f ∧ p 2 ∈ Dline.Points x.2) ↔ _
      rw [tri_face_grid he.1.2.1 h3 hx hp]
      constructor
      · rintro ⟨⟨k, hk, hkf, hk2⟩, ha, hb⟩
        rcases step he.2.1.2.2 h2 ha hb with h | h
        · exact ⟨k, ⟨by omega, by omega⟩, by rw [Nat.mod_eq_of_lt hk]; exact hk2, by rw [Nat.div_eq_of_lt hk, h]; simp⟩
        · exact ⟨k + 3, ⟨by omega, by omega⟩, by rw [show (k + 3) % 3 = k by omega]; exact hk2,
            by rw [show (k + 3) / 3 = 1 by omega, h, Nat.one_mul]⟩
      · rintro ⟨k, ⟨hk, hkf⟩, hk2, hk3⟩
        refine ⟨⟨k % 3, by omega, hkf, hk2⟩, ?_⟩
        have : k / 3 = 0 ∨ k / 3 = 1 := by omega
        show _ ≤ _ ∧ _ ≤ _ + 2 ^ (30 - x.2.level)
        rcases this with h | h <;> rw [h] at hk3 <;> omega
    · simp only [if_neg h3]
      show (to2 p ∈ Simplex.Points .tri x.1 ∧ p 2 = _) ↔ _
      rw [tri_points_grid he.1.2.1 hx hp]
      constructor
      · rintro ⟨⟨k, hk, hk2⟩, h⟩
        exact ⟨k + 3 * (f - 3), ⟨by omega, by omega⟩, by rw [show (k + 3 * (f - 3)) % 3 = k by omega]; exact hk2,
          by rw [show (k + 3 * (f - 3)) / 3 = f - 3 by omega]; exact h.symm⟩
      · rintro ⟨k, ⟨hk, hkf⟩, hk2, hk3⟩
        exact ⟨⟨k % 3, by omega, hk2⟩, by rw [← hk3, hkf]⟩
  | pyramid x =>
    show p ∈ Pyramid.Face x f ↔ ∃ i ∈ Pyramid.faceCorners x f, Pyramid.corner x i = p
    rw [Pyramid.faceCorners_eq]
    have hg := Pyramid.Valid.good he
    exact pyr_face (Pyramid.type_lt hg) ((Pyramid.numFaces_eq x) ▸ hf) (fun i => (hg.cube.2 i).2)
      (fun i => by fin_cases i; exacts [hl 0, hl 1, hl 2])

end T8.Geometry
