/-
The points of the grid in the faces of the trees and their coordinates in the face.
-/
import Verif.Lemmas.GeometryPartner

namespace T8.Geometry
open Neighbor

theorem cast_dvd {n a : Nat} : (2 : Int) ^ n ∣ (a : Int) ↔ 2 ^ n ∣ a := by
  rw [show (2 : Int) ^ n = ((2 ^ n : Nat) : Int) by push_cast; rfl, Int.natCast_dvd_natCast]

theorem cast_le {n a : Nat} : (a : Int) ≤ 2 ^ n ↔ a ≤ 2 ^ n := by
  rw [show (2 : Int) ^ n = ((2 ^ n : Nat) : Int) by push_cast; rfl, Int.ofNat_le]

theorem faceGrid_vertex {l : Nat} {x : Nat × Nat} : FaceGrid .vertex l x ↔ x = (0, 0) := by
  simp only [FaceGrid, Grid, faceExp, Prod.ext_iff, cast_dvd]
  constructor
  · intro h; omega
  · rintro ⟨a, b⟩; rw [a, b]; simp

theorem faceGrid_line {l : Nat} {x : Nat × Nat} : FaceGrid .line l x ↔ 2 ^ (30 - l) ∣ x.1 ∧ x.1 ≤ 2 ^ 30 ∧ x.2 = 0 := by
  simp only [FaceGrid, Grid, faceExp, cast_dvd, cast_le]
  constructor
  · rintro ⟨a, b, c, d⟩; exact ⟨a, c.2, by omega⟩
  · rintro ⟨a, b, c⟩; rw [c]; exact ⟨a, by simp, ⟨by omega, b⟩, rfl⟩

theorem faceGrid_triangle {l : Nat} {x : Nat × Nat} :
    FaceGrid .triangle l x ↔ 2 ^ (29 - l) ∣ x.1 ∧ 2 ^ (29 - l) ∣ x.2 ∧ x.2 ≤ x.1 ∧ x.1 ≤ 2 ^ 29 := by
  simp only [FaceGrid, Grid, faceExp, cast_dvd, cast_le]
  constructor
  · rintro ⟨a, b, c, d, e⟩; exact ⟨a, b, by omega, e⟩
  · rintro ⟨a, b, c, d⟩; exact ⟨a, b, by omega, by omega, d⟩

theorem faceGrid_quad {l : Nat} {x : Nat × Nat} :
    FaceGrid .quad l x ↔ 2 ^ (30 - l) ∣ x.1 ∧ 2 ^ (30 - l) ∣ x.2 ∧ x.1 ≤ 2 ^ 30 ∧ x.2 ≤ 2 ^ 30 := by
  simp only [FaceGrid, Grid, faceExp, cast_dvd, cast_le]
  constructor
  · rintro ⟨a, b, c, d⟩; exact ⟨a, b, c.2, d.2⟩
  · rintro ⟨a, b, c, d⟩; exact ⟨a, b, ⟨by omega, c⟩, by omega, d⟩

/-- Scaled multiples. -/
theorem scale {a M l p : Nat} (hl : l ≤ M) : 2 ^ (a + M - l) ∣ 2 ^ a * p ↔ 2 ^ (M - l) ∣ p := by
  rw [show a + M - l = a + (M - l) by omega, Nat.pow_add]
  exact Nat.mul_dvd_mul_iff_left (by positivity)

theorem scale_exists {a M l x : Nat} (hl : l ≤ M) (hx : 2 ^ (a + M - l) ∣ x) : ∃ p, x = 2 ^ a * p ∧ 2 ^ (M - l) ∣ p := by
  have : 2 ^ a ∣ x := (pow_dvd_pow _ (by omega)).trans hx
  obtain ⟨p, rfl⟩ := this
  exact ⟨p, rfl, (scale hl).1 hx⟩

theorem scale_le {a M p : Nat} : 2 ^ a * p ≤ 2 ^ (a + M) ↔ p ≤ 2 ^ M := by
  rw [Nat.pow_add]; exact Nat.mul_le_mul_left_iff (by positivity)

theorem pow_dvd' (n l : Nat) : 2 ^ (n - l) ∣ 2 ^ n := pow_dvd_pow _ (by omega)

/-! ### Roots -/

theorem quad_root_iff {F : Nat} (hF : F < 4) {p : Fin 2 → Nat} :
    p ∈ Standalone.Face 30 (Standalone.root 2) F ↔ p 0 ≤ 2 ^ 30 ∧ p 1 ≤ 2 ^ 30 ∧
      (F / 2 = 0 → p 0 = F % 2 * 2 ^ 30) ∧ (F / 2 ≠ 0 → p 1 = F % 2 * 2 ^ 30) := by
  interval_cases F <;>
    simp [Standalone.Face, Standalone.Box, Standalone.side, Standalone.root, Fin.forall_fin_two] <;> omega

theorem hex_root_iff {M F : Nat} (hF : F < 6) {p : Fin 3 → Nat} :
    p ∈ Standalone.Face M (Standalone.root 3) F ↔ (p 0 ≤ 2 ^ M ∧ p 1 ≤ 2 ^ M ∧ p 2 ≤ 2 ^ M) ∧
      (F / 2 = 0 → p 0 = F % 2 * 2 ^ M) ∧ (F / 2 = 1 → p 1 = F % 2 * 2 ^ M) ∧ (F / 2 = 2 → p 2 = F % 2 * 2 ^ M) := by
  generalize hH : 2 ^ M = H
  interval_cases F <;>
    simp [Standalone.Face, Standalone.Box, Standalone.side, Standalone.root, Fin.forall_fin_succ, hH] <;> omega

theorem tri_root_iff {F : Nat} (hF : F < 3) {p : Fin 2 → Nat} : p ∈ Simplex.Face .tri (Simplex.root .tri) F ↔
    (p 1 ≤ p 0 ∧ p 0 ≤ 2 ^ 29) ∧ (F = 0 → p 0 = 2 ^ 29) ∧ (F = 1 → p 0 = p 1) ∧ (F = 2 → p 1 = 0) := by
  refine ⟨tri_root hF, ?_⟩
  interval_cases F <;>
    simp [Simplex.Face, Simplex.Points, Simplex.size, Simplex.root, Fin.forall_fin_two, Simplex.rank, Simplex.axes,
      List.idxOf_cons, Simplex.Cls.maxLevel] <;> omega

theorem tet_root_iff {F : Nat} (hF : F < 4) {p : Fin 3 → Nat} : p ∈ Simplex.Face .tet (Simplex.root .tet) F ↔
    (p 1 ≤ p 2 ∧ p 2 ≤ p 0 ∧ p 0 ≤ 2 ^ 21) ∧ (F = 0 → p 0 = 2 ^ 21) ∧ (F = 1 → p 0 = p 2) ∧ (F = 2 → p 2 = p 1) ∧
      (F = 3 → p 1 = 0) := by
  refine ⟨tet_root hF, ?_⟩
  interval_cases F <;>
    simp [Simplex.Face, Simplex.Points, Simplex.size, Simplex.root, Fin.forall_fin_succ, Simplex.rank, Simplex.axes,
      List.idxOf_cons, Simplex.Cls.maxLevel] <;> omega

theorem pyramid_root_iff {F : Nat} (hF : F < 5) {p : Fin 3 → Nat} : p ∈ Pyramid.Face Pyramid.root F ↔
    (p 2 ≤ p 0 ∧ p 2 ≤ p 1 ∧ p 0 ≤ 2 ^ 21 ∧ p 1 ≤ 2 ^ 21) ∧ (F = 0 → p 0 = p 2) ∧ (F = 1 → p 0 = 2 ^ 21) ∧
      (F = 2 → p 1 = p 2) ∧ (F = 3 → p 1 = 2 ^ 21) ∧ (F = 4 → p 2 = 0) := by
  refine ⟨pyramid_root hF, ?_⟩
  interval_cases F <;>
    simp [Pyramid.Face, Pyramid.Points, Pyramid.OnPlane, Pyramid.root, Pyramid.Elem.level, Pyramid.Elem.type, Fin.forall_fin_succ] <;> omega

theorem tri_root_points {p : Fin 2 → Nat} : p ∈ Simplex.Points .tri (Simplex.root .tri) ↔ p 1 ≤ p 0 ∧ p 0 ≤ 2 ^ 29 := by
    simp [Simplex.Points, Simplex.size, Simplex.root, Fin.forall_fin_two, Simplex.rank, Simplex.axes,
      List.idxOf_cons, Simplex.Cls.maxLevel]; omega

theorem line_root_points {p : Nat} : p ∈ Dline.Points Dline.root ↔ p ≤ 2 ^ 30 := by
  simp [Dline.Points, Dline.root, Dline.maxLevel]

theorem line_root_face {F p : Nat} : p ∈ Dline.Face Dline.root F ↔ p = F * 2 ^ 30 := by
  simp [Dline.Face, Dline.root, Dline.maxLevel]

/-! ### From the tree to the face -/

theorem faceCoord_grid {S : P4ests} {c b : Eclass} {F l : Nat} (hF : F < c.numFaces) (hb : faceType c F = some b) (hl : l ≤ maxLevel c)
    {p : Fin 3 → Nat} (hp : (rootOf c).InFace S F p) (hla : Lattice S c l p) : FaceGrid b l (faceCoord S c F p) := by
  cases c with
  | vertex => exact absurd hF (by simp [Eclass.numFaces])
  | line =>
    rw [faceType, if_pos (show F < 2 from hF)] at hb
    cases hb
    exact faceGrid_vertex.2 rfl
  | quad =>
    rw [faceType, if_pos (show F < 4 from hF)] at hb
    cases hb
    obtain ⟨h0, h1, _⟩ := (quad_root_iff hF).1 hp
    rw [faceGrid_line, faceCoord]
    have d0 : 2 ^ (30 - l) ∣ p 0 := hla 0
    have d1 : 2 ^ (30 - l) ∣ p 1 := hla 1
    by_cases h : F / 2 = 0
    · simp only [if_pos h]; exact ⟨d1, h1, trivial⟩
    · simp only [if_neg h]; exact ⟨d0, h0, trivial⟩
  | triangle =>
    rw [faceType, if_pos (show F < 3 from hF)] at hb
    cases hb
    have hl' : l ≤ 29 := hl
    obtain ⟨⟨h1, h0⟩, _⟩ := (tri_root_iff hF).1 hp
    rw [faceGrid_line, faceCoord]
    have d0 : 2 ^ (29 - l) ∣ p 0 := hla 0
    have d1 : 2 ^ (29 - l) ∣ p 1 := hla 1
    have h1' : p 1 ≤ p 0 := h1
    have h0' : p 0 ≤ 2 ^ 29 := h0
    by_cases h : F = 0
    · simp only [if_pos h]; exact ⟨(scale (a := 1) hl').2 d1, by omega, trivial⟩
    · simp only [if_neg h]; exact ⟨(scale (a := 1) hl').2 d0, by omega, trivial⟩
  | hex =>
    rw [faceType, if_pos (show F < 6 from hF)] at hb
    cases hb
    have hl' : l ≤ 18 := hl
    have hM := S.hM
    have d : ∀ k : Fin 3, 2 ^ (30 - l) ∣ 2 ^ (30 - S.M) * p k := fun k => by
      have h : 2 ^ (S.M - l) ∣ p k := by
        have := hla k
        rw [if_pos (show k.val < Eclass.hex.dim from k.isLt)] at this
        exact this
      have := (scale (a := 30 - S.M) (M := S.M) (l := l) (by omega)).2 h
      rwa [show 30 - S.M + S.M = 30 by omega] at this
    have u : ∀ k : Fin 3, 2 ^ (30 - S.M) * p k ≤ 2 ^ 30 := fun k => by
      obtain ⟨⟨h0, h1, h2⟩, _⟩ := (hex_root_iff hF).1 hp
      have h : p k ≤ 2 ^ S.M := by fin_cases k; exacts [h0, h1, h2]
      have := (scale_le (a := 30 - S.M)).2 h
      rwa [show 30 - S.M + S.M = 30 by omega] at this
    rw [faceGrid_quad, faceCoord]
    refine ⟨?_, ?_, ?_, ?_⟩ <;> simp only <;> split
    exacts [d 1, d 0, d 1, d 2, u 1, u 0, u 1, u 2]
  | tet =>
    rw [faceType, if_pos (show F < 4 from hF)] at hb
    cases hb
    have hl' : l ≤ 21 := hl
    obtain ⟨⟨h1, h2, h3⟩, _⟩ := (tet_root_iff hF).1 hp
    have d : ∀ k : Fin 3, 2 ^ (29 - l) ∣ 2 ^ 8 * p k := fun k => by
      have h : 2 ^ (21 - l) ∣ p k := by fin_cases k; exacts [hla 0, hla 1, hla 2]
      exact (scale (a := 8) hl').2 h
    rw [faceGrid_triangle, faceCoord]
    refine ⟨?_, ?_, ?_, ?_⟩ <;> simp only <;> split_ifs <;> first | exact d 0 | exact d 1 | exact d 2 | omega
  | prism =>
    have hl' : l ≤ 21 := hl
    have d : ∀ k : Fin 2, 2 ^ (29 - l) ∣ p k.castSucc := fun k => by fin_cases k; exacts [hla 0, hla 1]
    have d2 : 2 ^ (30 - l) ∣ p 2 := hla 2
    obtain ⟨⟨h1, h2, h3⟩, _⟩ := prism_root hF hp
    have h1' : p 1 ≤ p 0 := h1
    have h2' : p 0 ≤ 2 ^ 29 := h2
    have h3' : p 2 ≤ 2 ^ 30 := h3
    by_cases h : F < 3
    · rw [faceType, if_pos h] at hb
      cases hb
      have d' : ∀ k : Fin 2, 2 ^ (30 - l) ∣ 2 * p k.castSucc := fun k => (scale (a := 1) (M := 29) (by omega)).2 (d k)
      rw [faceGrid_quad, faceCoord, if_pos h]
      refine ⟨?_, d2, ?_, h3'⟩ <;> simp only <;> split_ifs <;> first | exact d' 0 | exact d' 1 | omega
    · rw [faceType, if_neg h, if_pos (show F < 5 from hF)] at hb
      cases hb
      rw [faceGrid_triangle, faceCoord, if_neg h]
      exact ⟨d 0, d 1, h1', h2'⟩
  | pyramid =>
    have hl' : l ≤ 21 := (show l ≤ Pyramid.maxLevel from hl).trans (by decide)
    have d : ∀ k : Fin 3, 2 ^ (21 - l) ∣ p k := fun k => by fin_cases k; exacts [hla 0, hla 1, hla 2]
    obtain ⟨⟨h1, h2, h3, h4⟩, _⟩ := (pyramid_root_iff hF).1 hp
    by_cases h : F < 4
    · rw [faceType, if_pos h] at hb
      cases hb
      have d' : ∀ k : Fin 3, 2 ^ (29 - l) ∣ 2 ^ 8 * p k := fun k => (scale (a := 8) hl').2 (d k)
      rw [faceGrid_triangle, faceCoord, if_pos h]
      refine ⟨?_, ?_, ?_, ?_⟩ <;> simp only <;> (try split_ifs) <;> first | exact d' 0 | exact d' 1 | exact d' 2 | omega
    · rw [faceType, if_neg h, if_pos (show F < 5 from hF)] at hb
      cases hb
      have d' : ∀ k : Fin 3, 2 ^ (30 - l) ∣ 2 ^ 9 * p k := fun k => (scale (a := 9) hl').2 (d k)
      rw [faceGrid_quad, faceCoord, if_neg h]
      exact ⟨d' 0, d' 1, by simp only; omega, by simp only; omega⟩

/-! ### From the face to the tree -/

theorem lattice3 {S : P4ests} {c : Eclass} {l n : Nat} (hd : c.dim = 3) (hn : ∀ k, rootExp S c k = n) {p : Fin 3 → Nat}
    (h : ∀ k, 2 ^ (n - l) ∣ p k) : Lattice S c l p := fun k => by
  rw [hd, if_pos k.isLt, hn]; exact h k

theorem lift {S : P4ests} {c b : Eclass} {F l : Nat} (hF : F < c.numFaces) (hb : faceType c F = some b) (hl : l ≤ maxLevel c)
    {x : Nat × Nat} (hx : FaceGrid b l x) : ∃ p, (rootOf c).InFace S F p ∧ Lattice S c l p ∧ faceCoord S c F p = x := by
  obtain ⟨x1, x2⟩ := x
  cases c with
  | vertex => exact absurd hF (by simp [Eclass.numFaces])
  | line =>
    rw [faceType, if_pos (show F < 2 from hF)] at hb
    cases hb
    rw [faceGrid_vertex] at hx
    refine ⟨![F * 2 ^ 30, 0, 0], line_root_face.2 rfl, ?_, hx.symm⟩
    intro k
    fin_cases k
    · exact (pow_dvd' 30 l).mul_left F
    · rfl
    · rfl
  | quad =>
    rw [faceType, if_pos (show F < 4 from hF)] at hb
    cases hb
    obtain ⟨h1, h2, h3⟩ := faceGrid_line.1 hx
    simp only at h1 h2 h3
    subst h3
    have hd := (pow_dvd' 30 l).mul_left (F % 2)
    have hm : F % 2 * 2 ^ 30 ≤ 2 ^ 30 := by omega
    by_cases h : F / 2 = 0
    · refine ⟨![F % 2 * 2 ^ 30, x1, 0], (quad_root_iff hF).2 ⟨hm, h2, fun _ => rfl, fun h' => absurd h h'⟩, ?_, ?_⟩
      · intro k; fin_cases k; exacts [hd, h1, rfl]
      · simp [faceCoord, h]
    · refine ⟨![x1, F % 2 * 2 ^ 30, 0], (quad_root_iff hF).2 ⟨h2, hm, fun h' => absurd h' h, fun _ => rfl⟩, ?_, ?_⟩
      · intro k; fin_cases k; exacts [h1, hd, rfl]
      · simp [faceCoord]; omega
  | triangle =>
    rw [faceType, if_pos (show F < 3 from hF)] at hb
    cases hb
    have hl' : l ≤ 29 := hl
    obtain ⟨h1, h2, h3⟩ := faceGrid_line.1 hx
    simp only at h1 h2 h3
    subst h3
    obtain ⟨a, rfl, ha⟩ := scale_exists (a := 1) hl' h1
    have ha2 : a ≤ 2 ^ 29 := by omega
    have hF' : F < 3 := hF
    refine ⟨![if F = 0 then 2 ^ 29 else a, if F = 2 then 0 else a, 0], (tri_root_iff hF).2 ?_, ?_, ?_⟩
    · show ((if F = 2 then 0 else a) ≤ (if F = 0 then 2 ^ 29 else a) ∧ (if F = 0 then 2 ^ 29 else a) ≤ 2 ^ 29) ∧
        (F = 0 → (if F = 0 then 2 ^ 29 else a) = 2 ^ 29) ∧ (F = 1 → (if F = 0 then 2 ^ 29 else a) = (if F = 2 then 0 else a)) ∧
        (F = 2 → (if F = 2 then 0 else a) = 0)
      interval_cases F <;> simp <;> omega
    · intro k
      have d0 : 2 ^ (29 - l) ∣ (if F = 0 then 2 ^ 29 else a) := by split; exacts [pow_dvd' 29 l, ha]
      have d1 : 2 ^ (29 - l) ∣ (if F = 2 then 0 else a) := by split; exacts [dvd_zero _, ha]
      fin_cases k; exacts [d0, d1, rfl]
    · interval_cases F <;> simp [faceCoord]
  | hex =>
    rw [faceType, if_pos (show F < 6 from hF)] at hb
    cases hb
    have hl' : l ≤ 18 := hl
    have hM := S.hM
    obtain ⟨h1, h2, h3, h4⟩ := faceGrid_quad.1 hx
    simp only at h1 h2 h3 h4
    have e30 : 30 - S.M + S.M = 30 := by omega
    obtain ⟨a, rfl, ha⟩ := scale_exists (a := 30 - S.M) (M := S.M) (l := l) (x := x1) (by omega) (by rw [e30]; exact h1)
    obtain ⟨b, rfl, hb⟩ := scale_exists (a := 30 - S.M) (M := S.M) (l := l) (x := x2) (by omega) (by rw [e30]; exact h2)
    have ha2 : a ≤ 2 ^ S.M := (scale_le (a := 30 - S.M)).1 (by rw [e30]; exact h3)
    have hb2 : b ≤ 2 ^ S.M := (scale_le (a := 30 - S.M)).1 (by rw [e30]; exact h4)
    have hd := (pow_dvd' S.M l).mul_left (F % 2)
    have hm : F % 2 * 2 ^ S.M ≤ 2 ^ S.M := by
      have : F % 2 = 0 ∨ F % 2 = 1 := by omega
      rcases this with h | h <;> rw [h] <;> omega
    have hF' : F < 6 := hF
    have hc : F / 2 = 0 ∨ F / 2 = 1 ∨ F / 2 = 2 := by omega
    rcases hc with h | h | h
    · refine ⟨![F % 2 * 2 ^ S.M, a, b], (hex_root_iff hF).2 ⟨⟨hm, ha2, hb2⟩, fun _ => rfl, fun h' => by omega, fun h' => by omega⟩, ?_, ?_⟩
      · exact lattice3 rfl (fun _ => rfl) (fun k => by fin_cases k; exacts [hd, ha, hb])
      · simp [faceCoord, h]
    · refine ⟨![a, F % 2 * 2 ^ S.M, b], (hex_root_iff hF).2 ⟨⟨ha2, hm, hb2⟩, fun h' => by omega, fun _ => rfl, fun h' => by omega⟩, ?_, ?_⟩
      · exact lattice3 rfl (fun _ => rfl) (fun k => by fin_cases k; exacts [ha, hd, hb])
      · simp [faceCoord, h]
    · refine ⟨![a, b, F % 2 * 2 ^ S.M], (hex_root_iff hF).2 ⟨⟨ha2, hb2, hm⟩, fun h' => by omega, fun h' => by omega, fun _ => rfl⟩, ?_, ?_⟩
      · exact lattice3 rfl (fun _ => rfl) (fun k => by fin_cases k; exacts [ha, hb, hd])
      · simp [faceCoord, h]
  | tet =>
    rw [faceType, if_pos (show F < 4 from hF)] at hb
    cases hb
    have hl' : l ≤ 21 := hl
    obtain ⟨h1, h2, h3, h4⟩ := faceGrid_triangle.1 hx
    simp only at h1 h2 h3 h4
    obtain ⟨a, rfl, ha⟩ := scale_exists (a := 8) hl' h1
    obtain ⟨b, rfl, hb⟩ := scale_exists (a := 8) hl' h2
    have hab : b ≤ a := by omega
    have ha2 : a ≤ 2 ^ 21 := by omega
    have hF' : F < 4 := hF
    refine ⟨![if F = 0 then 2 ^ 21 else a, if F = 3 then 0 else b, if F < 2 then a else b], (tet_root_iff hF).2 ?_, ?_, ?_⟩
    · interval_cases F <;> simp <;> omega
    · refine lattice3 rfl (fun _ => rfl) (fun k => ?_)
      have d0 : 2 ^ (21 - l) ∣ (if F = 0 then 2 ^ 21 else a) := by split; exacts [pow_dvd' 21 l, ha]
      have d1 : 2 ^ (21 - l) ∣ (if F = 3 then 0 else b) := by split; exacts [dvd_zero _, hb]
      have d2 : 2 ^ (21 - l) ∣ (if F < 2 then a else b) := by split; exacts [ha, hb]
      fin_cases k; exacts [d0, d1, d2]
    · interval_cases F <;> simp [faceCoord]
  | prism =>
    have hl' : l ≤ 21 := hl
    have hF' : F < 5 := hF
    by_cases h : F < 3
    · rw [faceType, if_pos h] at hb
      cases hb
      obtain ⟨h1, h2, h3, h4⟩ := faceGrid_quad.1 hx
      simp only at h1 h2 h3 h4
      obtain ⟨a, rfl, ha⟩ := scale_exists (a := 1) (M := 29) (by omega) h1
      have ha2 : a ≤ 2 ^ 29 := by omega
      refine ⟨![if F = 0 then 2 ^ 29 else a, if F = 2 then 0 else a, x2], ?_, ?_, ?_⟩
      · show (to2 _, x2) ∈ Prism.Face Prism.root F
        rw [Prism.Face, if_pos h]
        refine ⟨(tri_root_iff h).2 ?_, line_root_points.2 h4⟩
        show ((if F = 2 then 0 else a) ≤ (if F = 0 then 2 ^ 29 else a) ∧ (if F = 0 then 2 ^ 29 else a) ≤ 2 ^ 29) ∧
          (F = 0 → (if F = 0 then 2 ^ 29 else a) = 2 ^ 29) ∧ (F = 1 → (if F = 0 then 2 ^ 29 else a) = (if F = 2 then 0 else a)) ∧
          (F = 2 → (if F = 2 then 0 else a) = 0)
        interval_cases F <;> simp <;> omega
      · intro k
        have d0 : 2 ^ (29 - l) ∣ (if F = 0 then 2 ^ 29 else a) := by split; exacts [pow_dvd' 29 l, ha]
        have d1 : 2 ^ (29 - l) ∣ (if F = 2 then 0 else a) := by split; exacts [dvd_zero _, ha]
        fin_cases k; exacts [d0, d1, h2]
      · interval_cases F <;> simp [faceCoord]
    · rw [faceType, if_neg h, if_pos (show F < 5 from hF)] at hb
      cases hb
      obtain ⟨h1, h2, h3, h4⟩ := faceGrid_triangle.1 hx
      simp only at h1 h2 h3 h4
      refine ⟨![x1, x2, (F - 3) * 2 ^ 30], ?_, ?_, ?_⟩
      · show (to2 _, (F - 3) * 2 ^ 30) ∈ Prism.Face Prism.root F
        rw [Prism.Face, if_neg h]
        exact ⟨tri_root_points.2 ⟨h3, h4⟩, line_root_face.2 rfl⟩
      · intro k
        fin_cases k; exacts [h1, h2, (pow_dvd' 30 l).mul_left _]
      · simp [faceCoord, h]
  | pyramid =>
    have hl' : l ≤ 21 := (show l ≤ Pyramid.maxLevel from hl).trans (by decide)
    have hF' : F < 5 := hF
    by_cases h : F < 4
    · rw [faceType, if_pos h] at hb
      cases hb
      obtain ⟨h1, h2, h3, h4⟩ := faceGrid_triangle.1 hx
      simp only at h1 h2 h3 h4
      obtain ⟨a, rfl, ha⟩ := scale_exists (a := 8) hl' h1
      obtain ⟨b, rfl, hb⟩ := scale_exists (a := 8) hl' h2
      have hab : b ≤ a := by omega
      have ha2 : a ≤ 2 ^ 21 := by omega
      refine ⟨![if F = 0 then b else if F = 1 then 2 ^ 21 else a, if F = 2 then b else if F = 3 then 2 ^ 21 else a, b],
        (pyramid_root_iff hF).2 ?_, ?_, ?_⟩
      · interval_cases F <;> simp <;> omega
      · refine lattice3 rfl (fun _ => rfl) (fun k => ?_)
        have d0 : 2 ^ (21 - l) ∣ (if F = 0 then b else if F = 1 then 2 ^ 21 else a) := by
          split_ifs; exacts [hb, pow_dvd' 21 l, ha]
        have d1 : 2 ^ (21 - l) ∣ (if F = 2 then b else if F = 3 then 2 ^ 21 else a) := by
          split_ifs; exacts [hb, pow_dvd' 21 l, ha]
        fin_cases k; exacts [d0, d1, hb]
      · interval_cases F <;> simp [faceCoord]
    · rw [faceType, if_neg h, if_pos (show F < 5 from hF)] at hb
      cases hb
      have hF4 : F = 4 := by omega
      subst hF4
      obtain ⟨h1, h2, h3, h4⟩ := faceGrid_quad.1 hx
      simp only at h1 h2 h3 h4
      obtain ⟨a, rfl, ha⟩ := scale_exists (a := 9) hl' h1
      obtain ⟨b, rfl, hb⟩ := scale_exists (a := 9) hl' h2
      have hb2 : b ≤ 2 ^ 21 := by omega
      have ha2 : a ≤ 2 ^ 21 := by omega
      refine ⟨![a, b, 0], (pyramid_root_iff hF).2 ?_, ?_, ?_⟩
      · simp; omega
      · exact lattice3 rfl (fun _ => rfl) (fun k => by fin_cases k; exacts [ha, hb, dvd_zero _])
      · simp [faceCoord]

/-- The partner of a point of the grid in a face of a tree on the other side of the face. -/
theorem partner {S : P4ests} {b c : Eclass} {F : Nat} {c' : Eclass} {F' o l : Nat} (hF : F < c.numFaces) (hF' : F' < c'.numFaces)
    (hb : faceType c F = some b) (hb' : faceType c' F' = some b) (ho : o < b.numVertices) (hl : l ≤ maxLevel c) (hl' : l ≤ maxLevel c')
    {p : Fin 3 → Nat} (hp : (rootOf c).InFace S F p) (hla : Lattice S c l p) :
    ∃ p', (rootOf c').InFace S F' p' ∧ Lattice S c' l p' ∧ Glued S b c F c' F' o p p' := by
  have hg := faceCoord_grid hF hb hl hp hla
  obtain ⟨⟨y, hy, hy2⟩, z, hz, hz2⟩ := symm_grid ho (flip c F c' F') hg
  by_cases hm : Main c F c' F'
  · obtain ⟨p', h1, h2, h3⟩ := lift (S := S) hF' hb' hl' hy
    refine ⟨p', h1, h2, fun _ => ?_, fun h => absurd hm h⟩
    rw [h3]; exact hy2
  · obtain ⟨p', h1, h2, h3⟩ := lift (S := S) hF' hb' hl' hz
    refine ⟨p', h1, h2, fun h => absurd h hm, fun _ => ?_⟩
    rw [h3]; exact hz2

end T8.Geometry
