/-
The linear geometry at the faces of the trees.
-/
import Verif.Lemmas.Geometry
import Verif.Lemmas.FaceCorners
import Mathlib.Tactic.LinearCombination

namespace T8.Geometry
open Neighbor

/-- The coordinates of a point in a face, in the reference element of the class of the face. -/
def faceRef (S : P4ests) (b : Eclass) (x : Nat × Nat) : Point :=
  ![(x.1 : ℚ) / (rootLength S b 0 : ℚ), (x.2 : ℚ) / (rootLength S b 1 : ℚ), 0]

/-- The vertices of a face. -/
def faceValues (c : Eclass) (F : Nat) (V : Nat → Point) (i : Nat) : Point := V (((faceVertices c).getD F []).getD i 0)

theorem restrict_line {S : P4ests} {F : Nat} (hF : F < 2) {p : Fin 3 → Nat} (hp : (rootOf .line).InFace S F p) (V : Nat → Point) :
    linearGeometry .line V (toRef S .line p) =
      linearGeometry .vertex (faceValues .line F V) (faceRef S .vertex (faceCoord S .line F p)) := by
  funext k
  interval_cases F <;> simp [rootOf, Element.InFace, Dline.Face, Dline.root, Dline.maxLevel] at hp <;>
    simp [linearGeometry, linearInterpolation, toRef, rootLength, hp, faceValues, faceVertices]

theorem restrict_quad {S : P4ests} {F : Nat} (hF : F < 4) {p : Fin 3 → Nat} (hp : (rootOf .quad).InFace S F p) (V : Nat → Point) :
    linearGeometry .quad V (toRef S .quad p) =
      linearGeometry .line (faceValues .quad F V) (faceRef S .line (faceCoord S .quad F p)) := by
  funext k
  interval_cases F <;>
    simp [rootOf, Element.InFace, Standalone.Face, Standalone.Box, Standalone.side, Standalone.root, Fin.forall_fin_two, to2] at hp <;>
    simp [linearGeometry, linearInterpolation, toRef, rootLength, hp, faceValues, faceVertices, faceRef, faceCoord]

/-- The points of the root triangle and of its faces. -/
theorem tri_root {F : Nat} (hF : F < 3) {p : Fin 2 → Nat} (hp : p ∈ Simplex.Face .tri (Simplex.root .tri) F) :
    (p 1 ≤ p 0 ∧ p 0 ≤ 2 ^ 29) ∧ (F = 0 → p 0 = 2 ^ 29) ∧ (F = 1 → p 0 = p 1) ∧ (F = 2 → p 1 = 0) := by
  interval_cases F <;>
    simp [Simplex.Face, Simplex.Points, Simplex.size, Simplex.root, Fin.forall_fin_two, Simplex.rank, Simplex.axes,
      List.idxOf_cons, Simplex.Cls.maxLevel] at hp ⊢ <;> omega

theorem tet_root {F : Nat} (hF : F < 4) {p : Fin 3 → Nat} (hp : p ∈ Simplex.Face .tet (Simplex.root .tet) F) :
    (p 1 ≤ p 2 ∧ p 2 ≤ p 0 ∧ p 0 ≤ 2 ^ 21) ∧ (F = 0 → p 0 = 2 ^ 21) ∧ (F = 1 → p 0 = p 2) ∧ (F = 2 → p 2 = p 1) ∧
      (F = 3 → p 1 = 0) := by
  interval_cases F <;>
    simp [Simplex.Face, Simplex.Points, Simplex.size, Simplex.root, Fin.forall_fin_succ, Simplex.rank, Simplex.axes,
      List.idxOf_cons, Simplex.Cls.maxLevel] at hp ⊢ <;> omega

theorem prism_root {F : Nat} (hF : F < 5) {p : (Fin 2 → Nat) × Nat} (hp : p ∈ Prism.Face Prism.root F) :
    (p.1 1 ≤ p.1 0 ∧ p.1 0 ≤ 2 ^ 29 ∧ p.2 ≤ 2 ^ 30) ∧ (F = 0 → p.1 0 = 2 ^ 29) ∧ (F = 1 → p.1 0 = p.1 1) ∧ (F = 2 → p.1 1 = 0) ∧
      (F = 3 → p.2 = 0) ∧ (F = 4 → p.2 = 2 ^ 30) := by
  rw [Prism.Face] at hp
  by_cases h : F < 3
  · rw [if_pos h] at hp
    obtain ⟨⟨h1, h2⟩, h3⟩ := tri_root h hp.1
    have h4 := hp.2
    simp [Dline.Points, Prism.root, Dline.root, Dline.maxLevel] at h4
    refine ⟨⟨h1, h2, by omega⟩, h3.1, h3.2.1, h3.2.2, by omega, by omega⟩
  · rw [if_neg h] at hp
    have h4 := hp.1
    have h5 := hp.2
    simp [Simplex.Points, Simplex.size, Simplex.root, Fin.forall_fin_two, Simplex.rank, Simplex.axes, Prism.root,
      List.idxOf_cons, Simplex.Cls.maxLevel] at h4
    simp [Dline.Face, Prism.root, Dline.root, Dline.maxLevel] at h5
    have : F = 3 ∨ F = 4 := by omega
    rcases this with rfl | rfl <;> omega

theorem pyramid_root {F : Nat} (hF : F < 5) {p : Fin 3 → Nat} (hp : p ∈ Pyramid.Face Pyramid.root F) :
    (p 2 ≤ p 0 ∧ p 2 ≤ p 1 ∧ p 0 ≤ 2 ^ 21 ∧ p 1 ≤ 2 ^ 21) ∧ (F = 0 → p 0 = p 2) ∧ (F = 1 → p 0 = 2 ^ 21) ∧
      (F = 2 → p 1 = p 2) ∧ (F = 3 → p 1 = 2 ^ 21) ∧ (F = 4 → p 2 = 0) := by
  interval_cases F <;>
    simp [Pyramid.Face, Pyramid.Points, Pyramid.OnPlane, Pyramid.root, Pyramid.Elem.level, Pyramid.Elem.type, Fin.forall_fin_succ] at hp ⊢ <;> omega

theorem restrict_triangle {S : P4ests} {F : Nat} (hF : F < 3) {p : Fin 3 → Nat} (hp : (rootOf .triangle).InFace S F p)
    (V : Nat → Point) : linearGeometry .triangle V (toRef S .triangle p) =
      linearGeometry .line (faceValues .triangle F V) (faceRef S .line (faceCoord S .triangle F p)) := by
  funext k
  obtain ⟨_, h0, h1, h2⟩ := tri_root hF hp
  simp only [to2] at h0 h1 h2
  interval_cases F
  · have h : p 0 = 2 ^ 29 := h0 rfl
    simp [linearGeometry, linearInterpolation, triangularInterpolation, toRef, rootLength, faceValues, faceVertices, faceRef, faceCoord, h]
    ring
  · have h : p 0 = p 1 := h1 rfl
    simp [linearGeometry, linearInterpolation, triangularInterpolation, toRef, rootLength, faceValues, faceVertices, faceRef, faceCoord, h]
    ring
  · have h : p 1 = 0 := h2 rfl
    simp [linearGeometry, linearInterpolation, triangularInterpolation, toRef, rootLength, faceValues, faceVertices, faceRef, faceCoord, h]
    ring

theorem restrict_hex {S : P4ests} {F : Nat} (hF : F < 6) {p : Fin 3 → Nat} (hp : (rootOf .hex).InFace S F p) (V : Nat → Point) :
    linearGeometry .hex V (toRef S .hex p) =
      linearGeometry .quad (faceValues .hex F V) (faceRef S .quad (faceCoord S .hex F p)) := by
  funext k
  have hpow : ((2 : ℚ) ^ (30 - S.M)) * 2 ^ S.M = 1073741824 := by
    rw [← pow_add, show 30 - S.M + S.M = 30 by have := S.hM; omega]; norm_num
  have hdiv : ∀ x : ℚ, 2 ^ (30 - S.M) * x / 1073741824 = x / 2 ^ S.M := by
    intro x
    rw [← hpow]
    field_simp
  interval_cases F <;>
    simp [rootOf, Element.InFace, Standalone.Face, Standalone.Box, Standalone.side, Standalone.root, Fin.forall_fin_succ] at hp <;>
    simp [linearGeometry, linearInterpolation, toRef, rootLength, hp, faceValues, faceVertices, faceRef, faceCoord, hdiv] <;> ring

theorem restrict_tet {S : P4ests} {F : Nat} (hF : F < 4) {p : Fin 3 → Nat} (hp : (rootOf .tet).InFace S F p)
    (V : Nat → Point) : linearGeometry .tet V (toRef S .tet p) =
      linearGeometry .triangle (faceValues .tet F V) (faceRef S .triangle (faceCoord S .tet F p)) := by
  funext k
  obtain ⟨_, h0, h1, h2, h3⟩ := tet_root hF hp
  interval_cases F
  · have h : p 0 = 2 ^ 21 := h0 rfl
    simp [linearGeometry, triangularInterpolation, toRef, rootLength, faceValues, faceVertices, faceRef, faceCoord, h]
    ring
  · have h : p 0 = p 2 := h1 rfl
    simp [linearGeometry, triangularInterpolation, toRef, rootLength, faceValues, faceVertices, faceRef, faceCoord, h]
    ring
  · have h : p 2 = p 1 := h2 rfl
    simp [linearGeometry, triangularInterpolation, toRef, rootLength, faceValues, faceVertices, faceRef, faceCoord, h]
    ring
  · have h : p 1 = 0 := h3 rfl
    simp [linearGeometry, triangularInterpolation, toRef, rootLength, faceValues, faceVertices, faceRef, faceCoord, h]
    ring

theorem restrict_prism {S : P4ests} {F : Nat} (hF : F < 5) {b : Eclass} (hb : faceType .prism F = some b) {p : Fin 3 → Nat}
    (hp : (rootOf .prism).InFace S F p)
    (V : Nat → Point) : linearGeometry .prism V (toRef S .prism p) =
      linearGeometry b (faceValues .prism F V) (faceRef S b (faceCoord S .prism F p)) := by
  funext k
  obtain ⟨_, h0, h1, h2, h3, h4⟩ := prism_root hF hp
  simp only [to2] at h0 h1 h2 h3 h4
  interval_cases F <;> simp [faceType] at hb <;> subst hb
  · have h : p 0 = 2 ^ 29 := h0 rfl
    simp [linearGeometry, triangularInterpolation, linearInterpolation, toRef, rootLength, faceValues, faceVertices, faceRef, faceCoord, h]
    ring
  · have h : p 0 = p 1 := h1 rfl
    simp [linearGeometry, triangularInterpolation, linearInterpolation, toRef, rootLength, faceValues, faceVertices, faceRef, faceCoord, h]
    ring
  · have h : p 1 = 0 := h2 rfl
    simp [linearGeometry, triangularInterpolation, linearInterpolation, toRef, rootLength, faceValues, faceVertices, faceRef, faceCoord, h]
    ring
  · have h : p 2 = 0 := h3 rfl
    simp [linearGeometry, triangularInterpolation, linearInterpolation, toRef, rootLength, faceValues, faceVertices, faceRef, faceCoord, h]
  · have h : p 2 = 2 ^ 30 := h4 rfl
    simp [linearGeometry, triangularInterpolation, linearInterpolation, toRef, rootLength, faceValues, faceVertices, faceRef, faceCoord, h]

/-- The geometry of a pyramid without the division. -/
theorem pyramid_eq (V : Nat → Point) (r : Point) (k : Fin 3) (h : r 2 ≠ 1) :
    linearGeometry .pyramid V r k * (1 - r 2) =
      V 0 k * (1 - r 0) * (1 - r 1) + V 1 k * (r 0 - r 2) * (1 - r 1) + V 2 k * (1 - r 0) * (r 1 - r 2) +
        V 3 k * (r 0 - r 2) * (r 1 - r 2) + V 4 k * r 2 * (1 - r 2) := by
  have h' : 1 - r 2 ≠ 0 := fun h1 => h (by linarith)
  simp only [linearGeometry, if_pos h, linearInterpolation]
  norm_num
  field_simp
  ring

theorem restrict_pyramid {S : P4ests} {F : Nat} (hF : F < 5) {b : Eclass} (hb : faceType .pyramid F = some b) {p : Fin 3 → Nat}
    (hp : (rootOf .pyramid).InFace S F p)
    (V : Nat → Point) : linearGeometry .pyramid V (toRef S .pyramid p) =
      linearGeometry b (faceValues .pyramid F V) (faceRef S b (faceCoord S .pyramid F p)) := by
  funext k
  obtain ⟨⟨g1, g2, g3, g4⟩, h0, h1, h2, h3, h4⟩ := pyramid_root hF hp
  by_cases h : toRef S .pyramid p 2 = 1
  · have hz : p 2 = 2 ^ 21 := by
      simp [toRef, rootLength] at h
      have h' : (p 2 : ℚ) = 2097152 := by
        rw [div_eq_one_iff_eq (by norm_num)] at h; exact h
      exact_mod_cast h'
    have hx : p 0 = 2 ^ 21 := by omega
    have hy : p 1 = 2 ^ 21 := by omega
    rw [linearGeometry, if_neg (by simpa using h)]
    interval_cases F <;> simp [faceType] at hb <;> subst hb <;>
      first
      | exact absurd (h4 rfl) (by omega)
      | simp [linearGeometry, triangularInterpolation, linearInterpolation, rootLength, faceValues, faceVertices, faceRef, faceCoord, hx, hy, hz]
  · have hne : 1 - toRef S .pyramid p 2 ≠ 0 := fun h1 => h (by linarith)
    apply mul_right_cancel₀ hne
    rw [pyramid_eq V _ k h]
    interval_cases F <;> simp [faceType] at hb <;> subst hb
    · have h : p 0 = p 2 := h0 rfl
      simp [linearGeometry, triangularInterpolation, linearInterpolation, toRef, rootLength, faceValues, faceVertices, faceRef, faceCoord, h]
      ring
    · have h : p 0 = 2 ^ 21 := h1 rfl
      simp [linearGeometry, triangularInterpolation, linearInterpolation, toRef, rootLength, faceValues, faceVertices, faceRef, faceCoord, h]
      ring
    · have h : p 1 = p 2 := h2 rfl
      simp [linearGeometry, triangularInterpolation, linearInterpolation, toRef, rootLength, faceValues, faceVertices, faceRef, faceCoord, h]
      ring
    · have h : p 1 = 2 ^ 21 := h3 rfl
      simp [linearGeometry, triangularInterpolation, linearInterpolation, toRef, rootLength, faceValues, faceVertices, faceRef, faceCoord, h]
      ring
    · have h : p 2 = 0 := h4 rfl
      simp [linearGeometry, triangularInterpolation, linearInterpolation, toRef, rootLength, faceValues, faceVertices, faceRef, faceCoord, h]
      ring

/-- At a face of the tree, the linear geometry is that of the face. -/
theorem restrict {S : P4ests} {c b : Eclass} {F : Nat} (hF : F < c.numFaces) (hb : faceType c F = some b) {p : Fin 3 → Nat}
    (hp : (rootOf c).InFace S F p) (V : Nat → Point) :
    linearGeometry c V (toRef S c p) = linearGeometry b (faceValues c F V) (faceRef S b (faceCoord S c F p)) := by
  cases c with
  | vertex => exact absurd hF (by simp [Eclass.numFaces])
  | line =>
    have hF' : F < 2 := hF
    rw [faceType, if_pos hF'] at hb; cases hb; exact restrict_line hF' hp V
  | quad =>
    have hF' : F < 4 := hF
    rw [faceType, if_pos hF'] at hb; cases hb; exact restrict_quad hF' hp V
  | triangle =>
    have hF' : F < 3 := hF
    rw [faceType, if_pos hF'] at hb; cases hb; exact restrict_triangle hF' hp V
  | hex =>
    have hF' : F < 6 := hF
    rw [faceType, if_pos hF'] at hb; cases hb; exact restrict_hex hF' hp V
  | tet =>
    have hF' : F < 4 := hF
    rw [faceType, if_pos hF'] at hb; cases hb; exact restrict_tet hF' hp V
  | prism => exact restrict_prism hF hb hp V
  | pyramid => exact restrict_pyramid hF hb hp V

/-! ### The symmetries of the faces -/

/-- Corner `i` of a face, in the coordinates of the face. -/
def symCorner (S : P4ests) (b : Eclass) (i : Nat) : Int × Int :=
  (((rootLength S b 0 * unit b i 0 : Nat) : Int), ((rootLength S b 1 * unit b i 1 : Nat) : Int))

theorem symm_line {S : P4ests} {o : Nat} (ho : o < 2) (flip : Bool) {w w' : Nat → Point}
    (hw : ∀ i j, i < 2 → j < 2 → symCorner S .line j = symmetry .line o flip (symCorner S .line i) → w i = w' j) {x x' : Nat × Nat}
    (hx : (((x'.1 : Nat) : Int), ((x'.2 : Nat) : Int)) = symmetry .line o flip (x.1, x.2)) :
    linearGeometry .line w (faceRef S .line x) = linearGeometry .line w' (faceRef S .line x') := by
  funext k
  interval_cases o
  · have e0 := hw 0 0 (by decide) (by decide) (by simp [symCorner, symmetry])
    have e1 := hw 1 1 (by decide) (by decide) (by simp [symCorner, symmetry])
    simp only [symmetry, if_true, Prod.mk.injEq] at hx
    have h1 : x'.1 = x.1 := by exact_mod_cast hx.1
    simp [linearGeometry, linearInterpolation, faceRef, h1, e0, e1]
  · have hc : ∀ j, symCorner S .line j = (2 ^ 30 * (unit .line j 0 : Int), 2 ^ 30 * (unit .line j 1 : Int)) := by
      intro j; simp only [symCorner, rootLength]; push_cast; rfl
    have e0 := hw 0 1 (by decide) (by decide) (by rw [hc, hc]; norm_num [symmetry, unit, unitCorner])
    have e1 := hw 1 0 (by decide) (by decide) (by rw [hc, hc]; norm_num [symmetry, unit, unitCorner])
    simp only [symmetry, Prod.mk.injEq] at hx
    have h0 := congrArg (Int.cast : Int → ℚ) hx.1
    rw [if_neg (by decide)] at h0
    have h1 : (x'.1 : ℚ) = 1073741824 - x.1 := by
      rw [Int.cast_natCast, Int.cast_sub, Int.cast_natCast] at h0
      rw [h0]; norm_num
    simp [linearGeometry, linearInterpolation, faceRef, rootLength, h1, e0, e1]
    ring

/-- The weights of the corners of the triangle after the symmetry. -/
theorem tri_symm_eq {R : Int} {o : Nat} (ho : o < 3) (flip : Bool) {x x' : Int × Int} (hx : x' = Simplex.triSymmetry R o flip x)
    (a : Nat → ℚ) : ∃ j0 j1 j2, j0 < 3 ∧ j1 < 3 ∧ j2 < 3 ∧ Simplex.triSymmetry R o flip (0, 0) = (R * unit .triangle j0 0, R * unit .triangle j0 1) ∧
      Simplex.triSymmetry R o flip (R, 0) = (R * unit .triangle j1 0, R * unit .triangle j1 1) ∧
      Simplex.triSymmetry R o flip (R, R) = (R * unit .triangle j2 0, R * unit .triangle j2 1) ∧
      (a j1 - a j0) * (x.1 : ℚ) + (a j2 - a j1) * (x.2 : ℚ) + a j0 * R =
        (a 1 - a 0) * (x'.1 : ℚ) + (a 2 - a 1) * (x'.2 : ℚ) + a 0 * R := by
  subst hx
  refine ⟨o % 3, if flip then (o + 2) % 3 else (o + 1) % 3, if flip then (o + 1) % 3 else (o + 2) % 3, by omega, by split_ifs <;> omega, by split_ifs <;> omega, ?_⟩
  cases flip <;> interval_cases o <;> norm_num [Simplex.triSymmetry, Simplex.triWeight, unit, unitCorner] <;> ring

theorem quad_symm_eq {R : Int} {o : Nat} (ho : o < 4) (flip : Bool) {x x' : Int × Int} (hx : x' = Standalone.squareSymmetry R o flip x)
    (a : Nat → ℚ) : ∃ j0 j1 j2 j3, j0 < 4 ∧ j1 < 4 ∧ j2 < 4 ∧ j3 < 4 ∧
      Standalone.squareSymmetry R o flip (0, 0) = (R * unit .quad j0 0, R * unit .quad j0 1) ∧
      Standalone.squareSymmetry R o flip (R, 0) = (R * unit .quad j1 0, R * unit .quad j1 1) ∧
      Standalone.squareSymmetry R o flip (0, R) = (R * unit .quad j2 0, R * unit .quad j2 1) ∧
      Standalone.squareSymmetry R o flip (R, R) = (R * unit .quad j3 0, R * unit .quad j3 1) ∧
      (a j0 * (R - x.1) + a j1 * x.1) * (R - x.2) + (a j2 * (R - x.1) + a j3 * x.1) * x.2 =
      (a 0 * (R - x'.1) + a 1 * x'.1) * (R - x'.2) + (a 2 * (R - x'.1) + a 3 * x'.1) * x'.2 := by
  subst hx
  cases flip <;> interval_cases o
  · refine ⟨0, 1, 2, 3, ?_⟩; norm_num [Standalone.squareSymmetry, Standalone.corner, unit, unitCorner]
  · refine ⟨1, 3, 0, 2, ?_⟩; norm_num [Standalone.squareSymmetry, Standalone.corner, unit, unitCorner]; ring
  · refine ⟨2, 0, 3, 1, ?_⟩; norm_num [Standalone.squareSymmetry, Standalone.corner, unit, unitCorner]; ring
  · refine ⟨3, 2, 1, 0, ?_⟩; norm_num [Standalone.squareSymmetry, Standalone.corner, unit, unitCorner]; ring
  · refine ⟨0, 2, 1, 3, ?_⟩; norm_num [Standalone.squareSymmetry, Standalone.corner, unit, unitCorner]; ring
  · refine ⟨1, 0, 3, 2, ?_⟩; norm_num [Standalone.squareSymmetry, Standalone.corner, unit, unitCorner]; ring
  · refine ⟨2, 3, 0, 1, ?_⟩; norm_num [Standalone.squareSymmetry, Standalone.corner, unit, unitCorner]; ring
  · refine ⟨3, 1, 2, 0, ?_⟩; norm_num [Standalone.squareSymmetry, Standalone.corner, unit, unitCorner]; ring

theorem symm_triangle {S : P4ests} {o : Nat} (ho : o < 3) (flip : Bool) {w w' : Nat → Point}
    (hw : ∀ i j, i < 3 → j < 3 → symCorner S .triangle j = symmetry .triangle o flip (symCorner S .triangle i) → w i = w' j)
    {x x' : Nat × Nat} (hx : (((x'.1 : Nat) : Int), ((x'.2 : Nat) : Int)) = symmetry .triangle o flip (x.1, x.2)) :
    linearGeometry .triangle w (faceRef S .triangle x) = linearGeometry .triangle w' (faceRef S .triangle x') := by
  funext k
  obtain ⟨j0, j1, j2, a0, a1, a2, b0, b1, b2, h⟩ := tri_symm_eq ho flip hx (fun j => w' j k)
  have hc : ∀ j, symCorner S .triangle j = (2 ^ 29 * (unit .triangle j 0 : Int), 2 ^ 29 * (unit .triangle j 1 : Int)) := by
    intro j; simp only [symCorner, rootLength]; push_cast; rfl
  have e0 := hw 0 j0 (by decide) a0 (by rw [hc, hc, ← b0]; simp only [symmetry, unit, unitCorner, List.getD_cons_zero, List.getD_cons_succ, Nat.cast_zero, Nat.cast_one, mul_zero, mul_one])
  have e1 := hw 1 j1 (by decide) a1 (by rw [hc, hc, ← b1]; simp only [symmetry, unit, unitCorner, List.getD_cons_zero, List.getD_cons_succ, Nat.cast_zero, Nat.cast_one, mul_zero, mul_one])
  have e2 := hw 2 j2 (by decide) a2 (by rw [hc, hc, ← b2]; simp only [symmetry, unit, unitCorner, List.getD_cons_zero, List.getD_cons_succ, Nat.cast_zero, Nat.cast_one, mul_zero, mul_one])
  simp only [linearGeometry, triangularInterpolation, faceRef, rootLength, e0, e1, e2]
  push_cast at h
  norm_num
  norm_num at h
  linear_combination h / 536870912

theorem symm_quad {S : P4ests} {o : Nat} (ho : o < 4) (flip : Bool) {w w' : Nat → Point}
    (hw : ∀ i j, i < 4 → j < 4 → symCorner S .quad j = symmetry .quad o flip (symCorner S .quad i) → w i = w' j)
    {x x' : Nat × Nat} (hx : (((x'.1 : Nat) : Int), ((x'.2 : Nat) : Int)) = symmetry .quad o flip (x.1, x.2)) :
    linearGeometry .quad w (faceRef S .quad x) = linearGeometry .quad w' (faceRef S .quad x') := by
  funext k
  obtain ⟨j0, j1, j2, j3, a0, a1, a2, a3, b0, b1, b2, b3, h⟩ := quad_symm_eq ho flip hx (fun j => w' j k)
  have hc : ∀ j, symCorner S .quad j = (2 ^ 30 * (unit .quad j 0 : Int), 2 ^ 30 * (unit .quad j 1 : Int)) := by
    intro j; simp only [symCorner, rootLength]; push_cast; rfl
  have e0 := hw 0 j0 (by decide) a0 (by rw [hc, hc, ← b0]; simp only [symmetry, unit, unitCorner, List.getD_cons_zero, List.getD_cons_succ, Nat.cast_zero, Nat.cast_one, mul_zero, mul_one])
  have e1 := hw 1 j1 (by decide) a1 (by rw [hc, hc, ← b1]; simp only [symmetry, unit, unitCorner, List.getD_cons_zero, List.getD_cons_succ, Nat.cast_zero, Nat.cast_one, mul_zero, mul_one])
  have e2 := hw 2 j2 (by decide) a2 (by rw [hc, hc, ← b2]; simp only [symmetry, unit, unitCorner, List.getD_cons_zero, List.getD_cons_succ, Nat.cast_zero, Nat.cast_one, mul_zero, mul_one])
  have e3 := hw 3 j3 (by decide) a3 (by rw [hc, hc, ← b3]; simp only [symmetry, unit, unitCorner, List.getD_cons_zero, List.getD_cons_succ, Nat.cast_zero, Nat.cast_one, mul_zero, mul_one])
  simp only [linearGeometry, linearInterpolation, faceRef, rootLength, e0, e1, e2, e3]
  push_cast at h
  norm_num
  norm_num at h
  linear_combination h / (1073741824 * 1073741824)

/-- Points that are related by the symmetry of the face have the same coordinates if this holds for the corners. -/
theorem symm_geometry {S : P4ests} {b : Eclass} (hb : b.dim ≤ 2) {o : Nat} (ho : o < b.numVertices) (flip : Bool) {w w' : Nat → Point}
    (hw : ∀ i j, i < b.numVertices → j < b.numVertices → symCorner S b j = symmetry b o flip (symCorner S b i) → w i = w' j)
    {x x' : Nat × Nat} (hx : (((x'.1 : Nat) : Int), ((x'.2 : Nat) : Int)) = symmetry b o flip (x.1, x.2)) :
    linearGeometry b w (faceRef S b x) = linearGeometry b w' (faceRef S b x') := by
  cases b with
  | vertex => exact hw 0 0 (by decide) (by decide) rfl
  | line => exact symm_line ho flip hw hx
  | quad => exact symm_quad ho flip hw hx
  | triangle => exact symm_triangle ho flip hw hx
  | _ => exact absurd hb (by decide)

end T8.Geometry
