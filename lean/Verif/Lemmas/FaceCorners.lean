/-
The corners of the faces in the coordinates of the faces.
-/
import Verif.Lemmas.FaceGluing
import Mathlib.Tactic.IntervalCases
import Mathlib.Tactic.Tauto

namespace T8.Neighbor

theorem line_corners (S : P4ests) (b : Eclass) (F i : Nat) (hF : F < Eclass.line.numFaces) (hb : faceType .line F = some b)
    (hi : i < b.numVertices) (p : Fin 3 → Nat)
    (hp : ∀ k, p k = rootLength S .line k.val * unit .line (((faceVertices .line).getD F []).getD i 0) k.val) :
    (rootOf .line).InFace S F p ∧ faceCoord S .line F p = (rootLength S b 0 * unit b i 0, rootLength S b 1 * unit b i 1) := by
  have h0 := hp 0
  have h1 := hp 1
  have h2 := hp 2
  have hF' : F < 2 := hF
  rw [faceType, if_pos hF'] at hb
  cases hb
  have hi' : i < 1 := hi
  interval_cases F <;> interval_cases i <;> simp [rootLength, unit, unitCorner, faceVertices] at h0 h1 h2 <;>
    simp [rootOf, Element.InFace, Dline.Face, Dline.root, Dline.maxLevel, faceCoord, h0, rootLength]

theorem quad_corners (S : P4ests) (b : Eclass) (F i : Nat) (hF : F < Eclass.quad.numFaces) (hb : faceType .quad F = some b)
    (hi : i < b.numVertices) (p : Fin 3 → Nat)
    (hp : ∀ k, p k = rootLength S .quad k.val * unit .quad (((faceVertices .quad).getD F []).getD i 0) k.val) :
    (rootOf .quad).InFace S F p ∧ faceCoord S .quad F p = (rootLength S b 0 * unit b i 0, rootLength S b 1 * unit b i 1) := by
  have h0 := hp 0
  have h1 := hp 1
  have h2 := hp 2
  have hF' : F < 4 := hF
  rw [faceType, if_pos hF'] at hb
  cases hb
  have hi' : i < 2 := hi
  interval_cases F <;> interval_cases i <;> simp [rootLength, unit, unitCorner, faceVertices] at h0 h1 h2 <;>
    simp [rootOf, Element.InFace, Standalone.Face, Standalone.Box, Standalone.side, Standalone.root, Fin.forall_fin_two, to2,
      faceCoord, h0, h1, rootLength, unit, unitCorner]

theorem triangle_corners (S : P4ests) (b : Eclass) (F i : Nat) (hF : F < Eclass.triangle.numFaces) (hb : faceType .triangle F = some b)
    (hi : i < b.numVertices) (p : Fin 3 → Nat)
    (hp : ∀ k, p k = rootLength S .triangle k.val * unit .triangle (((faceVertices .triangle).getD F []).getD i 0) k.val) :
    (rootOf .triangle).InFace S F p ∧ faceCoord S .triangle F p = (rootLength S b 0 * unit b i 0, rootLength S b 1 * unit b i 1) := by
  have h0 := hp 0
  have h1 := hp 1
  have h2 := hp 2
  have hF' : F < 3 := hF
  rw [faceType, if_pos hF'] at hb
  cases hb
  have hi' : i < 2 := hi
  interval_cases F <;> interval_cases i <;> simp [rootLength, unit, unitCorner, faceVertices] at h0 h1 h2 <;>
    simp [rootOf, Element.InFace, Simplex.Face, Simplex.Points, Simplex.size, Simplex.root, Fin.forall_fin_two, to2, Simplex.rank,
      faceCoord, h0, h1, rootLength, unit, unitCorner] <;> decide +kernel

theorem hex_corners (S : P4ests) (b : Eclass) (F i : Nat) (hF : F < Eclass.hex.numFaces) (hb : faceType .hex F = some b)
    (hi : i < b.numVertices) (p : Fin 3 → Nat)
    (hp : ∀ k, p k = rootLength S .hex k.val * unit .hex (((faceVertices .hex).getD F []).getD i 0) k.val) :
    (rootOf .hex).InFace S F p ∧ faceCoord S .hex F p = (rootLength S b 0 * unit b i 0, rootLength S b 1 * unit b i 1) := by
  have h0 := hp 0
  have h1 := hp 1
  have h2 := hp 2
  have hM := S.hM
  have hpow : 2 ^ (30 - S.M) * 2 ^ S.M = 2 ^ 30 := by rw [← Nat.pow_add]; congr 1; omega
  have hF' : F < 6 := hF
  rw [faceType, if_pos hF'] at hb
  cases hb
  have hi' : i < 4 := hi
  interval_cases F <;> interval_cases i <;> simp [rootLength, unit, unitCorner, faceVertices] at h0 h1 h2 <;>
    simp [rootOf, Element.InFace, Standalone.Face, Standalone.Box, Standalone.side, Standalone.root, Fin.forall_fin_succ, 
      faceCoord, h0, h1, h2, rootLength, unit, unitCorner, hpow]

theorem tet_corners (S : P4ests) (b : Eclass) (F i : Nat) (hF : F < Eclass.tet.numFaces) (hb : faceType .tet F = some b)
    (hi : i < b.numVertices) (p : Fin 3 → Nat)
    (hp : ∀ k, p k = rootLength S .tet k.val * unit .tet (((faceVertices .tet).getD F []).getD i 0) k.val) :
    (rootOf .tet).InFace S F p ∧ faceCoord S .tet F p = (rootLength S b 0 * unit b i 0, rootLength S b 1 * unit b i 1) := by
  have h0 := hp 0
  have h1 := hp 1
  have h2 := hp 2
  have hF' : F < 4 := hF
  rw [faceType, if_pos hF'] at hb
  cases hb
  have hi' : i < 3 := hi
  interval_cases F <;> interval_cases i <;> simp [rootLength, unit, unitCorner, faceVertices] at h0 h1 h2 <;>
    simp [rootOf, Element.InFace, Simplex.Face, Simplex.Points, Simplex.size, Simplex.root, Fin.forall_fin_succ, Simplex.rank,
      faceCoord, h0, h1, h2, rootLength, unit, unitCorner] <;> decide +kernel

theorem prism_corners (S : P4ests) (b : Eclass) (F i : Nat) (hF : F < Eclass.prism.numFaces) (hb : faceType .prism F = some b)
    (hi : i < b.numVertices) (p : Fin 3 → Nat)
    (hp : ∀ k, p k = rootLength S .prism k.val * unit .prism (((faceVertices .prism).getD F []).getD i 0) k.val) :
    (rootOf .prism).InFace S F p ∧ faceCoord S .prism F p = (rootLength S b 0 * unit b i 0, rootLength S b 1 * unit b i 1) := by
  have h0 := hp 0
  have h1 := hp 1
  have h2 := hp 2
  have hF' : F < 5 := hF
  by_cases h3 : F < 3
  · rw [faceType, if_pos h3] at hb
    cases hb
    have hi' : i < 4 := hi
    interval_cases F <;> interval_cases i <;> simp [rootLength, unit, unitCorner, faceVertices] at h0 h1 h2 <;>
      simp [rootOf, Element.InFace, Prism.Face, Prism.root, Dline.Points, Dline.root, Dline.maxLevel, Simplex.Face, Simplex.Points,
        Simplex.size, Simplex.root, Fin.forall_fin_two, to2, Simplex.rank, faceCoord, h0, h1, h2, rootLength, unit, unitCorner] <;>
      decide +kernel
  · rw [faceType, if_neg h3, if_pos hF'] at hb
    cases hb
    have hi' : i < 3 := hi
    interval_cases F <;> interval_cases i <;> simp [rootLength, unit, unitCorner, faceVertices] at h0 h1 h2 <;>
      simp [rootOf, Element.InFace, Prism.Face, Prism.root, Dline.Face, Dline.root, Dline.maxLevel, Simplex.Face, Simplex.Points,
        Simplex.size, Simplex.root, Fin.forall_fin_two, to2, Simplex.rank, faceCoord, h0, h1, h2, rootLength, unit, unitCorner] <;>
      decide +kernel

theorem pyramid_corners (S : P4ests) (b : Eclass) (F i : Nat) (hF : F < Eclass.pyramid.numFaces) (hb : faceType .pyramid F = some b)
    (hi : i < b.numVertices) (p : Fin 3 → Nat)
    (hp : ∀ k, p k = rootLength S .pyramid k.val * unit .pyramid (((faceVertices .pyramid).getD F []).getD i 0) k.val) :
    (rootOf .pyramid).InFace S F p ∧ faceCoord S .pyramid F p = (rootLength S b 0 * unit b i 0, rootLength S b 1 * unit b i 1) := by
  have h0 := hp 0
  have h1 := hp 1
  have h2 := hp 2
  have hF' : F < 5 := hF
  have hl : (rootLength S .pyramid 0, rootLength S .pyramid 1, rootLength S .pyramid 2) = (2 ^ 21, 2 ^ 21, 2 ^ 21) := rfl
  have hr : (rootOf .pyramid).InFace S F p ↔ (∀ i, p i ≤ 2 ^ 21) ∧ p 2 ≤ p 0 ∧ p 2 ≤ p 1 ∧ Pyramid.OnPlane 6 F (2 ^ 21) (fun i => p i) := by
    have h6 : (6 : Nat) ≤ Pyramid.root.type := by decide
    have hx : ∀ i, (Pyramid.root.tet.x i).toNat = 0 := by decide
    have ht : Pyramid.root.type = 6 := by decide
    have hl : Pyramid.root.level = 0 := by decide
    have hP : p ∈ Pyramid.Points Pyramid.root ↔ (∀ i, p i ≤ 2 ^ 21) ∧ p 2 ≤ p 0 ∧ p 2 ≤ p 1 := by
      rw [Pyramid.Points, if_pos h6]
      constructor
      · rintro ⟨a, b⟩
        refine ⟨fun i => ?_, ?_, ?_⟩
        · have := (a i).2
          rw [hx, hl] at this
          omega
        · have := b 0 (by decide)
          rw [if_pos ht, hx, hx] at this
          omega
        · have := b 1 (by decide)
          rw [if_pos ht, hx, hx] at this
          omega
      · rintro ⟨a, b, c⟩
        refine ⟨fun i => ?_, fun i hi => ?_⟩
        · rw [hx, hl]
          exact ⟨Nat.zero_le _, by have := a i; omega⟩
        · rw [if_pos ht, hx, hx]
          fin_cases i
          · exact b
          · exact c
          · exact absurd rfl hi
    show p ∈ Pyramid.Face Pyramid.root F ↔ _
    rw [Pyramid.Face, if_pos h6]
    show p ∈ Pyramid.Points Pyramid.root ∧ _ ↔ _
    rw [hP, ht, hl]
    simp only [hx, Nat.cast_zero, sub_zero, Nat.sub_zero, and_assoc]
  by_cases h3 : F < 4
  · rw [faceType, if_pos h3] at hb
    cases hb
    have hi' : i < 3 := hi
    rw [hr, Fin.forall_fin_succ, Fin.forall_fin_succ, Fin.forall_fin_succ]
    interval_cases F <;> interval_cases i <;> simp [rootLength, unit, unitCorner, faceVertices] at h0 h1 h2 <;>
      simp [Pyramid.OnPlane, faceCoord, h0, h1, h2, rootLength, unit, unitCorner]
  · rw [faceType, if_neg h3, if_pos hF'] at hb
    cases hb
    have hi' : i < 4 := hi
    rw [hr, Fin.forall_fin_succ, Fin.forall_fin_succ, Fin.forall_fin_succ]
    interval_cases F <;> interval_cases i <;> simp [rootLength, unit, unitCorner, faceVertices] at h0 h1 h2 <;>
      simp [Pyramid.OnPlane, faceCoord, h0, h1, h2, rootLength, unit, unitCorner]

end T8.Neighbor
