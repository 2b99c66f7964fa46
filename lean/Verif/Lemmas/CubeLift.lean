/-
Lemmas for C54: the neighbors of the ancestors, for quadrilaterals and hexahedra, lines and prisms.
-/
import Verif.Lemmas.FaceLift
import Verif.Lemmas.SimplexLift
import Verif.Lemmas.StandaloneLift
import Verif.Props.CubeFaces
import Verif.Props.Dline
import Verif.Props.PrismFaces

namespace T8.Cube
open T8.RTree T8.LeafNeighbor

variable {c : Cls} {P : P4est c.dim}

/-- The neighbor of a quadrilateral or hexahedron is a sibling or the parents are neighbors. -/
theorem lifts (D : P.Documented c) : Lifts (c.faceScheme P) c.InFace (fun e f => faceNeighborInside P e f) := by
  intro e f m g he hf hl h
  replace he : Valid c e := he
  replace hl : 0 < Standalone.Elem.level (d := c.dim) e := hl
  replace hf : f < 2 * c.dim := hf
  have h31 : 0 < c.dim → c.rootLevel < 31 := c.small
  have h' : Standalone.faceNeighborInside c.rootLevel e f = some (m, g) := (D.neighbor_eq he hf).symm.trans h
  have hp : Valid c (Standalone.parent c.rootLevel e) := c.tree.valid_parent e he hl
  rcases Standalone.neighbor_lift h31 he.1 hf hl h' with h1 | ⟨h1, h2⟩
  · exact Or.inl h1
  · exact Or.inr ⟨f, f ^^^ 1, ⟨hf, hf, h1⟩, (D.neighbor_eq hp hf).trans h2⟩

end T8.Cube

namespace T8.Dline
open T8.RTree T8.LeafNeighbor

/-- The neighbor of a line is a sibling or the parents are neighbors. -/
theorem lifts : Lifts faceScheme InFace faceNeighborInside := by
  intro e f m g he hf hl h
  replace he : Valid e := he
  replace hl : 0 < e.level := hl
  replace hf : f < numFaces := hf
  obtain ⟨hm, hml, _, _, _, _⟩ := C10_line_mutual e he f hf m g h
  have pe := Standalone.parent_toNat (M := maxLevel) (fun _ => by decide) (toElem_valid.2 he) hl 0
  have pm := Standalone.parent_toNat (M := maxLevel) (fun _ => by decide) (toElem_valid.2 hm) (by show 0 < m.level; omega) 0
  have hs : 2 ^ (maxLevel - m.level) = 2 ^ (maxLevel - e.level) := by rw [hml]
  have hp := Nat.two_pow_pos (maxLevel - e.level)
  replace pe : (e.x.toNat = (parent e).x.toNat ∨ e.x.toNat = (parent e).x.toNat + 2 ^ (maxLevel - e.level)) ∧
    2 * 2 ^ (maxLevel - e.level) ∣ (parent e).x.toNat ∧ 2 ^ (maxLevel - (parent e).level) = 2 * 2 ^ (maxLevel - e.level) := pe
  replace pm : (m.x.toNat = (parent m).x.toNat ∨ m.x.toNat = (parent m).x.toNat + 2 ^ (maxLevel - m.level)) ∧
    2 * 2 ^ (maxLevel - m.level) ∣ (parent m).x.toNat ∧ 2 ^ (maxLevel - (parent m).level) = 2 * 2 ^ (maxLevel - m.level) := pm
  rw [hs] at pm
  obtain ⟨a1, a2, a3⟩ := pe
  obtain ⟨b1, b2, b3⟩ := pm
  have hpe : Valid (parent e) := valid_parent he hl
  have hpm : Valid (parent m) := valid_parent hm (by omega)
  have hpl : (parent m).level = (parent e).level := by simp only [parent, hml]
  have hcoord : m.x.toNat + 2 ^ (maxLevel - e.level) = e.x.toNat + 2 * f * 2 ^ (maxLevel - e.level) := by
    rcases neighbor_spec he hf with ⟨_, h2⟩ | ⟨_, n, h2, _, _, h5⟩
    · rw [h] at h2; cases h2
    · rw [h] at h2
      simp only [Option.some.injEq, Prod.mk.injEq] at h2
      rw [h2.1]; exact h5
  by_cases heq : parent m = parent e
  · exact Or.inl heq
  right
  have hx : (parent m).x.toNat ≠ (parent e).x.toNat := by
    intro hc
    have h1 := BitVec.eq_of_toNat_eq hc
    apply heq
    cases hq : parent m; cases hr : parent e
    simp only [hq, hr] at h1 hpl
    rw [h1, hpl]
  generalize hsd : 2 ^ (maxLevel - e.level) = s at *
  have hf' : f = 0 ∨ f = 1 := by simp only [numFaces] at hf; omega
  have hkey : e.x.toNat + f * s = (parent e).x.toNat + f * (2 * s) ∧
      (parent m).x.toNat + 2 * s = (parent e).x.toNat + f * (4 * s) := by
    rcases hf' with rfl | rfl
    · rcases a1 with a1 | a1
      · have hge : 2 * s ≤ (parent e).x.toNat := Nat.le_of_dvd (by omega) a2
        have := Standalone.multiple_unique (x := m.x.toNat) b2 (Nat.dvd_sub a2 (Nat.dvd_refl _)) (by omega) (by omega) (by omega)
          (by omega)
        omega
      · exact absurd (Standalone.multiple_unique (x := m.x.toNat) b2 a2 (by omega) (by omega) (by omega) (by omega)) hx
    · rcases a1 with a1 | a1
      · exact absurd (Standalone.multiple_unique (x := m.x.toNat) b2 a2 (by omega) (by omega) (by omega) (by omega)) hx
      · have := Standalone.multiple_unique (x := m.x.toNat) b2 (Nat.dvd_add a2 (Nat.dvd_refl _)) (by omega) (by omega) (by omega)
          (by omega)
        omega
  refine ⟨f, 1 - f, ⟨hf, hf, ?_⟩, C10_line_unique (parent e) (parent m) hpe hpm f hf hpl heq ?_⟩
  · rintro p hp'
    have hp' : p = e.x.toNat + f * 2 ^ (maxLevel - e.level) := hp'
    show p = (parent e).x.toNat + f * 2 ^ (maxLevel - (parent e).level)
    rw [a3, hp', hsd]; exact hkey.1
  · rintro p hp'
    have hp' : p = (parent e).x.toNat + f * 2 ^ (maxLevel - (parent e).level) := hp'
    rw [a3] at hp'
    show (parent m).x.toNat ≤ p ∧ p ≤ (parent m).x.toNat + 2 ^ (maxLevel - (parent m).level)
    rw [b3]
    rcases hf' with rfl | rfl <;> omega

end T8.Dline

namespace T8.Prism
open T8.RTree T8.LeafNeighbor

/-- The neighbor of a prism is a sibling or the parents are neighbors. -/
theorem lifts : Lifts faceScheme InFace faceNeighborInside := by
  intro e f m g he hf hl h
  replace he : Valid e := he
  replace hl : 0 < level e := hl
  have hf' : f < 5 := hf
  have hl1 : 0 < e.1.level := by rw [tri_level he]; exact hl
  have vp := valid_parent he hl
  have hd : tree.Desc (parent e) e := (desc_parent (T := tree) (tree.valid_parent e he hl) he
    (by have := tree.level_parent e he hl; omega)).2 RTree.Desc.refl
  have h := (neighbor_eq he hf').symm.trans h
  by_cases h3 : f < 3
  · rw [if_pos h3, Option.map_eq_some_iff] at h
    obtain ⟨⟨m', g'⟩, hm, hmn⟩ := h
    simp only [Prod.mk.injEq] at hmn
    obtain ⟨rfl, rfl⟩ := hmn
    rcases Simplex.lifts .tri e.1 f m' g' he.1 h3 hl1 hm with h1 | ⟨f', g'', h1, h2⟩
    · exact Or.inl (Prod.ext h1 rfl)
    · right
      have hf3 : f' < 3 := h1.2.1
      refine ⟨f', g'', (inFace_iff vp hd).2 (Or.inl ⟨h3, hf3, h1⟩), ?_⟩
      refine (neighbor_eq vp (by omega)).trans ?_
      rw [if_pos hf3]
      rw [show Simplex.faceNeighborInside .tri (parent e).1 f' = _ from h2]
      rfl
  · rw [if_neg h3, Option.map_eq_some_iff] at h
    obtain ⟨⟨m', g'⟩, hm, hmn⟩ := h
    simp only [Prod.mk.injEq] at hmn
    obtain ⟨rfl, rfl⟩ := hmn
    rcases Dline.lifts e.2 (f - 3) m' g' he.2.1 (by show _ < 2; omega) hl hm with h1 | ⟨f', g'', h1, h2⟩
    · exact Or.inl (Prod.ext rfl h1)
    · right
      have hf3 : f' < 2 := h1.2.1
      refine ⟨f' + 3, g'' + 3, (inFace_iff vp hd).2 (Or.inr ⟨by omega, by omega, by rw [Nat.add_sub_cancel]; exact h1⟩), ?_⟩
      refine (neighbor_eq vp (by omega)).trans ?_
      rw [if_neg (by omega), Nat.add_sub_cancel]
      rw [show Dline.faceNeighborInside (parent e).2 f' = _ from h2]
      rfl

end T8.Prism
