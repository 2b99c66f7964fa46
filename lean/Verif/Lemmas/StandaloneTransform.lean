/-
The transformation of face elements between the coordinate systems of two trees, for lines and quads.
-/
import Verif.Lemmas.StandaloneFaces2
import Mathlib.Tactic.FinCases

namespace T8.Standalone
open RTree

/-- C12 for lines (faces of quads): the transformation with orientation `o` is its own inverse, gives valid
elements of the same level, maps parents to parents, and for `o = 1` mirrors the line. -/
theorem transform_line (e : Elem 1) (he : Valid 30 e) (o : Nat) :
    Valid 30 (transformFaceLine e o) ∧ (transformFaceLine e o).level = e.level ∧
    transformFaceLine (transformFaceLine e o) o = e ∧
    (0 < e.level → transformFaceLine (parent 30 e) o =
      parent 30 (transformFaceLine e o)) ∧
    (∀ p : Fin 1 → Nat, p 0 ≤ 2 ^ 30 →
      (p ∈ Box 30 e ↔
        (fun i => if o = 0 then p i else 2 ^ 30 - p i) ∈
          Box 30 (transformFaceLine e o))) := by
  have hcoord : ∀ x : Elem 1, Valid 30 x →
      ((transformFaceLine x o).coords 0).toNat =
        if o = 0 then (x.coords 0).toNat else 2 ^ 30 - (x.coords 0).toNat - side 30 x := by
    intro x hx
    have h1 := coord_add_side_le hx 0
    have h2 := getLen_toNat (M := 30) (by omega) x.level
    have h2' : (BitVec.twoPow 32 (30 - x.level)).toNat = side 30 x := h2
    have h3 : (BitVec.twoPow 32 30).toNat = 2 ^ 30 := by decide
    by_cases ho : o = 0
    · simp [transformFaceLine, ho]
    · simp only [transformFaceLine, ho, ne_eq, not_false_eq_true, if_true, if_false]
      rw [(mirror_toNat (R := BitVec.twoPow 32 30) (x := x.coords 0) (h := BitVec.twoPow 32 (30 - x.level))
        (by rw [h2', h3]; exact h1)).2, h2', h3]
  have hlev : ∀ x : Elem 1, (transformFaceLine x o).level = x.level := by
    intro x; unfold transformFaceLine; split <;> rfl
  have hvalid : ∀ x : Elem 1, Valid 30 x → Valid 30 (transformFaceLine x o) := by
    intro x hx
    refine ⟨by rw [hlev]; exact hx.1, fun i => ?_⟩
    rw [show i = 0 from Subsingleton.elim _ _, hcoord x hx, hlev]
    have h1 := coord_add_side_le hx 0
    have h2 := side_pos (M := 30) x
    have h3 := (hx.2 0).2
    split
    · exact ⟨(hx.2 0).1, h3⟩
    · refine ⟨by omega, ?_⟩
      have e1 : 2 ^ (30 - x.level) ∣ 2 ^ 30 := Nat.pow_dvd_pow _ (by omega)
      exact Nat.dvd_sub (Nat.dvd_sub e1 h3) (Nat.dvd_refl _)
  have hside : ∀ x : Elem 1, side 30 (transformFaceLine x o) = side 30 x := by
    intro x; simp only [side, hlev]
  refine ⟨hvalid e he, hlev e, ?_, fun hl => ?_, fun p hp => ?_⟩
  · refine Elem.ext' (fun i => BitVec.eq_of_toNat_eq ?_) (by rw [hlev, hlev])
    rw [show i = 0 from Subsingleton.elim _ _, hcoord _ (hvalid e he), hcoord e he, hside]
    have h1 := coord_add_side_le he 0
    split <;> omega
  · have vp := valid_parent (M := 30) (by omega) he hl
    have hlp : (parent 30 e).level < 30 := by
      have : e.level ≤ 30 := he.1
      simp only [parent]; omega
    have hb := child_box (M := 30) (by omega) vp hlp (childId_lt (M := 30) (by omega) hl) 0
    rw [child_parent (by omega) he hl] at hb
    symm
    apply parent_of_box (M := 30) (by omega) (hvalid _ vp) (hvalid e he)
    · rw [hlev, hlev]; simp only [parent]; omega
    · intro i
      rw [show i = 0 from Subsingleton.elim _ _, hcoord _ vp, hcoord e he, hside]
      have h1 := coord_add_side_le he 0
      have h2 := coord_add_side_le vp 0
      have h3 := side_pos (M := 30) e
      split <;> omega
  · simp only [Box, Set.mem_setOf_eq, Fin.forall_fin_one]
    have := hcoord e he
    rw [this, hside]
    have h1 := coord_add_side_le he 0
    split <;> omega

/-- The four coordinates changes that the quad transformation is composed of, as numbers. -/
theorem transformFaceQuad_spec (e : Elem 2) (he : Valid 30 e) (o : Nat) (ho : o < 4) (sign isSmaller : Bool) :
    ∃ e', transformFaceQuad e o sign isSmaller = some e' ∧ e'.level = e.level ∧ Valid 30 e' ∧
      ((e'.coords 0).toNat, (e'.coords 1).toNat) =
        (let x := if sign then (e.coords 1).toNat else (e.coords 0).toNat
         let y := if sign then (e.coords 0).toNat else (e.coords 1).toNat
         let k := if !isSmaller ∧ (o = 1 ∨ o = 2) ∧ !sign then 3 - o else o
         let m := fun z => 2 ^ 30 - z - side 30 e
         if k = 0 then (x, y) else if k = 1 then (m y, x) else if k = 2 then (y, m x) else (m x, m y)) := by
  have hR : (rootLen 2 30).toNat = 2 ^ 30 := by decide
  have hm : ∀ i, (rootLen 2 30 - e.coords i - getLen 30 e.level).toNat = 2 ^ 30 - (e.coords i).toNat - side 30 e := by
    intro i
    rw [(mirror_toNat (by rw [hR, getLen_toNat (by omega)]; exact coord_add_side_le he i)).1, hR,
      getLen_toNat (by omega)]; rfl
  obtain ⟨mm, hmm⟩ : ∃ mm : Fin 2 → BitVec 32, ∀ i, rootLen 2 30 - e.coords i - getLen 30 e.level = mm i :=
    ⟨_, fun _ => rfl⟩
  simp only [hmm] at hm
  have hval : ∀ u v : BitVec 32, (∀ w, w = u ∨ w = v → ∃ i, w = e.coords i ∨ w = mm i) →
      Valid 30 (⟨fun i => if i = 0 then u else v, e.level⟩ : Elem 2) := by
    intro u v hw
    refine ⟨he.1, fun i => ?_⟩
    have : ∀ w, w = u ∨ w = v → w.toNat < 2 ^ 30 ∧ 2 ^ (30 - e.level) ∣ w.toNat := by
      intro w hh
      obtain ⟨j, rfl | rfl⟩ := hw w hh
      · exact he.2 j
      · have h1 := coord_add_side_le he j
        have h2 := side_pos (M := 30) e
        rw [hm]
        refine ⟨by omega, ?_⟩
        have e1 : 2 ^ (30 - e.level) ∣ 2 ^ 30 := Nat.pow_dvd_pow _ (by omega)
        exact Nat.dvd_sub (Nat.dvd_sub e1 (he.2 j).2) (Nat.dvd_refl _)
    simp only
    split
    · exact this u (Or.inl rfl)
    · exact this v (Or.inr rfl)
  have h4 : o = 0 ∨ o = 1 ∨ o = 2 ∨ o = 3 := by omega
  rcases h4 with rfl | rfl | rfl | rfl <;> cases sign <;> cases isSmaller <;>
    · simp [transformFaceQuad, hmm]
      first
        | refine ⟨hval _ _ ?_, ?_⟩
        | refine hval _ _ ?_
      all_goals first
        | (rintro w (rfl | rfl) <;> first
          | exact ⟨0, Or.inl rfl⟩
          | exact ⟨1, Or.inl rfl⟩
          | exact ⟨0, Or.inr rfl⟩
          | exact ⟨1, Or.inr rfl⟩)
        | simp [hm]

/-- C12 for quads (faces of hexes): the transformation with exchanged roles is the inverse, it gives valid
elements of the same level and maps parents to parents. -/
theorem transform_quad (e : Elem 2) (he : Valid 30 e) (o : Nat) (ho : o < 4)
    (sign isSmaller : Bool) :
    ∃ e', transformFaceQuad e o sign isSmaller = some e' ∧ Valid 30 e' ∧ e'.level = e.level ∧
      transformFaceQuad e' o sign (!isSmaller) = some e ∧
      (0 < e.level → transformFaceQuad (parent 30 e) o sign isSmaller =
        some (parent 30 e')) := by
  obtain ⟨e', h1, h2, h3, h4⟩ := transformFaceQuad_spec e he o ho sign isSmaller
  obtain ⟨e'', g1, g2, g3, g4⟩ := transformFaceQuad_spec e' h3 o ho sign (!isSmaller)
  have hs : side 30 e' = side 30 e := by simp only [side, h2]
  have hc0 := coord_add_side_le he 0
  have hc1 := coord_add_side_le he 1
  have h5 : o = 0 ∨ o = 1 ∨ o = 2 ∨ o = 3 := by omega
  refine ⟨e', h1, h3, h2, ?_, fun hl => ?_⟩
  · rw [g1]
    congr 1
    have : (e''.coords 0).toNat = (e.coords 0).toNat ∧ (e''.coords 1).toNat = (e.coords 1).toNat := by
      rw [hs] at g4
      simp only [Prod.mk.injEq] at h4 g4
      rcases h5 with rfl | rfl | rfl | rfl <;> cases sign <;> cases isSmaller <;>
        simp at h4 g4 <;> omega
    refine Elem.ext' (fun i => BitVec.eq_of_toNat_eq ?_) (by omega)
    fin_cases i
    · exact this.1
    · exact this.2
  · have vp := valid_parent (M := 30) (by omega) he hl
    have hlp : (parent 30 e).level < 30 := by
      have : e.level ≤ 30 := he.1
      simp only [parent]; omega
    have hb := child_box (M := 30) (by omega) vp hlp (childId_lt (M := 30) (by omega) hl)
    rw [child_parent (by omega) he hl] at hb
    obtain ⟨p', k1, k2, k3, k4⟩ := transformFaceQuad_spec (parent 30 e) vp o ho sign isSmaller
    rw [k1]
    congr 1
    symm
    apply parent_of_box (M := 30) (by omega) k3 h3
    · rw [k2, h2]; simp only [parent]; omega
    · have hs2 : side 30 p' = side 30 (parent 30 e) := by simp only [side, k2]
      have b0 := hb 0
      have b1 := hb 1
      have c0 := coord_add_side_le vp 0
      have c1 := coord_add_side_le vp 1
      have h6 := side_pos (M := 30) e
      have : ((p'.coords 0).toNat ≤ (e'.coords 0).toNat ∧ (e'.coords 0).toNat < (p'.coords 0).toNat + side 30 p') ∧
          ((p'.coords 1).toNat ≤ (e'.coords 1).toNat ∧ (e'.coords 1).toNat < (p'.coords 1).toNat + side 30 p') := by
        rw [hs2]
        simp only [Prod.mk.injEq] at h4 k4
        rcases h5 with rfl | rfl | rfl | rfl <;> cases sign <;> cases isSmaller <;>
          simp at h4 k4 <;> omega
      intro i
      fin_cases i
      · exact this.1
      · exact this.2

/-- C12 for quads: seen from the smaller face the transformation is the symmetry of the square that sends
corner 0 to the corner given by the orientation and keeps (`sign = false`) or changes (`sign = true`) the
sense of rotation. -/
theorem transform_quad_symmetry (e : Elem 2) (he : Valid 30 e) (o : Nat) (ho : o < 4)
    (sign : Bool) (e' : Elem 2) (h : transformFaceQuad e o sign true = some e') (p : Fin 2 → Nat)
    (hp : ∀ i, p i ≤ 2 ^ 30) (q : Fin 2 → Nat)
    (hq : ((q 0 : Int), (q 1 : Int)) = squareSymmetry (2 ^ 30) o sign (p 0, p 1)) :
    p ∈ Box 30 e ↔ q ∈ Box 30 e' := by
  obtain ⟨e'', h1, h2, h3, h4⟩ := transformFaceQuad_spec e he o ho sign true
  rw [h] at h1
  cases h1
  have hs : side 30 e' = side 30 e := by simp only [side, h2]
  have hc0 := coord_add_side_le he 0
  have hc1 := coord_add_side_le he 1
  have hp0 := hp 0
  have hp1 := hp 1
  have h5 : o = 0 ∨ o = 1 ∨ o = 2 ∨ o = 3 := by omega
  simp only [Box, Set.mem_setOf_eq, Fin.forall_fin_two]
  rw [hs]
  simp only [Prod.mk.injEq] at h4 hq
  rcases h5 with rfl | rfl | rfl | rfl <;> cases sign <;>
    simp [squareSymmetry, corner] at h4 hq <;> omega

end T8.Standalone
