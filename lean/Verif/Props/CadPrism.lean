import Verif.Lemmas.CadPrism

/-!
# C64: prisms with linked curves and surfaces
-/

namespace T8.CadGeometry
open T8 T8.CadGeometry.Spec

theorem edgeTarget_node {G : Cad} {T : Tree} {c : Eclass} (F : Fits G T c) {e : Nat} (he : e < (ends c).length) {t : ℝ}
    (ht : t = 0 ∨ t = 1) : edgeTarget G T c e t = (1 - t) • T.V (tail c e) + t • T.V (head c e) := by
  unfold edgeTarget
  rcases ht with rfl | rfl
  · split
    · rename_i h; rw [between_zero, (F.curve e he h).1]; simp
    · split
      · rename_i h
        have := (F.edgeSurface e he h).1
        simp [this]
      · rfl
  · split
    · rename_i h; rw [between_one, (F.curve e he h).2]; simp
    · split
      · rename_i h
        have := (F.edgeSurface e he h).2
        simp [this]
      · rfl

theorem prism_edge_sum {G : Cad} {T : Tree} (F : Fits G T .prism) {e : Nat} (he : e < 9) (t : ℝ) :
    ∑ e' ∈ Finset.range 9, edgeTerm G T .prism 9 (prismEdgeCoeff (onEdge .prism e t)) (prismEdgeFactor (onEdge .prism e t)) e' =
      edgeTarget G T .prism e t - ((1 - t) • T.V (tail .prism e) + t • T.V (head .prism e)) := by
  by_cases ht : t = 0 ∨ t = 1
  · rw [edgeTarget_node F he ht, sub_self]
    refine Finset.sum_eq_zero fun e' he' => edgeTerm_zero (c := .prism) F _ _ (Finset.mem_range.1 he') (Or.inr ?_)
    rcases ht with rfl | rfl
    · rw [onEdge_zero]
      exact prismEdgeCoeff_corner _ (by interval_cases e <;> decide) _ (Finset.mem_range.1 he')
    · rw [onEdge_one]
      exact prismEdgeCoeff_corner _ (by interval_cases e <;> decide) _ (Finset.mem_range.1 he')
  · push Not at ht
    obtain ⟨h0, h1⟩ := ht
    have h2 : 1 - t ≠ 0 := fun h => h1 (by linarith)
    rw [Finset.sum_eq_single e]
    · have hs := edgeTerm_self (G := G) (T := T) (c := .prism) (prismEdgeCoeff (onEdge .prism e t)) (prismEdgeFactor (onEdge .prism e t)) he
        (by
          simp only [prismEdgeFactor]
          rw [prismEdgeOnFace_self he (by interval_cases e <;> decide) (by interval_cases e <;> decide) h0 h1,
            prismEdgeOnFace_self he (by interval_cases e <;> decide) (by interval_cases e <;> decide) h0 h1]
          norm_num)
      rw [prismEdgeCoeff_self he t] at hs
      exact hs
    · intro e' he' hne
      rw [Finset.mem_range] at he'
      refine edgeTerm_zero (c := .prism) F _ _ he' ?_
      unfold prismEdgeFactor prismEdgeOnFace prismEdgeCoeff
      interval_cases e <;> interval_cases e' <;> first
        | exact absurd rfl hne
        | simp [prismMaxOrth, prismOrth, at3, onEdge, corner, tail, head, ends, edgeToFace, entry, h0, h1, h2]
    · intro h
      exact absurd (Finset.mem_range.2 he) h

/-- Faces that do not contain the edge do not move its points. -/
theorem prism_other_face {e f : Nat} (he : e < 9) (hf : f < 5) (hb : ¬ Borders .prism e f) (t : ℝ) :
    prismFaceFactor (onEdge .prism e t) f = 0 ∨ ∃ i < (cornersOf .prism f).length,
      at3 (onEdge .prism e t) (prismFaceCoord f 0) = at3 (corner .prism ((cornersOf .prism f).getD i 0)) (prismFaceCoord f 0) ∧
      at3 (onEdge .prism e t) (prismFaceCoord f 1) = at3 (corner .prism ((cornersOf .prism f).getD i 0)) (prismFaceCoord f 1) := by
  by_cases h0 : t = 0
  · subst h0
    interval_cases e <;> interval_cases f <;> first
      | exact absurd (by decide) hb
      | (left; simp [prismFaceFactor, onEdge, corner, tail, head, ends]; done)
      | (right; refine ⟨0, by decide, ?_, ?_⟩ <;> simp [at3, onEdge, corner, tail, head, ends, prismFaceCoord, entry, cornersOf, faceCorners]; done)
      | (right; refine ⟨1, by decide, ?_, ?_⟩ <;> simp [at3, onEdge, corner, tail, head, ends, prismFaceCoord, entry, cornersOf, faceCorners]; done)
      | (right; refine ⟨2, by decide, ?_, ?_⟩ <;> simp [at3, onEdge, corner, tail, head, ends, prismFaceCoord, entry, cornersOf, faceCorners]; done)
      | (right; refine ⟨3, by decide, ?_, ?_⟩ <;> simp [at3, onEdge, corner, tail, head, ends, prismFaceCoord, entry, cornersOf, faceCorners]; done)
  by_cases h1 : t = 1
  · subst h1
    interval_cases e <;> interval_cases f <;> first
      | exact absurd (by decide) hb
      | (left; simp [prismFaceFactor, onEdge, corner, tail, head, ends]; done)
      | (right; refine ⟨0, by decide, ?_, ?_⟩ <;> simp [at3, onEdge, corner, tail, head, ends, prismFaceCoord, entry, cornersOf, faceCorners]; done)
      | (right; refine ⟨1, by decide, ?_, ?_⟩ <;> simp [at3, onEdge, corner, tail, head, ends, prismFaceCoord, entry, cornersOf, faceCorners]; done)
      | (right; refine ⟨2, by decide, ?_, ?_⟩ <;> simp [at3, onEdge, corner, tail, head, ends, prismFaceCoord, entry, cornersOf, faceCorners]; done)
      | (right; refine ⟨3, by decide, ?_, ?_⟩ <;> simp [at3, onEdge, corner, tail, head, ends, prismFaceCoord, entry, cornersOf, faceCorners]; done)
  have h2 : 1 - t ≠ 0 := fun h => h1 (by linarith)
  interval_cases e <;> interval_cases f <;> first
    | exact absurd (by decide) hb
    | (left; simp [prismFaceFactor, onEdge, corner, tail, head, ends, h0, h1, h2]; done)
    | (right; refine ⟨0, by decide, ?_, ?_⟩ <;> simp [at3, onEdge, corner, tail, head, ends, prismFaceCoord, entry, cornersOf, faceCorners]; done)
    | (right; refine ⟨1, by decide, ?_, ?_⟩ <;> simp [at3, onEdge, corner, tail, head, ends, prismFaceCoord, entry, cornersOf, faceCorners]; done)
    | (right; refine ⟨2, by decide, ?_, ?_⟩ <;> simp [at3, onEdge, corner, tail, head, ends, prismFaceCoord, entry, cornersOf, faceCorners]; done)
    | (right; refine ⟨3, by decide, ?_, ?_⟩ <;> simp [at3, onEdge, corner, tail, head, ends, prismFaceCoord, entry, cornersOf, faceCorners]; done)

/-- **C64** (prisms, edges).  At the points of an edge the geometry is the curve or surface that is linked to the edge, at the parameter between the
parameters of its vertices.  If nothing is linked to the edge and its faces, it is the straight line. -/
theorem C64_prism_edge {G : Cad} {T : Tree} (F : Fits G T .prism) (I : Inside G T .prism) {e : Nat} (he : e < 9) {t : ℝ} (h0 : 0 ≤ t)
    (h1 : t ≤ 1) (h : 0 < T.edges e ∨ ∀ f < 5, Borders .prism e f → T.faces f ≤ 0) :
    evaluatePrism G T (onEdge .prism e t) = edgeTarget G T .prism e t := by
  unfold evaluatePrism
  simp only [addEdges_eq, addFaces_eq]
  rw [prism_edge_sum F he t, Finset.sum_eq_zero, add_zero]
  · have hlin : prismLinear (onEdge .prism e t) T.V = (1 - t) • T.V (tail .prism e) + t • T.V (head .prism e) := by
      funext i
      interval_cases e <;> simp [prismLinear, tri2, lerp1, onEdge, corner, tail, head, ends] <;> ring
    rw [hlin]
    abel
  · intro f hf
    rw [Finset.mem_range] at hf
    apply faceTerm_zero
    by_cases hl : T.faces f ≤ 0
    · exact Or.inr (Or.inl hl)
    have hl' : 0 < T.faces f := by omega
    by_cases hb : Borders .prism e f
    · exact Or.inr (Or.inr (prismFaceDelta_edge F I he hf hl' hb (h.resolve_right fun h' => hl (h' f hf hb)) h0 h1))
    · rcases prism_other_face he hf hb t with hz | ⟨i, hi, hc⟩
      · exact Or.inl hz
      · right; right
        rw [prismFaceDelta_congr G T _ _ hf hc]
        exact prismFaceDelta_node F hf hl' hi

/-- The points of faces of a prism for which the factors fit: face 0 away from edge 7 or with a curve at edge 7; face 1 away from edge 8 and if edges 7 and 8
have no curve and nothing is linked to edge 6; face 2 away from edge 8 and if edge 8 has no curve; faces 3 and 4. -/
structure PrismRegular (T : Tree) (f : Nat) (r : Pt) : Prop where
  zero : f = 0 → r 1 ≠ 1 ∨ 0 < T.edges 7
  one : f = 1 → r 0 ≠ 0 ∧ T.edges 7 ≤ 0 ∧ T.edges 8 ≤ 0 ∧ T.edges 6 ≤ 0 ∧ T.edges 15 ≤ 0
  two : f = 2 → r 0 ≠ 0 ∧ T.edges 8 ≤ 0

theorem prism_face_sum {G : Cad} {T : Tree} (F : Fits G T .prism) {f : Nat} (hf : f < 5) (hl : 0 < T.faces f) {r : Pt}
    (hp : InPlane .prism f r) (hg : PrismRegular T f r) :
    ∑ e ∈ Finset.range 9, edgeTerm G T .prism 9 (prismEdgeCoeff r) (prismEdgeFactor r) e =
      ∑ k ∈ Finset.range (prismEdges f).length, prismTerm G T f r ((prismEdges f).getD k 0) := by
  have hz : ∀ e < 9, (prismEdgeFactor r e = 0 ∨ prismEdgeCoeff r e = 0 ∨ prismEdgeCoeff r e = 1) →
      edgeTerm G T .prism 9 (prismEdgeCoeff r) (prismEdgeFactor r) e = 0 := fun e he h => edgeTerm_zero (c := .prism) F _ _ he h
  have hn : ∀ e, T.edges e ≤ 0 → T.edges (e + 9) ≤ 0 → edgeTerm G T .prism 9 (prismEdgeCoeff r) (prismEdgeFactor r) e = 0 := by
    intro e h1 h2
    rw [edgeTerm, if_neg (by omega)]
  have hs : ∀ e < 9, Borders .prism e f → (0 < T.edges e → prismEdgeFactor r e = prismEdgeOnFace e f r ∨ prismEdgeCoeff r e = 0 ∨
      prismEdgeCoeff r e = 1) → edgeTerm G T .prism 9 (prismEdgeCoeff r) (prismEdgeFactor r) e = prismTerm G T f r e := by
    intro e he hb h
    have ho : T.edges (e + 9) ≤ 0 := F.oneSurface f hf hl e he hb
    by_cases hc : 0 < T.edges e
    · rcases h hc with h | h
      · rw [edgeTerm, if_pos (Or.inl hc), prismTerm, if_pos hc, h]
      · rw [hz e he (Or.inr h), prismTerm_zero F f r he (Or.inr h)]
    · rw [hn e (by omega) ho, prismTerm, if_neg hc]
  interval_cases f <;> simp [InPlane] at hp
  · -- x = 1
    have y := Classical.em (r 1 = 1)
    have y' : r 1 ≠ 1 → 1 - r 1 ≠ 0 := fun h h' => h (by linarith)
    have e0 := hs 0 (by decide) (by decide) fun _ => by
      rcases y with y | y
      · right; right; simp [prismEdgeCoeff, at3, y]
      · left; simp [prismEdgeFactor, edgeToFace, entry, prismEdgeOnFace, prismMaxOrth, prismOrth, hp, y' y]
    have e3 := hs 3 (by decide) (by decide) fun _ => by
      rcases y with y | y
      · right; right; simp [prismEdgeCoeff, at3, y]
      · left; simp [prismEdgeFactor, edgeToFace, entry, prismEdgeOnFace, prismMaxOrth, prismOrth, hp, y' y]
    have e6 := hs 6 (by decide) (by decide) fun _ => by
      left; simp [prismEdgeFactor, edgeToFace, entry, prismEdgeOnFace, prismMaxOrth, prismOrth, hp]
    have e7 := hs 7 (by decide) (by decide) fun _ => by
      left; simp [prismEdgeFactor, edgeToFace, entry, prismEdgeOnFace, prismMaxOrth, prismOrth, hp]
    have z1 := hz 1 (by decide) (Or.inr (Or.inr (by simp [prismEdgeCoeff, at3, hp])))
    have z2 := hz 2 (by decide) (Or.inr (Or.inr (by simp [prismEdgeCoeff, at3, hp])))
    have z4 := hz 4 (by decide) (Or.inr (Or.inr (by simp [prismEdgeCoeff, at3, hp])))
    have z5 := hz 5 (by decide) (Or.inr (Or.inr (by simp [prismEdgeCoeff, at3, hp])))
    have z8 := hz 8 (by decide) (Or.inl (by simp [prismEdgeFactor, edgeToFace, entry, prismEdgeOnFace, prismMaxOrth, prismOrth, hp]))
    simp only [Finset.sum_range_succ, Finset.sum_range_zero, prismEdges, faceEdges, List.getD_cons_zero, List.length_cons, List.length_nil,
      e0, e3, e6, e7, z1, z2, z4, z5, z8]
    simp only [List.getD_cons_zero, List.getD_cons_succ, List.length_cons, List.length_nil, Finset.sum_range_succ, Finset.sum_range_zero]
    abel
  · -- x = y
    obtain ⟨hx, g7, g8, g6, g6'⟩ := hg.one rfl
    have hx' : r 1 ≠ 0 := by rw [← hp]; exact hx
    have e1 := hs 1 (by decide) (by decide) fun _ => by
      left; simp [prismEdgeFactor, edgeToFace, entry, prismEdgeOnFace, prismMaxOrth, prismOrth, hp, hx']
    have e4 := hs 4 (by decide) (by decide) fun _ => by
      left; simp [prismEdgeFactor, edgeToFace, entry, prismEdgeOnFace, prismMaxOrth, prismOrth, hp, hx']
    have e7 := hs 7 (by decide) (by decide) fun h => absurd h (by omega)
    have e8 := hs 8 (by decide) (by decide) fun h => absurd h (by omega)
    have y := Classical.em (r 1 = 1)
    have y' : r 1 ≠ 1 → 1 - r 1 ≠ 0 := fun h h' => h (by linarith)
    have z0 := hz 0 (by decide) (Or.inl (by
      rcases y with y | y
      · simp [prismEdgeFactor, edgeToFace, entry, prismEdgeOnFace, prismMaxOrth, y]
      · simp [prismEdgeFactor, edgeToFace, entry, prismEdgeOnFace, prismMaxOrth, prismOrth, hp, y' y]))
    have z3 := hz 3 (by decide) (Or.inl (by
      rcases y with y | y
      · simp [prismEdgeFactor, edgeToFace, entry, prismEdgeOnFace, prismMaxOrth, y]
      · simp [prismEdgeFactor, edgeToFace, entry, prismEdgeOnFace, prismMaxOrth, prismOrth, hp, y' y]))
    have z2 := hz 2 (by decide) (Or.inl (by simp [prismEdgeFactor, edgeToFace, entry, prismEdgeOnFace, prismMaxOrth, prismOrth, hp, hx']))
    have z5 := hz 5 (by decide) (Or.inl (by simp [prismEdgeFactor, edgeToFace, entry, prismEdgeOnFace, prismMaxOrth, prismOrth, hp, hx']))
    have z6 := hn 6 g6 g6'
    simp only [Finset.sum_range_succ, Finset.sum_range_zero, prismEdges, faceEdges, List.getD_cons_zero, List.length_cons, List.length_nil,
      e1, e4, e7, e8, z0, z2, z3, z5, z6]
    simp only [List.getD_cons_zero, List.getD_cons_succ, List.length_cons, List.length_nil, Finset.sum_range_succ, Finset.sum_range_zero]
    abel
  · -- y = 0
    obtain ⟨hx, g8⟩ := hg.two rfl
    have e2 := hs 2 (by decide) (by decide) fun _ => by
      left; simp [prismEdgeFactor, edgeToFace, entry, prismEdgeOnFace, prismMaxOrth, prismOrth, hp, hx]
    have e5 := hs 5 (by decide) (by decide) fun _ => by
      left; simp [prismEdgeFactor, edgeToFace, entry, prismEdgeOnFace, prismMaxOrth, prismOrth, hp, hx]
    have e6 := hs 6 (by decide) (by decide) fun _ => by
      left; simp [prismEdgeFactor, edgeToFace, entry, prismEdgeOnFace, prismMaxOrth, prismOrth, hp]
    have e8 := hs 8 (by decide) (by decide) fun h => absurd h (by omega)
    have z0 := hz 0 (by decide) (Or.inr (Or.inl (by simp [prismEdgeCoeff, at3, hp])))
    have z3 := hz 3 (by decide) (Or.inr (Or.inl (by simp [prismEdgeCoeff, at3, hp])))
    have z1 := hz 1 (by decide) (Or.inl (by simp [prismEdgeFactor, edgeToFace, entry, prismEdgeOnFace, prismMaxOrth, prismOrth, hp, hx]))
    have z4 := hz 4 (by decide) (Or.inl (by simp [prismEdgeFactor, edgeToFace, entry, prismEdgeOnFace, prismMaxOrth, prismOrth, hp, hx]))
    have z7 := hz 7 (by decide) (Or.inl (by simp [prismEdgeFactor, edgeToFace, entry, prismEdgeOnFace, prismMaxOrth, prismOrth, hp]))
    simp only [Finset.sum_range_succ, Finset.sum_range_zero, prismEdges, faceEdges, List.getD_cons_zero, List.length_cons, List.length_nil,
      e2, e5, e6, e8, z0, z1, z3, z4, z7]
    simp only [List.getD_cons_zero, List.getD_cons_succ, List.length_cons, List.length_nil, Finset.sum_range_succ, Finset.sum_range_zero]
    abel
  · -- z = 0
    have e0 := hs 0 (by decide) (by decide) fun _ => by
      left; simp [prismEdgeFactor, edgeToFace, entry, prismEdgeOnFace, prismMaxOrth, prismOrth, hp]
    have e1 := hs 1 (by decide) (by decide) fun _ => by
      left; simp [prismEdgeFactor, edgeToFace, entry, prismEdgeOnFace, prismMaxOrth, prismOrth, hp]
    have e2 := hs 2 (by decide) (by decide) fun _ => by
      left; simp [prismEdgeFactor, edgeToFace, entry, prismEdgeOnFace, prismMaxOrth, prismOrth, hp]
    have z3 := hz 3 (by decide) (Or.inl (by simp [prismEdgeFactor, edgeToFace, entry, prismEdgeOnFace, prismMaxOrth, prismOrth, hp]))
    have z4 := hz 4 (by decide) (Or.inl (by simp [prismEdgeFactor, edgeToFace, entry, prismEdgeOnFace, prismMaxOrth, prismOrth, hp]))
    have z5 := hz 5 (by decide) (Or.inl (by simp [prismEdgeFactor, edgeToFace, entry, prismEdgeOnFace, prismMaxOrth, prismOrth, hp]))
    have z6 := hz 6 (by decide) (Or.inr (Or.inl (by simp [prismEdgeCoeff, at3, hp])))
    have z7 := hz 7 (by decide) (Or.inr (Or.inl (by simp [prismEdgeCoeff, at3, hp])))
    have z8 := hz 8 (by decide) (Or.inr (Or.inl (by simp [prismEdgeCoeff, at3, hp])))
    simp only [Finset.sum_range_succ, Finset.sum_range_zero, prismEdges, faceEdges, List.getD_cons_zero, List.length_cons, List.length_nil,
      e0, e1, e2, z3, z4, z5, z6, z7, z8]
    simp only [List.getD_cons_zero, List.getD_cons_succ, List.length_cons, List.length_nil, Finset.sum_range_succ, Finset.sum_range_zero]
    abel
  · -- z = 1
    have e3 := hs 3 (by decide) (by decide) fun _ => by
      left; simp [prismEdgeFactor, edgeToFace, entry, prismEdgeOnFace, prismMaxOrth, prismOrth, hp]
    have e4 := hs 4 (by decide) (by decide) fun _ => by
      left; simp [prismEdgeFactor, edgeToFace, entry, prismEdgeOnFace, prismMaxOrth, prismOrth, hp]
    have e5 := hs 5 (by decide) (by decide) fun _ => by
      left; simp [prismEdgeFactor, edgeToFace, entry, prismEdgeOnFace, prismMaxOrth, prismOrth, hp]
    have z0 := hz 0 (by decide) (Or.inl (by simp [prismEdgeFactor, edgeToFace, entry, prismEdgeOnFace, prismMaxOrth, prismOrth, hp]))
    have z1 := hz 1 (by decide) (Or.inl (by simp [prismEdgeFactor, edgeToFace, entry, prismEdgeOnFace, prismMaxOrth, prismOrth, hp]))
    have z2 := hz 2 (by decide) (Or.inl (by simp [prismEdgeFactor, edgeToFace, entry, prismEdgeOnFace, prismMaxOrth, prismOrth, hp]))
    have z6 := hz 6 (by decide) (Or.inr (Or.inr (by simp [prismEdgeCoeff, at3, hp])))
    have z7 := hz 7 (by decide) (Or.inr (Or.inr (by simp [prismEdgeCoeff, at3, hp])))
    have z8 := hz 8 (by decide) (Or.inr (Or.inr (by simp [prismEdgeCoeff, at3, hp])))
    simp only [Finset.sum_range_succ, Finset.sum_range_zero, prismEdges, faceEdges, List.getD_cons_zero, List.length_cons, List.length_nil,
      e3, e4, e5, z0, z1, z2, z6, z7, z8]
    simp only [List.getD_cons_zero, List.getD_cons_succ, List.length_cons, List.length_nil, Finset.sum_range_succ, Finset.sum_range_zero]
    abel

/-- Two faces meet in an edge, or the factor of the second one vanishes on the first one. -/
theorem prism_face_other {f g : Nat} (hf : f < 5) (hg : g < 5) (hne : g ≠ f) {r : Pt} (hp : InPlane .prism f r) :
    prismFaceFactor r g = 0 ∨ ∃ e < 9, Borders .prism e f ∧ Borders .prism e g ∧
      at3 r (prismFaceCoord g 0) = at3 (onEdge .prism e (prismEdgeCoeff r e)) (prismFaceCoord g 0) ∧
      at3 r (prismFaceCoord g 1) = at3 (onEdge .prism e (prismEdgeCoeff r e)) (prismFaceCoord g 1) := by
  have key : ∀ e < 9, Borders .prism e f → Borders .prism e g → prismFaceFactor r g = 0 ∨
      (at3 r (prismFaceCoord g 0) = at3 (onEdge .prism e (prismEdgeCoeff r e)) (prismFaceCoord g 0) ∧
      at3 r (prismFaceCoord g 1) = at3 (onEdge .prism e (prismEdgeCoeff r e)) (prismFaceCoord g 1)) := by
    intro e he h1 h2
    by_cases hx : r 0 = 0
    · interval_cases e <;> interval_cases f <;> first
        | exact absurd h1 (by decide)
        | (interval_cases g <;> first
            | exact absurd rfl hne
            | exact absurd h2 (by decide)
            | (simp [InPlane] at hp
               simp [prismFaceFactor, at3, onEdge, corner, tail, head, ends, prismFaceCoord, entry, prismEdgeCoeff, hp, hx]
               first | done | linarith | exact Or.inl fun h => by rw [div_self h, sub_self]))
    by_cases hy : r 1 = 1
    · interval_cases e <;> interval_cases f <;> first
        | exact absurd h1 (by decide)
        | (interval_cases g <;> first
            | exact absurd rfl hne
            | exact absurd h2 (by decide)
            | (simp [InPlane] at hp
               simp [prismFaceFactor, at3, onEdge, corner, tail, head, ends, prismFaceCoord, entry, prismEdgeCoeff, hp, hx, hy]
               first | done | linarith | exact Or.inl fun h => by rw [div_self h, sub_self]))
    have hy' : 1 - r 1 ≠ 0 := fun h => hy (by linarith)
    interval_cases e <;> interval_cases f <;> first
      | exact absurd h1 (by decide)
      | (interval_cases g <;> first
          | exact absurd rfl hne
          | exact absurd h2 (by decide)
          | (simp [InPlane] at hp
             simp [prismFaceFactor, at3, onEdge, corner, tail, head, ends, prismFaceCoord, entry, prismEdgeCoeff, hp, hx, hy, hy']
             first | done | exact Or.inl fun h => by rw [div_self h, sub_self]))
  have hex : (f = 3 ∧ g = 4) ∨ (f = 4 ∧ g = 3) ∨ ∃ e < 9, Borders .prism e f ∧ Borders .prism e g := by
    clear key hp
    interval_cases f <;> interval_cases g <;> first
      | exact absurd rfl hne
      | decide
  rcases hex with ⟨rfl, rfl⟩ | ⟨rfl, rfl⟩ | ⟨e, he, h1, h2⟩
  · left; simp [InPlane] at hp; simp [prismFaceFactor, hp]
  · left; simp [InPlane] at hp; simp [prismFaceFactor, hp]
  · exact (key e he h1 h2).imp id fun h => ⟨e, he, h1, h2, h⟩

theorem prismEdgeCoeff_inner {r : Pt} (hr : Inner .prism r) (e : Nat) (he : e < 9) : 0 ≤ prismEdgeCoeff r e ∧ prismEdgeCoeff r e ≤ 1 := by
  obtain ⟨h1, h2, h3, h4, h5⟩ := hr
  interval_cases e <;> simp [prismEdgeCoeff, at3] <;> constructor <;> linarith

theorem prismFaceFactor_self {f : Nat} (hf : f < 5) {r : Pt} (hp : InPlane .prism f r) (h0 : f = 0 → r 1 ≠ 1) (h1 : f = 1 → r 0 ≠ 0)
    (h2 : f = 2 → r 0 ≠ 0) : prismFaceFactor r f = 1 := by
  interval_cases f <;> simp [InPlane] at hp <;> simp [prismFaceFactor, hp]
  · intro h; exact absurd (by linarith) (h0 rfl)
  · intro h; exact h1 rfl (hp.trans h)
  · intro h; exact h2 rfl h

/-- **C64** (prisms, faces).  At the points of a face with a linked surface the geometry is the point of the surface at the parameters between those of
its vertices, provided that linked faces meet in edges with curves and that the point is regular.  The full claim is without `PrismRegular`; it is false,
see Props/CadPrismFalse.lean. -/
theorem C64_prism_face_partial {G : Cad} {T : Tree} (F : Fits G T .prism) (I : Inside G T .prism) (S : Seamed T .prism) {f : Nat}
    (hf : f < 5) (hl : 0 < T.faces f) {r : Pt} (hr : Inner .prism r) (hp : InPlane .prism f r) (hg : PrismRegular T f r) :
    evaluatePrism G T r = G.surf (T.faces f) (faceBetween T .prism f r) := by
  by_cases h7 : f = 0 ∧ r 1 = 1
  · -- edge 7
    obtain ⟨rfl, hy⟩ := h7
    have hc : 0 < T.edges 7 := (hg.zero rfl).resolve_left (fun h => h hy)
    simp [InPlane] at hp
    have hre : r = onEdge .prism 7 (r 2) := by
      funext i; fin_cases i <;> simp [onEdge, corner, tail, head, ends, hp, hy]
    have hb := prism_edge_params T (e := 7) (f := 0) (i := 1) (j := 3) (by decide) (by decide) (by decide) (by decide) (by decide)
      (by decide) (by decide) (r 2)
    rw [prism_params _ (by decide) (prism_onEdge_plane (by decide) (by decide) (by decide) _), ← hre] at hb
    have hcv := C64_prism_edge F I (e := 7) (by decide) hr.2.2.2.1 hr.2.2.2.2 (Or.inl hc)
    rw [← hre] at hcv
    unfold faceBetween
    rw [hcv, hb, edgeTarget, if_pos hc]
    exact (I 0 (by decide) hl 7 (by decide) hc 1 (by decide) 3 (by decide) (by decide) (by decide) (r 2) hr.2.2.2.1 hr.2.2.2.2).symm
  have hfac := prismFaceFactor_self hf hp (fun h h' => h7 ⟨h, h'⟩) (fun h => (hg.one h).1) (fun h => (hg.two h).1)
  unfold evaluatePrism
  simp only [addEdges_eq, addFaces_eq]
  rw [prism_face_sum F hf hl hp hg,
    Finset.sum_eq_single (s := Finset.range 5) (f := faceTerm T (prismFaceDelta G T r) (prismFaceFactor r)) f]
  · rw [faceTerm, if_pos hl, hfac, one_smul, prismFaceDelta_eq, prism_params _ hf hp, prism_point T.V hf hp]
    unfold faceBetween
    abel
  · intro g hgr hne
    have hg5 := Finset.mem_range.1 hgr
    apply faceTerm_zero
    by_cases hlg : T.faces g ≤ 0
    · exact Or.inr (Or.inl hlg)
    have hlg' : 0 < T.faces g := by omega
    rcases prism_face_other hf hg5 hne hp with hz | ⟨e, he, h1, h2, hc⟩
    · exact Or.inl hz
    · right; right
      rw [prismFaceDelta_congr G T _ _ hg5 hc]
      have ht := prismEdgeCoeff_inner hr e he
      exact prismFaceDelta_edge F I he hg5 hlg' h2 (S f hf g hg5 hne.symm hl hlg' e he h1 h2) ht.1 ht.2
  · intro h
    exact absurd (Finset.mem_range.2 hf) h

end T8.CadGeometry
