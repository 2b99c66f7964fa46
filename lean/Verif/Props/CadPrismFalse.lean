import Verif.Props.CadPrism
import Verif.Props.CadGeometryFalse
import Mathlib.Tactic.NormNum

/-!
# C64: where curved prisms leave their surfaces
-/

namespace T8.CadGeometry
open T8 T8.CadGeometry.Spec

/-- The reference prism with curve 1 at edge `e` (no curve if `e` is 18 or larger) and surface 1 at face `f`. -/
def wedge (e f : Nat) : Tree where
  V := corner .prism
  edges i := if i = e then 1 else 0
  faces i := if i = f then 1 else 0
  edgeParams _ i := ![(i : ℝ), 0]
  faceParams _ i := if i = 0 then ![0, 0] else if i = 1 then ![1, 0] else if i = 2 then ![0, 1] else ![1, 1]

/-- What is asked of curves and surfaces, and the face is linked, and still a point of the face does not lie on the surface. -/
def PrismLeaves (G : Cad) (T : Tree) (f : Nat) : Prop :=
  Fits G T .prism ∧ Inside G T .prism ∧ Seamed T .prism ∧ 0 < T.faces f ∧
    ∃ r, Inner .prism r ∧ InPlane .prism f r ∧ ∀ p : Prm, evaluatePrism G T r ≠ G.surf (T.faces f) p

theorem wedge_value (G : Cad) {e f : Nat} (he : e < 9 ∨ 18 ≤ e) (hf : f < 5) (r : Pt) :
    evaluatePrism G (wedge e f) r = prismLinear r (corner .prism) +
      (if e < 9 then prismEdgeFactor r e • edgeDelta G (wedge e f) .prism 9 e (prismEdgeCoeff r e) else 0) +
      prismFaceFactor r f • prismFaceDelta G (wedge e f) r f := by
  have hv : (wedge e f).V = corner .prism := rfl
  unfold evaluatePrism
  simp only [addEdges_eq, addFaces_eq]
  have hz : ∀ e' < 9, e' ≠ e →
      edgeTerm G (wedge e f) .prism 9 (prismEdgeCoeff r) (prismEdgeFactor r) e' = 0 := by
    intro e' he' hne
    rw [edgeTerm, if_neg]
    have : e' + 9 ≠ e := by omega
    simp [wedge, hne, this]
  rw [Finset.sum_eq_single (s := Finset.range 5) (f := faceTerm (wedge e f) (prismFaceDelta G (wedge e f) r) (prismFaceFactor r)) f]
  · rw [faceTerm, if_pos (by simp [wedge])]
    congr 2
    by_cases h9 : e < 9
    · rw [if_pos h9, Finset.sum_eq_single (s := Finset.range 9) e]
      · rw [edgeTerm, if_pos (by simp [wedge])]
      · exact fun e' he' hne => hz e' (Finset.mem_range.1 he') hne
      · intro h; exact absurd (Finset.mem_range.2 h9) h
    · rw [if_neg h9, Finset.sum_eq_zero]
      exact fun e' he' => hz e' (Finset.mem_range.1 he') (by have := Finset.mem_range.1 he'; omega)
  · intro g _ hne
    exact faceTerm_zero _ _ _ _ (Or.inr (Or.inl (by simp [wedge, hne])))
  · intro h; exact absurd (Finset.mem_range.2 hf) h

theorem wedge_fits (c : ℝ → Pt) (s : ℝ → ℝ → Pt) {e f : Nat} (he : e < 9 ∨ 18 ≤ e) (hf : f < 3)
    (hc : e < 9 → c 0 = corner .prism (tail .prism e) ∧ c 1 = corner .prism (head .prism e))
    (hs : s 0 0 = corner .prism ((cornersOf .prism f).getD 0 0) ∧ s 1 0 = corner .prism ((cornersOf .prism f).getD 1 0) ∧
      s 0 1 = corner .prism ((cornersOf .prism f).getD 2 0) ∧ s 1 1 = corner .prism ((cornersOf .prism f).getD 3 0)) :
    Fits (kernel c s) (wedge e f) .prism where
  curve e' he' hl := by
    have : e' = e := by
      by_contra hne
      simp [wedge, hne] at hl
    subst this
    have hc' := hc he'
    simp [kernel, wedge, hc']
  edgeSurface e' he' hl := by
    have hlen : (ends .prism).length = 9 := rfl
    rw [hlen] at hl he'
    have : e' + 9 ≠ e := by omega
    simp [wedge, this] at hl
  faceSurface f' hf' hl i hi := by
    have : f' = f := by
      by_contra hne
      simp [wedge, hne] at hl
    subst this
    have hlen : (cornersOf .prism f').length = 4 := by interval_cases f' <;> rfl
    rw [hlen] at hi
    obtain ⟨s0, s1, s2, s3⟩ := hs
    interval_cases i <;> simp only [kernel, wedge, Cad.surf] <;> simp [s0, s1, s2, s3]
  one e' he' _ := by
    have hlen : (ends .prism).length = 9 := rfl
    rw [hlen] at he' ⊢
    have : e' + 9 ≠ e := by omega
    simp [wedge, this]
  oneSurface f' _ _ e' he' _ := by
    have hlen : (ends .prism).length = 9 := rfl
    rw [hlen] at he' ⊢
    have : e' + 9 ≠ e := by omega
    simp [wedge, this]

theorem wedge_seamed (e f : Nat) (c : Eclass) : Seamed (wedge e f) c := by
  intro f1 _ f2 _ hne h1 h2
  have a : f1 = f := by
    by_contra hn
    simp [wedge, hn] at h1
  have b : f2 = f := by
    by_contra hn
    simp [wedge, hn] at h2
  exact absurd (a.trans b.symm) hne

theorem wedge_inside (c : ℝ → Pt) (s : ℝ → ℝ → Pt) {e f : Nat} (hf : f < 3)
    (h : ∀ i < 4, ∀ j < 4, (cornersOf .prism f).getD i 0 = tail .prism e → (cornersOf .prism f).getD j 0 = head .prism e → e < 9 →
      ∀ t : ℝ, (kernel c s).surf 1 ((1 - t) • (wedge e f).faceParams f i + t • (wedge e f).faceParams f j) = c t) :
    Inside (kernel c s) (wedge e f) .prism := by
  intro f' _ hl e' he' hc i hi j hj hit hjh t _ _
  have a : f' = f := by
    by_contra hn
    simp [wedge, hn] at hl
  have b : e' = e := by
    by_contra hn
    simp [wedge, hn] at hc
  subst a b
  have hlen : (cornersOf .prism f').length = 4 := by interval_cases f' <;> rfl
  rw [hlen] at hi hj
  have := h i hi j hj hit hjh he' t
  have ht : between (wedge e' f') e' t = t := by simp [between, wedge]
  rw [ht]
  simpa [wedge, kernel] using this

/-- A surface through the vertices of face 0. -/
noncomputable def wall0 : ℝ → ℝ → Pt := fun u v => ![1 + v * (1 - v), u, v]
/-- A surface through the vertices of face 1. -/
noncomputable def wall1 : ℝ → ℝ → Pt := fun u v => ![u + v * (1 - v), u, v]
/-- A surface through the vertices of face 2. -/
noncomputable def wall2 : ℝ → ℝ → Pt := fun u v => ![u, v * (1 - v), v]
/-- The plane of face 1. -/
noncomputable def plane1 : ℝ → ℝ → Pt := fun u v => ![u, u, v]
/-- A curve at edge 6. -/
noncomputable def arc6 : ℝ → Pt := fun t => ![1 + t * (1 - t), 0, t]

/-- **C64 fails for prisms**: a curve at edge 8 and a surface that contains it at face 2.  Both factors of edge 8 are 1 - x, and their product is used in the
loop over the edges, but only one of them in the loop over the faces. -/
theorem C64_prism_face_false : PrismLeaves (kernel (fun t => wall2 0 t) wall2) (wedge 8 2) 2 := by
  refine ⟨wedge_fits _ _ (by decide) (by decide) (fun _ => ⟨?_, ?_⟩) ⟨?_, ?_, ?_, ?_⟩, wedge_inside _ _ (by decide) ?_, wedge_seamed _ _ _,
    by simp [wedge], ![1 / 2, 0, 1 / 2], ?_, ?_, ?_⟩
  · funext i; fin_cases i <;> simp [wall2, corner, tail, ends]
  · funext i; fin_cases i <;> simp [wall2, corner, head, ends]
  · funext i; fin_cases i <;> simp [wall2, corner, cornersOf, faceCorners]
  · funext i; fin_cases i <;> simp [wall2, corner, cornersOf, faceCorners]
  · funext i; fin_cases i <;> simp [wall2, corner, cornersOf, faceCorners]
  · funext i; fin_cases i <;> simp [wall2, corner, cornersOf, faceCorners]
  · intro i hi j hj h1 h2 _ t
    interval_cases i <;> interval_cases j <;> first
      | exact absurd h1 (by decide)
      | exact absurd h2 (by decide)
      | simp [wedge, kernel, Cad.surf]
  · norm_num [Inner, vec2]
  · norm_num [InPlane, vec2]
  · intro p h
    rw [wedge_value _ (by decide) (by decide), prismFaceDelta_eq] at h
    have h0 := congrFun h 0
    have h1 := congrFun h 1
    have h2 := congrFun h 2
    norm_num [prismLinear, tri2, lerp1, prismEdgeFactor, prismEdgeOnFace, prismMaxOrth, prismOrth, edgeToFace, entry, edgeDelta, edgePoint, wedge,
      prismEdgeCoeff, at3, prismFaceFactor, prismLine, prismTerm, prismEdges, faceEdges, Finset.sum_range_succ, kernel, wall2, Cad.surf, lerp2,
      getEdgeVertices, edgeVertices, getFaceVertices, Neighbor.faceVertices, corner, prismFaceCoord, vec2] at h0 h1 h2
    rw [← h2] at h1
    norm_num at h1

/-- The same for edge 8 and face 1. -/
theorem C64_prism_face1_edge8_false : PrismLeaves (kernel (fun t => wall1 0 t) wall1) (wedge 8 1) 1 := by
  refine ⟨wedge_fits _ _ (by decide) (by decide) (fun _ => ⟨?_, ?_⟩) ⟨?_, ?_, ?_, ?_⟩, wedge_inside _ _ (by decide) ?_, wedge_seamed _ _ _,
    by simp [wedge], ![1 / 2, 1 / 2, 1 / 2], ?_, ?_, ?_⟩
  · funext i; fin_cases i <;> simp [wall1, corner, tail, ends]
  · funext i; fin_cases i <;> simp [wall1, corner, head, ends]
  · funext i; fin_cases i <;> simp [wall1, corner, cornersOf, faceCorners]
  · funext i; fin_cases i <;> simp [wall1, corner, cornersOf, faceCorners]
  · funext i; fin_cases i <;> simp [wall1, corner, cornersOf, faceCorners]
  · funext i; fin_cases i <;> simp [wall1, corner, cornersOf, faceCorners]
  · intro i hi j hj h1 h2 _ t
    interval_cases i <;> interval_cases j <;> first
      | exact absurd h1 (by decide)
      | exact absurd h2 (by decide)
      | simp [wedge, kernel, Cad.surf]
  · norm_num [Inner, vec2]
  · norm_num [InPlane, vec2]
  · intro p h
    rw [wedge_value _ (by decide) (by decide), prismFaceDelta_eq] at h
    have h0 := congrFun h 0
    have h1 := congrFun h 1
    have h2 := congrFun h 2
    norm_num [prismLinear, tri2, lerp1, prismEdgeFactor, prismEdgeOnFace, prismMaxOrth, prismOrth, edgeToFace, entry, edgeDelta, edgePoint, wedge,
      prismEdgeCoeff, at3, prismFaceFactor, prismLine, prismTerm, prismEdges, faceEdges, Finset.sum_range_succ, kernel, wall1, Cad.surf, lerp2,
      getEdgeVertices, edgeVertices, getFaceVertices, Neighbor.faceVertices, corner, prismFaceCoord, vec2] at h0 h1 h2
    rw [← h1, ← h2] at h0
    norm_num at h0

/-- The same for edge 7 and face 1. -/
theorem C64_prism_face1_edge7_false : PrismLeaves (kernel (fun t => wall1 1 t) wall1) (wedge 7 1) 1 := by
  refine ⟨wedge_fits _ _ (by decide) (by decide) (fun _ => ⟨?_, ?_⟩) ⟨?_, ?_, ?_, ?_⟩, wedge_inside _ _ (by decide) ?_, wedge_seamed _ _ _,
    by simp [wedge], ![1 / 2, 1 / 2, 1 / 2], ?_, ?_, ?_⟩
  · funext i; fin_cases i <;> simp [wall1, corner, tail, ends]
  · funext i; fin_cases i <;> simp [wall1, corner, head, ends]
  · funext i; fin_cases i <;> simp [wall1, corner, cornersOf, faceCorners]
  · funext i; fin_cases i <;> simp [wall1, corner, cornersOf, faceCorners]
  · funext i; fin_cases i <;> simp [wall1, corner, cornersOf, faceCorners]
  · funext i; fin_cases i <;> simp [wall1, corner, cornersOf, faceCorners]
  · intro i hi j hj h1 h2 _ t
    interval_cases i <;> interval_cases j <;> first
      | exact absurd h1 (by decide)
      | exact absurd h2 (by decide)
      | simp [wedge, kernel, Cad.surf]
  · norm_num [Inner, vec2]
  · norm_num [InPlane, vec2]
  · intro p h
    rw [wedge_value _ (by decide) (by decide), prismFaceDelta_eq] at h
    have h0 := congrFun h 0
    have h1 := congrFun h 1
    have h2 := congrFun h 2
    norm_num [prismLinear, tri2, lerp1, prismEdgeFactor, prismEdgeOnFace, prismMaxOrth, prismOrth, edgeToFace, entry, edgeDelta, edgePoint, wedge,
      prismEdgeCoeff, at3, prismFaceFactor, prismLine, prismTerm, prismEdges, faceEdges, Finset.sum_range_succ, kernel, wall1, Cad.surf, lerp2,
      getEdgeVertices, edgeVertices, getFaceVertices, Neighbor.faceVertices, corner, prismFaceCoord, vec2] at h0 h1 h2
    rw [← h1, ← h2] at h0
    norm_num at h0

/-- **C64 fails for prisms**: a curve at edge 6, which does not belong to face 1, moves points of face 1. -/
theorem C64_prism_other_edge_false : PrismLeaves (kernel arc6 plane1) (wedge 6 1) 1 := by
  refine ⟨wedge_fits _ _ (by decide) (by decide) (fun _ => ⟨?_, ?_⟩) ⟨?_, ?_, ?_, ?_⟩, wedge_inside _ _ (by decide) ?_, wedge_seamed _ _ _,
    by simp [wedge], ![1 / 2, 1 / 2, 1 / 2], ?_, ?_, ?_⟩
  · funext i; fin_cases i <;> simp [arc6, corner, tail, ends]
  · funext i; fin_cases i <;> simp [arc6, corner, head, ends]
  · funext i; fin_cases i <;> simp [plane1, corner, cornersOf, faceCorners]
  · funext i; fin_cases i <;> simp [plane1, corner, cornersOf, faceCorners]
  · funext i; fin_cases i <;> simp [plane1, corner, cornersOf, faceCorners]
  · funext i; fin_cases i <;> simp [plane1, corner, cornersOf, faceCorners]
  · intro i hi j hj h1 h2 _ t
    interval_cases i <;> exact absurd h1 (by decide)
  · norm_num [Inner, vec2]
  · norm_num [InPlane, vec2]
  · intro p h
    rw [wedge_value _ (by decide) (by decide), prismFaceDelta_eq] at h
    have h0 := congrFun h 0
    have h1 := congrFun h 1
    norm_num [prismLinear, tri2, lerp1, prismEdgeFactor, prismEdgeOnFace, prismMaxOrth, prismOrth, edgeToFace, entry, edgeDelta, edgePoint, wedge,
      prismEdgeCoeff, at3, prismFaceFactor, prismLine, prismTerm, prismEdges, faceEdges, Finset.sum_range_succ, kernel, plane1, arc6, Cad.surf,
      lerp2, getEdgeVertices, edgeVertices, getFaceVertices, Neighbor.faceVertices, corner, prismFaceCoord, vec2] at h0 h1
    rw [← h1] at h0
    norm_num at h0

/-- **C64 fails for prisms**: at edge 7 the factor of face 0 is set to 0, and if this edge has no curve it stays straight while the face is curved. -/
theorem C64_prism_tear_false : PrismLeaves (kernel (fun _ => 0) wall0) (wedge 18 0) 0 := by
  refine ⟨wedge_fits _ _ (by decide) (by decide) (fun h => absurd h (by decide)) ⟨?_, ?_, ?_, ?_⟩,
    wedge_inside _ _ (by decide) (fun _ _ _ _ _ _ h => absurd h (by decide)), wedge_seamed _ _ _,
    by simp [wedge], ![1, 1, 1 / 2], ?_, ?_, ?_⟩
  · funext i; fin_cases i <;> simp [wall0, corner, cornersOf, faceCorners]
  · funext i; fin_cases i <;> simp [wall0, corner, cornersOf, faceCorners]
  · funext i; fin_cases i <;> simp [wall0, corner, cornersOf, faceCorners]
  · funext i; fin_cases i <;> simp [wall0, corner, cornersOf, faceCorners]
  · norm_num [Inner, vec2]
  · norm_num [InPlane, vec2]
  · intro p h
    rw [wedge_value _ (by decide) (by decide)] at h
    have h0 := congrFun h 0
    have h2 := congrFun h 2
    norm_num [prismLinear, tri2, lerp1, prismFaceFactor, kernel, wall0, Cad.surf, corner, vec2] at h0 h2
    rw [← h2] at h0
    norm_num at h0

/-- Beside `C64_prism_face_partial` and `C64_prism_edge`: a curve at edge 6 that lies in a curved face 2, and a regular point. -/
example : ∃ (G : Cad) (T : Tree) (r : Pt), Fits G T .prism ∧ Inside G T .prism ∧ Seamed T .prism ∧ 0 < T.faces 2 ∧ 0 < T.edges 6 ∧
    Inner .prism r ∧ InPlane .prism 2 r ∧ PrismRegular T 2 r ∧ evaluatePrism G T r = ![1 / 2, 1 / 4, 1 / 2] := by
  have F : Fits (kernel (fun t => wall2 1 t) wall2) (wedge 6 2) .prism := by
    refine wedge_fits _ _ (by decide) (by decide) (fun _ => ⟨?_, ?_⟩) ⟨?_, ?_, ?_, ?_⟩ <;> funext i <;> fin_cases i <;>
      simp [wall2, corner, tail, head, ends, cornersOf, faceCorners]
  have I : Inside (kernel (fun t => wall2 1 t) wall2) (wedge 6 2) .prism := by
    refine wedge_inside _ _ (by decide) ?_
    intro i hi j hj h1 h2 _ t
    interval_cases i <;> interval_cases j <;> first
      | exact absurd h1 (by decide)
      | exact absurd h2 (by decide)
      | simp [wedge, kernel, Cad.surf]
  have R : PrismRegular (wedge 6 2) 2 ![1 / 2, 0, 1 / 2] :=
    ⟨fun h => absurd h (by decide), fun h => absurd h (by decide), fun _ => ⟨by norm_num, by simp [wedge]⟩⟩
  have hr : Inner .prism ![1 / 2, 0, 1 / 2] := by norm_num [Inner, vec2]
  have hp : InPlane .prism 2 ![1 / 2, 0, 1 / 2] := by norm_num [InPlane, vec2]
  refine ⟨_, _, _, F, I, wedge_seamed _ _ _, by simp [wedge], by simp [wedge], hr, hp, R, ?_⟩
  rw [C64_prism_face_partial F I (wedge_seamed _ _ _) (by decide) (by simp [wedge]) hr hp R]
  funext i
  fin_cases i <;>
    norm_num [faceBetween, kernel, Cad.surf, wall2, cornersOf, faceCorners, Finset.sum_range_succ, weight, wedge, vec2]

end T8.CadGeometry
