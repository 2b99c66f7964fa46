import Verif.Lemmas.CadGeometry

/-!
# Lemmas: curved prisms
-/

namespace T8.CadGeometry
open T8 T8.CadGeometry.Spec

theorem prismDelta_node {G : Cad} {T : Tree} (F : Fits G T .prism) {e : Nat} (he : e < 9) (hl : 0 < T.edges e ∨ 0 < T.edges (e + 9))
    {t : ℝ} (ht : t = 0 ∨ t = 1) : edgeDelta G T .prism 9 e t = 0 := edgeDelta_node (c := .prism) F he hl ht

/-- The edges of a face. -/
abbrev prismEdges (f : Nat) : List Nat := (faceEdges .prism).getD f []

/-- What edge `e` adds on face `f`. -/
noncomputable def prismTerm (G : Cad) (T : Tree) (f : Nat) (r : Pt) (e : Nat) : Pt :=
  if 0 < T.edges e then prismEdgeOnFace e f r • edgeDelta G T .prism 9 e (prismEdgeCoeff r e) else 0

/-- The point of the linear face. -/
def prismLine {ι : Type} (f : Nat) (r : Pt) (w : Nat → ι → ℝ) : ι → ℝ :=
  if f ≤ 2 then lerp2 (at3 r (prismFaceCoord f 0)) (at3 r (prismFaceCoord f 1)) w
  else tri2 (at3 r (prismFaceCoord f 0)) (at3 r (prismFaceCoord f 1)) w

theorem prismFaceDelta_eq (G : Cad) (T : Tree) (r : Pt) (f : Nat) :
    prismFaceDelta G T r f = G.surf (T.faces f) (prismLine f r (T.faceParams f)) -
      (prismLine f r (getFaceVertices .prism T.V f) +
        ∑ k ∈ Finset.range (prismEdges f).length, prismTerm G T f r ((prismEdges f).getD k 0)) := by
  unfold prismFaceDelta
  simp only [fromEdges_eq]
  unfold prismLine
  congr 2
  refine Finset.sum_congr rfl fun k _ => ?_
  unfold prismTerm
  split
  · rename_i h
    simp only [edgeDelta, edgePoint, h, if_true]
  · rfl

/-- The displacement of a face depends on two coordinates. -/
theorem prismFaceDelta_congr (G : Cad) (T : Tree) (r r' : Pt) {f : Nat} (hf : f < 5)
    (h : at3 r (prismFaceCoord f 0) = at3 r' (prismFaceCoord f 0) ∧ at3 r (prismFaceCoord f 1) = at3 r' (prismFaceCoord f 1)) :
    prismFaceDelta G T r f = prismFaceDelta G T r' f := by
  rw [prismFaceDelta_eq, prismFaceDelta_eq]
  unfold prismLine
  rw [h.1, h.2]
  congr 2
  refine Finset.sum_congr rfl fun k hk => ?_
  rw [Finset.mem_range] at hk
  unfold prismTerm prismEdgeOnFace
  obtain ⟨h0, h1⟩ := h
  interval_cases f <;> simp [prismEdges, faceEdges] at hk <;> interval_cases k <;>
    simp [prismFaceCoord, entry, at3] at h0 h1 <;>
    simp [prismEdges, faceEdges, prismOrth, prismMaxOrth, prismEdgeCoeff, at3, h0, h1]

theorem prism_params {ι : Type} (w : Nat → ι → ℝ) {f : Nat} (hf : f < 5) {r : Pt} (hp : InPlane .prism f r) :
    prismLine f r w = ∑ i ∈ Finset.range (cornersOf .prism f).length, weight .prism ((cornersOf .prism f).getD i 0) r • w i := by
  funext i
  interval_cases f <;> simp [InPlane] at hp <;>
    simp [prismLine, cornersOf, faceCorners, Finset.sum_range_succ, weight, tri2, lerp2, at3, prismFaceCoord, entry, hp] <;> ring

theorem prism_point (V : Nat → Pt) {f : Nat} (hf : f < 5) {r : Pt} (hp : InPlane .prism f r) :
    prismLine f r (getFaceVertices .prism V f) = prismLinear r V := by
  funext i
  interval_cases f <;> simp [InPlane] at hp <;>
    simp [prismLine, prismLinear, getFaceVertices, Neighbor.faceVertices, lerp1, tri2, lerp2, at3, prismFaceCoord, entry, hp] <;> ring

theorem prism_face_corner : ∀ f < 5, (cornersOf .prism f).length = (prismEdges f).length ∧ ∀ k < (prismEdges f).length,
    (prismEdges f).getD k 0 < 9 ∧ Borders .prism ((prismEdges f).getD k 0) f ∧ (cornersOf .prism f).getD k 0 < 6 := by
  intro f hf
  interval_cases f <;> decide

theorem prismEdgeCoeff_corner (v : Nat) (hv : v < 6) (e : Nat) (he : e < 9) :
    prismEdgeCoeff (corner .prism v) e = 0 ∨ prismEdgeCoeff (corner .prism v) e = 1 := by
  interval_cases v <;> interval_cases e <;> simp [prismEdgeCoeff, at3, corner]

theorem prismLinear_corner (V : Nat → Pt) (v : Nat) (hv : v < 6) : prismLinear (corner .prism v) V = V v := by
  funext i
  interval_cases v <;> simp [prismLinear, tri2, lerp1, corner]

theorem prismTerm_zero {G : Cad} {T : Tree} (F : Fits G T .prism) (f : Nat) (r : Pt) {e : Nat} (he : e < 9)
    (h : prismEdgeOnFace e f r = 0 ∨ prismEdgeCoeff r e = 0 ∨ prismEdgeCoeff r e = 1) : prismTerm G T f r e = 0 := by
  unfold prismTerm
  split
  case isFalse => rfl
  case isTrue hl =>
    rcases h with h | h
    · rw [h, zero_smul]
    · rw [prismDelta_node F he (Or.inl hl) h, smul_zero]

theorem prism_corner_plane {f i : Nat} (hf : f < 5) (hi : i < (cornersOf .prism f).length) :
    InPlane .prism f (corner .prism ((cornersOf .prism f).getD i 0)) := by
  interval_cases f <;> simp [cornersOf, faceCorners] at hi <;> interval_cases i <;> simp [InPlane, corner, cornersOf, faceCorners]

/-- A linked face of a prism is not displaced at its vertices. -/
theorem prismFaceDelta_node {G : Cad} {T : Tree} (F : Fits G T .prism) {f : Nat} (hf : f < 5) (hl : 0 < T.faces f) {i : Nat}
    (hi : i < (cornersOf .prism f).length) : prismFaceDelta G T (corner .prism ((cornersOf .prism f).getD i 0)) f = 0 := by
  have hp := prism_corner_plane hf hi
  obtain ⟨hlen, hk⟩ := prism_face_corner f hf
  have hv := (hk i (by omega)).2.2
  have hparam : prismLine f (corner .prism ((cornersOf .prism f).getD i 0)) (T.faceParams f) = T.faceParams f i := by
    rw [prism_params _ hf hp]
    funext j
    clear hp hlen hk hv
    interval_cases f <;> simp [cornersOf, faceCorners] at hi <;> interval_cases i <;>
      simp [cornersOf, faceCorners, Finset.sum_range_succ, weight, corner]
  rw [prismFaceDelta_eq, hparam, prism_point T.V hf hp, F.faceSurface f hf hl i hi, prismLinear_corner T.V _ hv,
    Finset.sum_eq_zero, add_zero, sub_self]
  intro k hk'
  rw [Finset.mem_range] at hk'
  exact prismTerm_zero F f _ (hk k hk').1 (Or.inr (prismEdgeCoeff_corner _ hv _ (hk k hk').1))

theorem prismEdgeCoeff_self {e : Nat} (he : e < 9) (t : ℝ) : prismEdgeCoeff (onEdge .prism e t) e = t := by
  interval_cases e <;> simp [prismEdgeCoeff, at3, onEdge, corner, tail, head, ends]

theorem prism_onEdge_plane {e f : Nat} (he : e < 9) (hf : f < 5) (hb : Borders .prism e f) (t : ℝ) :
    InPlane .prism f (onEdge .prism e t) := by
  interval_cases f <;> interval_cases e <;> first
    | exact absurd hb (by decide)
    | simp [InPlane, onEdge, corner, tail, head, ends]

/-- On an edge the factor of its faces is 1, away from the vertices. -/
theorem prismEdgeOnFace_self {e f : Nat} (he : e < 9) (hf : f < 5) (hb : Borders .prism e f) {t : ℝ} (h0 : t ≠ 0) (h1 : t ≠ 1) :
    prismEdgeOnFace e f (onEdge .prism e t) = 1 := by
  have h2 : 1 - t ≠ 0 := fun h => h1 (by linarith)
  unfold prismEdgeOnFace
  interval_cases e <;> interval_cases f <;> first
    | exact absurd hb (by decide)
    | simp [prismMaxOrth, prismOrth, onEdge, corner, tail, head, ends, h0, h1, h2]

/-- On an edge of a face the other edges of the face have factor 0, or the point belongs to one of their vertices. -/
theorem prismEdgeOnFace_other {e e' f : Nat} (he : e < 9) (he' : e' < 9) (hf : f < 5) (hb : Borders .prism e f)
    (hb' : Borders .prism e' f) (hne : e' ≠ e) {t : ℝ} (h0 : t ≠ 0) (h1 : t ≠ 1) :
    prismEdgeOnFace e' f (onEdge .prism e t) = 0 ∨ prismEdgeCoeff (onEdge .prism e t) e' = 0 ∨
      prismEdgeCoeff (onEdge .prism e t) e' = 1 := by
  have h2 : 1 - t ≠ 0 := fun h => h1 (by linarith)
  unfold prismEdgeOnFace prismEdgeCoeff
  interval_cases f <;> interval_cases e <;> first
    | exact absurd hb (by decide)
    | (interval_cases e' <;> first
        | exact absurd hb' (by decide)
        | exact absurd rfl hne
        | simp [prismMaxOrth, prismOrth, at3, onEdge, corner, tail, head, ends, h0, h1, h2])

theorem prism_edge_index : ∀ e < 9, ∀ f < 5, Borders .prism e f → ∃ i < (prismEdges f).length, ∃ j < (prismEdges f).length,
    (cornersOf .prism f).getD i 0 = tail .prism e ∧
    (cornersOf .prism f).getD j 0 = head .prism e ∧ ∃ k < (prismEdges f).length, (prismEdges f).getD k 0 = e ∧
    ∀ k' < (prismEdges f).length, k' ≠ k → (prismEdges f).getD k' 0 ≠ e := by
  intro e he f hf
  interval_cases e <;> interval_cases f <;> decide

theorem prismLinear_edge (V : Nat → Pt) {e : Nat} (he : e < 9) (t : ℝ) :
    prismLinear (onEdge .prism e t) V = lerp1 t (getEdgeVertices .prism V e) := by
  funext m
  simp only [lerp1, getEdgeVertices_zero .prism V e he, getEdgeVertices_one .prism V e he]
  interval_cases e <;> simp [prismLinear, tri2, lerp1, onEdge, corner, tail, head, ends] <;> ring

theorem prism_edge_params (T : Tree) {e f i j : Nat} (he : e < 9) (hf : f < 5) (hi : i < (prismEdges f).length)
    (hj : j < (prismEdges f).length) (hit : (cornersOf .prism f).getD i 0 = tail .prism e)
    (hjh : (cornersOf .prism f).getD j 0 = head .prism e) (hb : Borders .prism e f) (t : ℝ) :
    prismLine f (onEdge .prism e t) (T.faceParams f) = (1 - t) • T.faceParams f i + t • T.faceParams f j := by
  rw [prism_params _ hf (prism_onEdge_plane he hf hb t)]
  funext m
  interval_cases f <;> interval_cases e <;> first
    | exact absurd hb (by decide)
    | (simp [prismEdges, faceEdges] at hi hj
       interval_cases i <;> interval_cases j <;> first
          | exact absurd hit (by decide)
          | exact absurd hjh (by decide)
          | simp [cornersOf, faceCorners, Finset.sum_range_succ, weight, onEdge, corner, tail, head, ends])

/-- A linked face of a prism is not displaced at its edges with curves. -/
theorem prismFaceDelta_edge {G : Cad} {T : Tree} (F : Fits G T .prism) (I : Inside G T .prism) {e f : Nat} (he : e < 9) (hf : f < 5)
    (hl : 0 < T.faces f) (hb : Borders .prism e f) (hc : 0 < T.edges e) {t : ℝ} (h0 : 0 ≤ t) (h1 : t ≤ 1) :
    prismFaceDelta G T (onEdge .prism e t) f = 0 := by
  obtain ⟨hlen, hfc⟩ := prism_face_corner f hf
  obtain ⟨i, hi, j, hj, hit, hjh, k, hk, hke, hk'⟩ := prism_edge_index e he f hf hb
  by_cases t0 : t = 0
  · subst t0
    rw [onEdge_zero, ← hit]
    exact prismFaceDelta_node F hf hl (by omega)
  by_cases t1 : t = 1
  · subst t1
    rw [onEdge_one, ← hjh]
    exact prismFaceDelta_node F hf hl (by omega)
  rw [prismFaceDelta_eq, prism_edge_params T he hf hi hj hit hjh hb t, prism_point T.V hf (prism_onEdge_plane he hf hb t),
    I f hf hl e he hc i (by omega) j (by omega) hit hjh t h0 h1, Finset.sum_eq_single k]
  · rw [hke, prismTerm, if_pos hc, prismEdgeOnFace_self he hf hb t0 t1, prismEdgeCoeff_self he t, prismLinear_edge T.V he, edgeDelta,
      edgePoint, if_pos hc, lerp1_between]
    simp
  · intro k' hk4 hne
    rw [Finset.mem_range] at hk4
    exact prismTerm_zero F f _ (hfc k' hk4).1
      (prismEdgeOnFace_other he (hfc k' hk4).1 hf hb (hfc k' hk4).2.1 (hk' k' hk4 hne) t0 t1)
  · intro h
    exact absurd (Finset.mem_range.2 hk) h

end T8.CadGeometry
