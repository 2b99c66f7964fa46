import Verif.Props.CadGeometry
import Mathlib.Tactic.NormNum

/-!
# C64: where curved tetrahedra leave their surfaces
-/

namespace T8.CadGeometry
open T8 T8.CadGeometry.Spec

theorem vec2 (a b c : ℝ) : (![a, b, c] : Fin 3 → ℝ) 2 = c := rfl

/-- The reference tetrahedron with curve 1 at edge `e` and surface 1 at face `f`. -/
def bent (e f : Nat) : Tree where
  V := corner .tet
  edges i := if i = e then 1 else 0
  faces i := if i = f then 1 else 0
  edgeParams _ i := ![(i : ℝ), 0]
  faceParams _ i := if i = 0 then ![0, 0] else if i = 1 then ![1, 0] else ![1, 1]

/-- A kernel with one curve and one surface. -/
def kernel (c : ℝ → Pt) (s : ℝ → ℝ → Pt) : Cad where
  curve _ u := c u
  surface _ u v := s u v
  toFace _ _ _ _ := 0

/-- What is asked of curves and surfaces, and the face is linked, and still a point of the face does not lie on the surface. -/
def Leaves (G : Cad) (T : Tree) (f : Nat) : Prop :=
  Fits G T .tet ∧ Inside G T .tet ∧ Seamed T .tet ∧ 0 < T.faces f ∧
    ∃ r, Inner .tet r ∧ InPlane .tet f r ∧ ∀ p : Prm, evaluateTet G T r ≠ G.surf (T.faces f) p

theorem bent_value (G : Cad) {e f : Nat} (he : e < 6) (hf : f < 4) {r : Pt} (hp : InPlane .tet f r) :
    evaluateTet G (bent e f) r = tri3 r (corner .tet) + tetEdgeFactor r e • edgeDelta G (bent e f) .tet 6 e (tetEdgeCoeff r e) +
      tetPatch G (bent e f) f r := by
  unfold evaluateTet
  simp only [addEdges_eq, addFaces_eq]
  rw [Finset.sum_eq_single (s := Finset.range 6) e, Finset.sum_eq_single (s := Finset.range 4) f]
  · rw [edgeTerm, if_pos (by simp [bent]), faceTerm, if_pos (by simp [bent]), tetFaceFactor_self hf hp, one_smul,
      tetFaceDelta_eq G _ r f hf, tetFaceIntersection_self hf hp]
    rfl
  · intro g _ hne
    exact faceTerm_zero _ _ _ _ (Or.inr (Or.inl (by simp [bent, hne])))
  · intro h; exact absurd (Finset.mem_range.2 hf) h
  · intro e' he' hne
    have := Finset.mem_range.1 he'
    rw [edgeTerm, if_neg]
    simp only [bent, hne, if_false]
    have : e' + 6 ≠ e := by omega
    simp [this]
  · intro h; exact absurd (Finset.mem_range.2 he) h

theorem bent_fits (c : ℝ → Pt) (s : ℝ → ℝ → Pt) {e f : Nat} (he : e < 6) (hf : f < 4)
    (c0 : c 0 = corner .tet (tail .tet e)) (c1 : c 1 = corner .tet (head .tet e))
    (s0 : s 0 0 = corner .tet ((cornersOf .tet f).getD 0 0)) (s1 : s 1 0 = corner .tet ((cornersOf .tet f).getD 1 0))
    (s2 : s 1 1 = corner .tet ((cornersOf .tet f).getD 2 0)) : Fits (kernel c s) (bent e f) .tet where
  curve e' he' hl := by
    have : e' = e := by
      by_contra hne
      simp [bent, hne] at hl
    subst this
    simp [kernel, bent, c0, c1]
  edgeSurface e' he' hl := by
    have : e' + 6 ≠ e := by omega
    have hlen : (ends .tet).length = 6 := rfl
    rw [hlen] at hl
    simp [bent, this] at hl
  faceSurface f' hf' hl i hi := by
    have : f' = f := by
      by_contra hne
      simp [bent, hne] at hl
    subst this
    rw [(tet_face_corner f' hf).1] at hi
    interval_cases i <;> simp only [kernel, bent, Cad.surf] <;> simp [s0, s1, s2]
  one e' he' _ := by
    have : e' + 6 ≠ e := by omega
    have hlen : (ends .tet).length = 6 := rfl
    rw [hlen]
    simp [bent, this]
  oneSurface f' _ _ e' he' _ := by
    have : e' + 6 ≠ e := by omega
    have hlen : (ends .tet).length = 6 := rfl
    rw [hlen]
    simp [bent, this]

theorem bent_seamed (e f : Nat) : Seamed (bent e f) .tet := by
  intro f1 _ f2 _ hne h1 h2
  have a : f1 = f := by
    by_contra hn
    simp [bent, hn] at h1
  have b : f2 = f := by
    by_contra hn
    simp [bent, hn] at h2
  exact absurd (a.trans b.symm) hne

/-- A curve that lies in the surface at all parameters. -/
theorem bent_inside (c : ℝ → Pt) (s : ℝ → ℝ → Pt) {e f : Nat}
    (h : ∀ i < 3, ∀ j < 3, (cornersOf .tet f).getD i 0 = tail .tet e → (cornersOf .tet f).getD j 0 = head .tet e → ∀ t : ℝ,
      (kernel c s).surf 1 ((1 - t) • (bent e f).faceParams f i + t • (bent e f).faceParams f j) = c t) (hf : f < 4) :
    Inside (kernel c s) (bent e f) .tet := by
  intro f' _ hl e' _ hc i hi j hj hit hjh t _ _
  have a : f' = f := by
    by_contra hn
    simp [bent, hn] at hl
  have b : e' = e := by
    by_contra hn
    simp [bent, hn] at hc
  subst a b
  rw [(tet_face_corner f' hf).1] at hi hj
  have := h i hi j hj hit hjh t
  have ht : between (bent e' f') e' t = t := by simp [between, bent]
  rw [ht]
  simpa [bent, kernel] using this

/-- A surface through vertices 0, 1 and 3. -/
noncomputable def surface2 : ℝ → ℝ → Pt := fun u v => ![u, v, v + u * (1 - u)]

/-- A surface through vertices 0, 2 and 3. -/
noncomputable def surface1 : ℝ → ℝ → Pt := fun u v => ![u, v, u + v * (1 - v)]

/-- The plane of face 2. -/
noncomputable def plane2 : ℝ → ℝ → Pt := fun u v => ![u, v, v]

/-- **C64 fails for tetrahedra**: a curve at edge 0 and a surface that contains it at face 2.  The displacement of the edge is scaled with the factors of both
faces of the edge in the loop over the edges and with the factor of face 2 in the loop over the faces, but the factor of face 3 is not 1 on face 2. -/
theorem C64_tet_face_false : Leaves (kernel (fun t => surface2 t 0) surface2) (bent 0 2) 2 := by
  refine ⟨bent_fits _ _ (by decide) (by decide) ?_ ?_ ?_ ?_ ?_, bent_inside _ _ ?_ (by decide), bent_seamed _ _, by simp [bent],
    ![1 / 2, 1 / 4, 1 / 4], ?_, ?_, ?_⟩
  · funext i; fin_cases i <;> simp [surface2, corner, tail, ends]
  · funext i; fin_cases i <;> simp [surface2, corner, head, ends]
  · funext i; fin_cases i <;> simp [surface2, corner, cornersOf, faceCorners]
  · funext i; fin_cases i <;> simp [surface2, corner, cornersOf, faceCorners]
  · funext i; fin_cases i <;> simp [surface2, corner, cornersOf, faceCorners]
  · intro i hi j hj h1 h2 t
    interval_cases i <;> interval_cases j <;> first
      | exact absurd h1 (by decide)
      | exact absurd h2 (by decide)
      | simp [bent, kernel, Cad.surf]
  · norm_num [Inner, vec2]
  · norm_num [InPlane, vec2]
  · intro p h
    rw [bent_value _ (by decide) (by decide) (by norm_num [InPlane, vec2])] at h
    have h0 := congrFun h 0
    have h1 := congrFun h 1
    have h2 := congrFun h 2
    norm_num [tri3, tetEdgeFactor, tetEdgeOnFace, tetMaxOrth, tetOrth, edgeToFace, entry, edgeDelta, edgePoint, bent, tetEdgeCoeff, at3,
      tetPatch, faceEdges, Finset.sum_range_succ, kernel, surface2, Cad.surf, lerp1, tri2, getEdgeVertices, edgeVertices, corner,
      tetFaceCoord, vec2] at h0 h1 h2
    rw [← h0, ← h1] at h2
    norm_num at h2

/-- The same for edge 2 and face 2. -/
theorem C64_tet_face_edge2_false : Leaves (kernel (fun t => surface2 t t) surface2) (bent 2 2) 2 := by
  refine ⟨bent_fits _ _ (by decide) (by decide) ?_ ?_ ?_ ?_ ?_, bent_inside _ _ ?_ (by decide), bent_seamed _ _, by simp [bent],
    ![1 / 2, 1 / 4, 1 / 4], ?_, ?_, ?_⟩
  · funext i; fin_cases i <;> simp [surface2, corner, tail, ends]
  · funext i; fin_cases i <;> simp [surface2, corner, head, ends]
  · funext i; fin_cases i <;> simp [surface2, corner, cornersOf, faceCorners]
  · funext i; fin_cases i <;> simp [surface2, corner, cornersOf, faceCorners]
  · funext i; fin_cases i <;> simp [surface2, corner, cornersOf, faceCorners]
  · intro i hi j hj h1 h2 t
    interval_cases i <;> interval_cases j <;> first
      | exact absurd h1 (by decide)
      | exact absurd h2 (by decide)
      | simp [bent, kernel, Cad.surf]
  · norm_num [Inner, vec2]
  · norm_num [InPlane, vec2]
  · intro p h
    rw [bent_value _ (by decide) (by decide) (by norm_num [InPlane, vec2])] at h
    have h0 := congrFun h 0
    have h1 := congrFun h 1
    have h2 := congrFun h 2
    norm_num [tri3, tetEdgeFactor, tetEdgeOnFace, tetMaxOrth, tetOrth, edgeToFace, entry, edgeDelta, edgePoint, bent, tetEdgeCoeff, at3,
      tetPatch, faceEdges, Finset.sum_range_succ, kernel, surface2, Cad.surf, lerp1, tri2, getEdgeVertices, edgeVertices, corner,
      tetFaceCoord, vec2] at h0 h1 h2
    rw [← h0, ← h1] at h2
    norm_num at h2

/-- The same for edge 5 and face 1. -/
theorem C64_tet_face_edge5_false : Leaves (kernel (fun t => surface1 1 t) surface1) (bent 5 1) 1 := by
  refine ⟨bent_fits _ _ (by decide) (by decide) ?_ ?_ ?_ ?_ ?_, bent_inside _ _ ?_ (by decide), bent_seamed _ _, by simp [bent],
    ![3 / 4, 1 / 2, 3 / 4], ?_, ?_, ?_⟩
  · funext i; fin_cases i <;> simp [surface1, corner, tail, ends]
  · funext i; fin_cases i <;> simp [surface1, corner, head, ends]
  · funext i; fin_cases i <;> simp [surface1, corner, cornersOf, faceCorners]
  · funext i; fin_cases i <;> simp [surface1, corner, cornersOf, faceCorners]
  · funext i; fin_cases i <;> simp [surface1, corner, cornersOf, faceCorners]
  · intro i hi j hj h1 h2 t
    interval_cases i <;> interval_cases j <;> first
      | exact absurd h1 (by decide)
      | exact absurd h2 (by decide)
      | simp [bent, kernel, Cad.surf]
  · norm_num [Inner, vec2]
  · norm_num [InPlane, vec2]
  · intro p h
    rw [bent_value _ (by decide) (by decide) (by norm_num [InPlane, vec2])] at h
    have h0 := congrFun h 0
    have h1 := congrFun h 1
    have h2 := congrFun h 2
    norm_num [tri3, tetEdgeFactor, tetEdgeOnFace, tetMaxOrth, tetOrth, edgeToFace, entry, edgeDelta, edgePoint, bent, tetEdgeCoeff, at3,
      tetPatch, faceEdges, Finset.sum_range_succ, kernel, surface1, Cad.surf, lerp1, tri2, getEdgeVertices, edgeVertices, corner,
      tetFaceCoord, vec2] at h0 h1 h2
    rw [← h0, ← h1] at h2
    norm_num at h2

/-- **C64 fails for tetrahedra**: a curve at edge 1 moves points of face 2, to which the edge does not belong. -/
theorem C64_tet_other_edge_false : Leaves (kernel (fun t => ![t, t * (1 - t), t]) plane2) (bent 1 2) 2 := by
  refine ⟨bent_fits _ _ (by decide) (by decide) ?_ ?_ ?_ ?_ ?_, bent_inside _ _ ?_ (by decide), bent_seamed _ _, by simp [bent],
    ![1 / 2, 1 / 4, 1 / 4], ?_, ?_, ?_⟩
  · funext i; fin_cases i <;> simp [plane2, corner, tail, ends]
  · funext i; fin_cases i <;> simp [plane2, corner, head, ends]
  · funext i; fin_cases i <;> simp [plane2, corner, cornersOf, faceCorners]
  · funext i; fin_cases i <;> simp [plane2, corner, cornersOf, faceCorners]
  · funext i; fin_cases i <;> simp [plane2, corner, cornersOf, faceCorners]
  · intro i hi j hj h1 h2 t
    interval_cases i <;> interval_cases j <;> first
      | exact absurd h1 (by decide)
      | exact absurd h2 (by decide)
      | simp [bent, kernel, Cad.surf]
  · norm_num [Inner, vec2]
  · norm_num [InPlane, vec2]
  · intro p h
    rw [bent_value _ (by decide) (by decide) (by norm_num [InPlane, vec2])] at h
    have h0 := congrFun h 0
    have h1 := congrFun h 1
    have h2 := congrFun h 2
    norm_num [tri3, tetEdgeFactor, tetEdgeOnFace, tetMaxOrth, tetOrth, edgeToFace, entry, edgeDelta, edgePoint, bent, tetEdgeCoeff, at3,
      tetPatch, faceEdges, Finset.sum_range_succ, kernel, plane2, Cad.surf, lerp1, tri2, getEdgeVertices, edgeVertices, corner,
      tetFaceCoord, vec2] at h0 h1 h2
    rw [← h1] at h2
    norm_num at h2

/-! ### The hypotheses can be met -/

/-- The unit cube with curve 1 at edge 0 and surface 1 at face 2. -/
def bentCube : Tree where
  V := corner .hex
  edges i := if i = 0 then 1 else 0
  faces i := if i = 2 then 1 else 0
  edgeParams _ i := ![(i : ℝ), 0]
  faceParams _ i := if i = 0 then ![0, 0] else if i = 1 then ![1, 0] else if i = 2 then ![0, 1] else ![1, 1]

/-- A curve in a surface. -/
def cubeKernel : Cad where
  curve _ u := ![u, u * (1 - u), 0]
  surface _ u v := ![u, u * (1 - u), v]
  toFace _ _ u _ := ![u, 0]

theorem bentCube_edge {e : Nat} (h : 0 < bentCube.edges e) : e = 0 := by
  by_contra hn
  simp [bentCube, hn] at h

theorem bentCube_face {f : Nat} (h : 0 < bentCube.faces f) : f = 2 := by
  by_contra hn
  simp [bentCube, hn] at h

/-- Beside `C64_hex_edge` and `C64_hex_face`. -/
example : Fits cubeKernel bentCube .hex ∧ Converts cubeKernel bentCube .hex ∧ Seamed bentCube .hex ∧ 0 < bentCube.edges 0 ∧
    0 < bentCube.faces 2 ∧ evaluateHex cubeKernel bentCube (onEdge .hex 0 (1 / 2)) = ![1 / 2, 1 / 4, 0] := by
  have hlen : (ends .hex).length = 12 := rfl
  have F : Fits cubeKernel bentCube .hex := by
    refine ⟨?_, ?_, ?_, ?_, ?_⟩
    · intro e _ h
      obtain rfl := bentCube_edge h
      constructor <;> funext i <;> fin_cases i <;> simp [cubeKernel, bentCube, corner, tail, head, ends]
    · intro e _ h
      have := bentCube_edge h
      rw [hlen] at this
      omega
    · intro f _ h i hi
      obtain rfl := bentCube_face h
      simp [cornersOf, faceCorners] at hi
      interval_cases i <;> funext j <;> fin_cases j <;> simp [Cad.surf, cubeKernel, bentCube, corner, cornersOf, faceCorners]
    · intro e _ _
      rw [hlen]
      simp [bentCube]
    · intro f _ _ e _ _
      rw [hlen]
      simp [bentCube]
  have C : Converts cubeKernel bentCube .hex := by
    refine ⟨?_, ?_⟩
    · intro f _ hf e _ _ he t _ _
      funext j
      fin_cases j <;> simp [Cad.surf, cubeKernel]
    · intro f _ hf e _ he i hi j hj h1 h2
      obtain rfl := bentCube_edge he
      obtain rfl := bentCube_face hf
      simp [cornersOf, faceCorners] at hi hj
      interval_cases i <;> interval_cases j <;> first
        | exact absurd h1 (by decide)
        | exact absurd h2 (by decide)
        | simp [cubeKernel, bentCube]
  have S : Seamed bentCube .hex := by
    intro f _ g _ hne h1 h2
    exact absurd ((bentCube_face h1).trans (bentCube_face h2).symm) hne
  refine ⟨F, C, S, by simp [bentCube], by simp [bentCube], ?_⟩
  rw [C64_hex_edge F C (by decide) (by norm_num) (by norm_num) (Or.inl (by simp [bentCube]))]
  funext i
  fin_cases i <;> norm_num [edgeTarget, between, cubeKernel, bentCube, vec2]

/-- Beside `C64_tet_edge` and `C64_tet_face_partial`: a curve at edge 1 in a surface at face 3. -/
example : ∃ (G : Cad) (T : Tree), Fits G T .tet ∧ Inside G T .tet ∧ Seamed T .tet ∧ 0 < T.faces 3 ∧ 0 < T.edges 1 ∧ TetRegular T 3 := by
  refine ⟨kernel (fun t => ![t, t * (1 - t), t]) (fun u v => ![u, v * (1 - v), v]), bent 1 3,
    bent_fits _ _ (by decide) (by decide) ?_ ?_ ?_ ?_ ?_, bent_inside _ _ ?_ (by decide), bent_seamed _ _, by simp [bent], by simp [bent], ?_⟩
  · funext i; fin_cases i <;> simp [corner, tail, ends]
  · funext i; fin_cases i <;> simp [corner, head, ends]
  · funext i; fin_cases i <;> simp [corner, cornersOf, faceCorners]
  · funext i; fin_cases i <;> simp [corner, cornersOf, faceCorners]
  · funext i; fin_cases i <;> simp [corner, cornersOf, faceCorners]
  · intro i hi j hj h1 h2 t
    interval_cases i <;> interval_cases j <;> first
      | exact absurd h1 (by decide)
      | exact absurd h2 (by decide)
      | simp [bent, kernel, Cad.surf]
  · simp [TetRegular]

end T8.CadGeometry
