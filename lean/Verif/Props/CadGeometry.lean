import Verif.Lemmas.CadGeometry

/-!
# C64: trees with linked curves and surfaces
-/

namespace T8.CadGeometry
open T8 T8.CadGeometry.Spec

/-! ### Hexahedra -/

theorem hex_edge_sum {G : Cad} {T : Tree} (F : Fits G T .hex) {e : Nat} (he : e < 12) (t : ℝ) :
    ∑ e' ∈ Finset.range 12, edgeTerm G T .hex 12 (fun e' => at3 (onEdge .hex e t) (e' / 4)) (hexEdgeFactor (onEdge .hex e t)) e' =
      edgeTarget G T .hex e t - ((1 - t) • T.V (tail .hex e) + t • T.V (head .hex e)) := by
  rw [Finset.sum_eq_single e]
  · have hc : at3 (onEdge .hex e t) (e / 4) = t := by
      interval_cases e <;> simp [at3, onEdge, corner, tail, head, ends]
    have hs := edgeTerm_self (G := G) (T := T) (c := .hex) (fun e' => at3 (onEdge .hex e t) (e' / 4)) (hexEdgeFactor (onEdge .hex e t)) he
      (by interval_cases e <;> simp [hexEdgeFactor, at3, onEdge, corner, tail, head, ends])
    simp only [hc] at hs
    exact hs
  · intro e' he' hne
    rw [Finset.mem_range] at he'
    refine edgeTerm_zero (c := .hex) F _ _ he' ?_
    interval_cases e <;> interval_cases e' <;>
      first
        | exact absurd rfl hne
        | (left; simp [hexEdgeFactor, at3, onEdge, corner, tail, head, ends]; done)
        | (right; left; simp [at3, onEdge, corner, tail, head, ends]; done)
        | (right; right; simp [at3, onEdge, corner, tail, head, ends]; done)
  · intro h
    exact absurd (Finset.mem_range.2 he) h

theorem hex_edge_faces {G : Cad} {T : Tree} (F : Fits G T .hex) (C : Converts G T .hex) {e : Nat} (he : e < 12) {t : ℝ} (h0 : 0 ≤ t)
    (h1 : t ≤ 1) (h : 0 < T.edges e ∨ ∀ f < 6, Borders .hex e f → T.faces f ≤ 0) {f : Nat} (hf : f < 6) :
    faceTerm T (hexFaceDelta G T (onEdge .hex e t)) (hexFaceFactor (onEdge .hex e t)) f = 0 := by
  apply faceTerm_zero
  by_cases hl : T.faces f ≤ 0
  · exact Or.inr (Or.inl hl)
  have hl' : 0 < T.faces f := by omega
  by_cases hb : Borders .hex e f
  · have hc : 0 < T.edges e := h.resolve_right fun h' => hl (h' f hf hb)
    refine Or.inr (Or.inr ?_)
    have hk : ∃ k < 4, entry (faceEdges .hex) f k = e := by
      clear h h0 h1 hl hl' hc F C
      revert hb
      interval_cases e <;> interval_cases f <;> decide
    obtain ⟨k, hk4, hk⟩ := hk
    refine hexFaceDelta_edge F C _ hf hl' hk4 (by rw [hk]; exact hc) h0 h1 ?_
    interval_cases f <;> interval_cases k <;> (subst hk; simp [at3, low, high, onEdge, corner, tail, head, ends, faceEdges, entry])
  · interval_cases e <;> interval_cases f <;>
      first
        | exact absurd (by decide) hb
        | (left; simp [hexFaceFactor, at3, onEdge, corner, tail, head, ends]; done)
        | (right; right
           refine hexFaceDelta_node F C _ (by decide) hl' ?_ ?_ <;> simp [at3, low, high, onEdge, corner, tail, head, ends])

/-- **C64** (hexahedra, edges).  At the points of an edge the geometry is the curve or surface that is linked to the edge, at the parameter between the
parameters of its vertices.  If nothing is linked to the edge and its faces, it is the straight line. -/
theorem C64_hex_edge {G : Cad} {T : Tree} (F : Fits G T .hex) (C : Converts G T .hex) {e : Nat} (he : e < 12) {t : ℝ} (h0 : 0 ≤ t)
    (h1 : t ≤ 1) (h : 0 < T.edges e ∨ ∀ f < 6, Borders .hex e f → T.faces f ≤ 0) :
    evaluateHex G T (onEdge .hex e t) = edgeTarget G T .hex e t := by
  unfold evaluateHex
  simp only [addEdges_eq, addFaces_eq]
  rw [hex_edge_sum F he t, Finset.sum_eq_zero fun f hf => hex_edge_faces F C he h0 h1 h (Finset.mem_range.1 hf), add_zero]
  have hlin : lerp3 (onEdge .hex e t) T.V = (1 - t) • T.V (tail .hex e) + t • T.V (head .hex e) := by
    funext i
    interval_cases e <;> simp [lerp3, onEdge, corner, tail, head, ends] <;> ring
  rw [hlin]
  abel

/-- The edges of a face add their displacement with the weight of the patch. -/
theorem hex_face_sum {G : Cad} {T : Tree} (F : Fits G T .hex) {f : Nat} (hf : f < 6) (hl : 0 < T.faces f) {r : Pt} (hr : InPlane .hex f r) :
    ∑ e ∈ Finset.range 12, edgeTerm G T .hex 12 (fun e => at3 r (e / 4)) (hexEdgeFactor r) e =
      (1 - at3 r (low f)) • dPoint G T f 0 (at3 r (high f)) + at3 r (low f) • dPoint G T f 1 (at3 r (high f)) +
      (1 - at3 r (high f)) • dPoint G T f 2 (at3 r (low f)) + at3 r (high f) • dPoint G T f 3 (at3 r (low f)) := by
  have hz : ∀ e < 12, hexEdgeFactor r e = 0 ∨ at3 r (e / 4) = 0 ∨ at3 r (e / 4) = 1 →
      edgeTerm G T .hex 12 (fun e => at3 r (e / 4)) (hexEdgeFactor r) e = 0 := fun e he h => edgeTerm_zero (c := .hex) F _ _ he h
  have hs : ∀ k < 4, edgeTerm G T .hex 12 (fun e => at3 r (e / 4)) (hexEdgeFactor r) (entry (faceEdges .hex) f k) =
      hexEdgeFactor r (entry (faceEdges .hex) f k) • dPoint G T f k (at3 r (entry (faceEdges .hex) f k / 4)) := by
    intro k hk
    obtain ⟨he, _, _, _, _, hb⟩ := hex_face_edge f hf k hk
    have hn := F.oneSurface f hf hl _ he hb
    have hn' : ¬ 0 < T.edges (entry (faceEdges .hex) f k + 12) := not_lt.2 hn
    obtain ⟨v0, v1⟩ := hex_edge_corner f k T.V hf hk
    simp only [edgeTerm, dPoint, edgeDelta, edgePoint, hn', or_false, lerp1_between]
    split
    · congr 2
      funext i
      simp only [lerp1, v0, v1, getEdgeVertices_zero .hex T.V _ he, getEdgeVertices_one .hex T.V _ he]
    · simp
  generalize edgeTerm G T .hex 12 (fun e => at3 r (e / 4)) (hexEdgeFactor r) = E at hz hs ⊢
  have s0 := hs 0 (by decide)
  have s1 := hs 1 (by decide)
  have s2 := hs 2 (by decide)
  have s3 := hs 3 (by decide)
  interval_cases f <;> simp [InPlane] at hr <;> simp [faceEdges, entry] at s0 s1 s2 s3 <;>
    simp only [Finset.sum_range_succ, Finset.sum_range_zero, s0, s1, s2, s3] <;>
    simp [hz, hexEdgeFactor, at3, low, high, hr] <;> abel

/-- The parameters of a point on a linked face: between those of the four vertices, displaced by the curves of the edges. -/
noncomputable def hexFaceParams (G : Cad) (T : Tree) (f : Nat) (r : Pt) : Prm :=
  patch (T.faceParams f) (dParam G T f) (at3 r (low f)) (at3 r (high f))

theorem low_plane {f : Nat} (hf : f < 6) {r : Pt} (hr : Inner .hex r) :
    (0 ≤ at3 r (low f) ∧ at3 r (low f) ≤ 1) ∧ 0 ≤ at3 r (high f) ∧ at3 r (high f) ≤ 1 := by
  have h0 := hr 0
  have h1 := hr 1
  have h2 := hr 2
  interval_cases f <;> simp [at3, low, high, h0, h1, h2]

/-- The geometry at a linked face. -/
theorem hex_face {G : Cad} {T : Tree} (F : Fits G T .hex) (C : Converts G T .hex) (S : Seamed T .hex) {f : Nat} (hf : f < 6)
    (hl : 0 < T.faces f) {r : Pt} (hr : Inner .hex r) (hp : InPlane .hex f r) :
    evaluateHex G T r = G.surf (T.faces f) (hexFaceParams G T f r) := by
  unfold evaluateHex
  simp only [addEdges_eq, addFaces_eq]
  rw [hex_face_sum F hf hl hp]
  have hother : ∀ g < 6, g ≠ f → faceTerm T (hexFaceDelta G T r) (hexFaceFactor r) g = 0 := by
    intro g hg hgf
    apply faceTerm_zero
    by_cases hlg : T.faces g ≤ 0
    · exact Or.inr (Or.inl hlg)
    have hlg' : 0 < T.faces g := by omega
    by_cases ho : f / 2 = g / 2
    · left
      interval_cases f <;> interval_cases g <;> first | omega | simp_all [InPlane, hexFaceFactor, at3]
    · right; right
      have hk : ∃ k < 4, Borders .hex (entry (faceEdges .hex) g k) f ∧
          (k / 2 = 0 ∧ low g = f / 2 ∧ k % 2 = f % 2 ∨ k / 2 = 1 ∧ high g = f / 2 ∧ k % 2 = f % 2) := by
        clear hr hp hlg hlg' hl F C S
        revert ho hgf
        interval_cases f <;> interval_cases g <;> decide
      obtain ⟨k, hk4, hb, hk⟩ := hk
      obtain ⟨he, _, _, _, _, hb'⟩ := hex_face_edge g hg k hk4
      have hc := S f hf g hg hgf.symm hl hlg' _ he hb hb'
      obtain ⟨⟨a0, a1⟩, b0, b1⟩ := low_plane hg hr
      have hv : at3 r (f / 2) = (f % 2 : Nat) := by
        interval_cases f <;> simpa [InPlane, at3] using hp
      rcases hk with ⟨hk2, hlow, hkm⟩ | ⟨hk2, hlow, hkm⟩
      · refine hexFaceDelta_edge F C r hg hlg' hk4 hc b0 b1 ?_
        rw [hlow, hv, ← hkm]
        have : k = 0 ∨ k = 1 := by omega
        rcases this with rfl | rfl <;> simp
      · refine hexFaceDelta_edge F C r hg hlg' hk4 hc a0 a1 ?_
        rw [hlow, hv, ← hkm]
        have : k = 2 ∨ k = 3 := by omega
        rcases this with rfl | rfl <;> simp
  rw [Finset.sum_eq_single f (fun g hg hgf => hother g (Finset.mem_range.1 hg) hgf) fun h => absurd (Finset.mem_range.2 hf) h]
  have hself : faceTerm T (hexFaceDelta G T r) (hexFaceFactor r) f = hexFaceDelta G T r f := by
    have h1 : hexFaceFactor r f = 1 := by
      interval_cases f <;> simp_all [InPlane, hexFaceFactor, at3]
    simp [faceTerm, hl, h1]
  rw [hself, hexFaceDelta_eq G T r f hf]
  have hlin : lerp3 r T.V = lerp2 (at3 r (low f)) (at3 r (high f)) (getFaceVertices .hex T.V f) := by
    funext i
    interval_cases f <;> simp [InPlane] at hp <;>
      simp [lerp3, lerp2, at3, low, high, getFaceVertices, Neighbor.faceVertices, entry, hp] <;> ring
  rw [hlin]
  unfold hexFaceParams
  unfold patch
  abel

/-- **C64** (hexahedra, faces).  At the points of a face with a linked surface the geometry is a point of the surface, provided that linked faces meet in
edges with curves.  If no edge of the face has a curve, its parameters are those between the stored parameters of the four vertices. -/
theorem C64_hex_face {G : Cad} {T : Tree} (F : Fits G T .hex) (C : Converts G T .hex) (S : Seamed T .hex) {f : Nat} (hf : f < 6)
    (hl : 0 < T.faces f) {r : Pt} (hr : Inner .hex r) (hp : InPlane .hex f r) :
    ∃ p : Prm, evaluateHex G T r = G.surf (T.faces f) p ∧
      ((∀ e < 12, Borders .hex e f → T.edges e ≤ 0) → p = faceBetween T .hex f r) := by
  refine ⟨_, hex_face F C S hf hl hr hp, fun h => ?_⟩
  have hd : ∀ k < 4, ∀ t : ℝ, dParam G T f k t = 0 := by
    intro k hk t
    obtain ⟨he, _, _, _, _, hb⟩ := hex_face_edge f hf k hk
    have := h _ he hb
    simp only [dParam, not_lt.2 this, if_false]
  funext i
  simp only [hexFaceParams, patch, hd 0 (by decide), hd 1 (by decide), hd 2 (by decide), hd 3 (by decide)]
  interval_cases f <;> simp [InPlane] at hp <;>
    simp [faceBetween, cornersOf, faceCorners, Finset.sum_range_succ, weight, lerp2, at3, low, high, hp] <;> ring

/-! ### Tetrahedra -/

/-- The factor of a face vanishes at the opposite vertex. -/
theorem tetFaceFactor_opposite (f : Nat) (hf : f < 4) : tetFaceFactor (corner .tet f) f = 0 := by
  have h : cornerRef .tet f = corner .tet f := by interval_cases f <;> rfl
  simp [tetFaceFactor, h, dot]

/-- The factor of a face is 1 on the face. -/
theorem tetFaceFactor_self {f : Nat} (hf : f < 4) {r : Pt} (hp : InPlane .tet f r) : tetFaceFactor r f = 1 := by
  simp only [tetFaceFactor, tetFaceIntersection_self hf hp]
  have hpos : 0 < dot (cornerRef .tet f - r) (cornerRef .tet f - r) := by
    have hne : cornerRef .tet f - r ≠ 0 := by
      intro h
      have h0 := congrFun h 0
      have h1 := congrFun h 1
      have h2 := congrFun h 2
      interval_cases f <;> simp [InPlane] at hp <;> simp [cornerRef] at h0 h1 h2 <;> linarith
    generalize cornerRef .tet f - r = v at hne ⊢
    unfold dot
    by_contra hle
    apply hne
    have a0 := mul_self_nonneg (v 0)
    have a1 := mul_self_nonneg (v 1)
    have a2 := mul_self_nonneg (v 2)
    funext i
    fin_cases i
    · exact mul_self_eq_zero.1 (by show v 0 * v 0 = 0; linarith)
    · exact mul_self_eq_zero.1 (by show v 1 * v 1 = 0; linarith)
    · exact mul_self_eq_zero.1 (by show v 2 * v 2 = 0; linarith)
  rw [div_self (Real.sqrt_ne_zero'.2 hpos), one_mul]

/-- The ray from a vertex through a point of another face meets the opposite face in the common edge. -/
theorem tetFaceIntersection_other {f g : Nat} (hf : f < 4) (hg : g < 4) (hne : g ≠ f) {r : Pt} (hr : Inner .tet r) (hp : InPlane .tet f r)
    (ho : r ≠ corner .tet g) :
    ∃ e < 6, Borders .tet e f ∧ Borders .tet e g ∧ ∃ t, 0 ≤ t ∧ t ≤ 1 ∧ tetFaceIntersection g r = onEdge .tet e t := by
  obtain ⟨r0, r1, r2, r3⟩ := hr
  have ho' : ¬ (r 0 = cornerRef .tet g 0 ∧ r 1 = cornerRef .tet g 1 ∧ r 2 = cornerRef .tet g 2) := by
    rintro ⟨a, b, c⟩
    apply ho
    have h : cornerRef .tet g = corner .tet g := by interval_cases g <;> rfl
    rw [← h]
    funext i
    fin_cases i
    · exact a
    · exact b
    · exact c
  have hpos : 0 < 1 - weight .tet g r := by
    by_contra hle
    apply ho'
    interval_cases g <;> simp [weight] at hle <;> simp only [cornerRef] <;> refine ⟨?_, ?_, ?_⟩ <;> simp <;> linarith
  have key : ∀ (e u v : Nat), e < 6 → Borders .tet e f → Borders .tet e g → tail .tet e = u → head .tet e = v →
      0 ≤ weight .tet u r → 0 ≤ weight .tet v r → weight .tet u r + weight .tet v r = 1 - weight .tet g r →
      (weight .tet g r • corner .tet g + weight .tet u r • corner .tet u + weight .tet v r • corner .tet v = r) →
      tetFaceIntersection g r = corner .tet g + (1 - weight .tet g r)⁻¹ • (r - corner .tet g) →
      ∃ e < 6, Borders .tet e f ∧ Borders .tet e g ∧ ∃ t, 0 ≤ t ∧ t ≤ 1 ∧ tetFaceIntersection g r = onEdge .tet e t := by
    intro e u v he hbf hbg hu hv wu wv hsum hcomb hq
    have hn : (1 - weight .tet g r) ≠ 0 := hpos.ne'
    refine ⟨e, he, hbf, hbg, weight .tet v r / (1 - weight .tet g r), div_nonneg wv hpos.le, ?_, ?_⟩
    · rw [div_le_one hpos]; linarith
    · rw [hq, onEdge, hu, hv]
      funext i
      have hi := congrFun hcomb i
      simp only [Pi.add_apply, Pi.smul_apply, Pi.sub_apply, smul_eq_mul] at hi ⊢
      have hu' : weight .tet u r = 1 - weight .tet g r - weight .tet v r := by linarith
      rw [hu'] at hi
      field_simp
      linarith
  have hq : tetFaceIntersection g r = corner .tet g + (1 - weight .tet g r)⁻¹ • (r - corner .tet g) := by
    unfold tetFaceIntersection
    rw [if_neg ho']
    have h : cornerRef .tet g = corner .tet g := by interval_cases g <;> rfl
    have hn : (1 - weight .tet g r) ≠ 0 := hpos.ne'
    have hd : dot (getFaceVertices .tet (cornerRef .tet) g 0 - cornerRef .tet g) (tetNormal g) / dot (r - cornerRef .tet g) (tetNormal g) =
        (1 - weight .tet g r)⁻¹ := by
      clear key
      interval_cases g <;> simp [weight] at hn ⊢ <;>
        simp [dot, getFaceVertices, Neighbor.faceVertices, entry, cornerRef, tetNormal]
      · rw [show r 0 - 1 + -r 2 = -(1 - (r 0 - r 2)) by ring, neg_div_neg_eq, one_div]
      · rw [show -r 1 + (r 2 - 1) = -(1 - (r 2 - r 1)) by ring, neg_div_neg_eq, one_div]
      · rw [show r 1 - 1 = -(1 - r 1) by ring, neg_div_neg_eq, one_div]
    rw [h] at hd
    simp only [h, hd]
  clear ho' hpos ho
  interval_cases f <;> simp [InPlane] at hp <;> interval_cases g <;> first
    | exact absurd rfl hne
    | (first
        | refine key 0 0 1 (by decide) (by decide) (by decide) rfl rfl ?_ ?_ ?_ ?_ hq
        | refine key 1 0 2 (by decide) (by decide) (by decide) rfl rfl ?_ ?_ ?_ ?_ hq
        | refine key 2 0 3 (by decide) (by decide) (by decide) rfl rfl ?_ ?_ ?_ ?_ hq
        | refine key 3 1 2 (by decide) (by decide) (by decide) rfl rfl ?_ ?_ ?_ ?_ hq
        | refine key 4 1 3 (by decide) (by decide) (by decide) rfl rfl ?_ ?_ ?_ ?_ hq
        | refine key 5 2 3 (by decide) (by decide) (by decide) rfl rfl ?_ ?_ ?_ ?_ hq) <;>
      simp [weight] <;> first
        | linarith
        | (funext i; fin_cases i <;> simp [corner] <;> linarith)

theorem tet_onEdge_inner {e : Nat} (he : e < 6) {t : ℝ} (h0 : 0 ≤ t) (h1 : t ≤ 1) : Inner .tet (onEdge .tet e t) := by
  interval_cases e <;> simp [Inner, onEdge, corner, tail, head, ends, h0, h1]

theorem tet_onEdge_plane {e f : Nat} (he : e < 6) (hf : f < 4) (hb : Borders .tet e f) (t : ℝ) : InPlane .tet f (onEdge .tet e t) := by
  interval_cases f <;> interval_cases e <;> first
    | exact absurd hb (by decide)
    | simp [InPlane, onEdge, corner, tail, head, ends]

theorem tet_edge_sum {G : Cad} {T : Tree} (F : Fits G T .tet) {e : Nat} (he : e < 6) (t : ℝ) :
    ∑ e' ∈ Finset.range 6, edgeTerm G T .tet 6 (tetEdgeCoeff (onEdge .tet e t)) (tetEdgeFactor (onEdge .tet e t)) e' =
      edgeTarget G T .tet e t - ((1 - t) • T.V (tail .tet e) + t • T.V (head .tet e)) := by
  by_cases ht : t = 0 ∨ t = 1
  · have htarget : edgeTarget G T .tet e t = (1 - t) • T.V (tail .tet e) + t • T.V (head .tet e) := by
      unfold edgeTarget
      rcases ht with rfl | rfl
      · split
        · rename_i h; rw [between_zero, (F.curve e he h).1]; simp
        · split
          · rename_i h
            have := (F.edgeSurface e he h).1
            simp [this]
          · rfl
      · split
        · rename_i h; rw [between_one, (F.curve e he h).2]; simp
        · split
          · rename_i h
            have := (F.edgeSurface e he h).2
            simp [this]
          · rfl
    rw [htarget, sub_self]
    refine Finset.sum_eq_zero fun e' he' => edgeTerm_zero (c := .tet) F _ _ (Finset.mem_range.1 he') (Or.inr ?_)
    rcases ht with rfl | rfl
    · rw [onEdge_zero]
      exact tetEdgeCoeff_corner _ (by interval_cases e <;> decide) _ (Finset.mem_range.1 he')
    · rw [onEdge_one]
      exact tetEdgeCoeff_corner _ (by interval_cases e <;> decide) _ (Finset.mem_range.1 he')
  · push Not at ht
    obtain ⟨h0, h1⟩ := ht
    have h2 : 1 - t ≠ 0 := fun h => h1 (by linarith)
    have h3 : 1 - t ≠ 1 := fun h => h0 (by linarith)
    rw [Finset.sum_eq_single e]
    · have hs := edgeTerm_self (G := G) (T := T) (c := .tet) (tetEdgeCoeff (onEdge .tet e t)) (tetEdgeFactor (onEdge .tet e t)) he (by
        simp only [tetEdgeFactor]
        rw [tetEdgeOnFace_self he (by interval_cases e <;> decide) (by interval_cases e <;> decide) h0 h1,
          tetEdgeOnFace_self he (by interval_cases e <;> decide) (by interval_cases e <;> decide) h0 h1]
        norm_num)
      rw [tetEdgeCoeff_self he t] at hs
      exact hs
    · intro e' he' hne
      rw [Finset.mem_range] at he'
      refine edgeTerm_zero (c := .tet) F _ _ he' ?_
      unfold tetEdgeFactor tetEdgeOnFace tetEdgeCoeff
      interval_cases e <;> interval_cases e' <;> first
        | exact absurd rfl hne
        | simp [tetMaxOrth, tetOrth, at3, onEdge, corner, tail, head, ends, edgeToFace, entry, h0, h1, h2, h3]
    · intro h
      exact absurd (Finset.mem_range.2 he) h

/-- **C64** (tetrahedra, edges).  At the points of an edge the geometry is the curve or surface that is linked to the edge, at the parameter between the
parameters of its vertices.  If nothing is linked to the edge and its faces, it is the straight line. -/
theorem C64_tet_edge {G : Cad} {T : Tree} (F : Fits G T .tet) (I : Inside G T .tet) {e : Nat} (he : e < 6) {t : ℝ} (h0 : 0 ≤ t)
    (h1 : t ≤ 1) (h : 0 < T.edges e ∨ ∀ f < 4, Borders .tet e f → T.faces f ≤ 0) :
    evaluateTet G T (onEdge .tet e t) = edgeTarget G T .tet e t := by
  unfold evaluateTet
  simp only [addEdges_eq, addFaces_eq]
  rw [tet_edge_sum F he t, Finset.sum_eq_zero, add_zero]
  · have hlin : tri3 (onEdge .tet e t) T.V = (1 - t) • T.V (tail .tet e) + t • T.V (head .tet e) := by
      funext i
      interval_cases e <;> simp [tri3, onEdge, corner, tail, head, ends] <;> ring
    rw [hlin]
    abel
  · intro f hf
    rw [Finset.mem_range] at hf
    apply faceTerm_zero
    by_cases hl : T.faces f ≤ 0
    · exact Or.inr (Or.inl hl)
    have hl' : 0 < T.faces f := by omega
    by_cases hb : Borders .tet e f
    · right; right
      rw [tetFaceDelta_eq G T _ f hf, tetFaceIntersection_self hf (tet_onEdge_plane he hf hb t)]
      exact tetPatch_edge F I he hf hl' hb (h.resolve_right fun h' => hl (h' f hf hb)) h0 h1
    · by_cases ho : onEdge .tet e t = corner .tet f
      · left
        rw [ho, tetFaceFactor_opposite f hf]
      · right; right
        rw [tetFaceDelta_eq G T _ f hf]
        -- the ray meets the face in the other vertex of the edge
        have hv : ∃ i < 3, tetFaceIntersection f (onEdge .tet e t) = corner .tet ((cornersOf .tet f).getD i 0) := by
          have hg : ∃ g < 4, ∃ g' < 4, g ≠ f ∧ g' ≠ f ∧ g ≠ g' ∧ Borders .tet e g ∧ Borders .tet e g' := by
            clear ho
            interval_cases e <;> interval_cases f <;> first
              | exact absurd (by decide) hb
              | decide
          obtain ⟨g, hg, g', hg', hgf, hgf', hgg, hbg, hbg'⟩ := hg
          have hin := tet_onEdge_inner he h0 h1
          obtain ⟨e1, he1, a1, b1, t1, _, _, q1⟩ :=
            tetFaceIntersection_other hg hf hgf.symm hin (tet_onEdge_plane he hg hbg t) ho
          obtain ⟨e2, he2, a2, b2, t2, _, _, q2⟩ :=
            tetFaceIntersection_other hg' hf hgf'.symm hin (tet_onEdge_plane he hg' hbg' t) ho
          have p1 : InPlane .tet g (tetFaceIntersection f (onEdge .tet e t)) := by rw [q1]; exact tet_onEdge_plane he1 hg a1 t1
          have p2 : InPlane .tet g' (tetFaceIntersection f (onEdge .tet e t)) := by rw [q2]; exact tet_onEdge_plane he2 hg' a2 t2
          have p3 : InPlane .tet f (tetFaceIntersection f (onEdge .tet e t)) := by rw [q1]; exact tet_onEdge_plane he1 hf b1 t1
          generalize tetFaceIntersection f (onEdge .tet e t) = q at p1 p2 p3
          clear q1 q2 a1 b1 a2 b2 he1 he2 hin ho
          have hcases : ∃ i < 3, (cornersOf .tet f).getD i 0 ≠ g ∧ (cornersOf .tet f).getD i 0 ≠ g' := by
            clear p1 p2 p3 hbg hbg' hb hl hl' h
            interval_cases f <;> interval_cases g <;> interval_cases g' <;> first | omega | decide
          obtain ⟨i, hi, n1, n2⟩ := hcases
          refine ⟨i, hi, ?_⟩
          clear hbg hbg' hb hl hl' h
          interval_cases f <;> interval_cases g <;> first
            | exact absurd rfl hgf
            | (interval_cases g' <;> first
                | exact absurd rfl hgf'
                | exact absurd rfl hgg
                | (interval_cases i <;> first
                    | exact absurd rfl n1
                    | exact absurd rfl n2
                    | (simp [InPlane] at p1 p2 p3
                       funext j
                       fin_cases j <;> simp [corner, cornersOf, faceCorners] <;> linarith)))
        obtain ⟨i, hi, hv⟩ := hv
        rw [hv]
        exact tetPatch_node F hf hl' hi

/-- The faces of a tetrahedron for which the factors of the edges fit: all edges of faces 0 and 3; face 1 if edge 5 has no curve; face 2 if edges 0 and 2
have no curve and nothing is linked to edge 1. -/
def TetRegular (T : Tree) (f : Nat) : Prop :=
  (f = 1 → T.edges 5 ≤ 0) ∧ (f = 2 → T.edges 0 ≤ 0 ∧ T.edges 2 ≤ 0 ∧ T.edges 1 ≤ 0 ∧ T.edges 7 ≤ 0)

theorem one_sub_div_self (a : ℝ) (h : a ≠ 0) : 1 - a / a = 0 := by rw [div_self h, sub_self]

theorem tet_face_sum {G : Cad} {T : Tree} (F : Fits G T .tet) {f : Nat} (hf : f < 4) (hl : 0 < T.faces f) {r : Pt} (hp : InPlane .tet f r)
    (hg : TetRegular T f) :
    ∑ e ∈ Finset.range 6, edgeTerm G T .tet 6 (tetEdgeCoeff r) (tetEdgeFactor r) e =
      ∑ k ∈ Finset.range 3, if 0 < T.edges (((faceEdges .tet).getD f []).getD k 0) then
        (tetEdgeOnFace (((faceEdges .tet).getD f []).getD k 0) f r * tetEdgeOnFace (((faceEdges .tet).getD f []).getD k 0) f r) •
          edgeDelta G T .tet 6 (((faceEdges .tet).getD f []).getD k 0) (tetEdgeCoeff r (((faceEdges .tet).getD f []).getD k 0)) else 0 := by
  have hz : ∀ e < 6, tetEdgeFactor r e = 0 ∨ tetEdgeCoeff r e = 0 ∨ tetEdgeCoeff r e = 1 →
      edgeTerm G T .tet 6 (tetEdgeCoeff r) (tetEdgeFactor r) e = 0 := fun e he h => edgeTerm_zero (c := .tet) F _ _ he h
  have hs : ∀ k < 3, (T.edges (((faceEdges .tet).getD f []).getD k 0) ≤ 0 ∨ tetEdgeFactor r (((faceEdges .tet).getD f []).getD k 0) =
      tetEdgeOnFace (((faceEdges .tet).getD f []).getD k 0) f r * tetEdgeOnFace (((faceEdges .tet).getD f []).getD k 0) f r) →
      edgeTerm G T .tet 6 (tetEdgeCoeff r) (tetEdgeFactor r) (((faceEdges .tet).getD f []).getD k 0) =
      if 0 < T.edges (((faceEdges .tet).getD f []).getD k 0) then
        (tetEdgeOnFace (((faceEdges .tet).getD f []).getD k 0) f r * tetEdgeOnFace (((faceEdges .tet).getD f []).getD k 0) f r) •
          edgeDelta G T .tet 6 (((faceEdges .tet).getD f []).getD k 0) (tetEdgeCoeff r (((faceEdges .tet).getD f []).getD k 0)) else 0 := by
    intro k hk h
    have hn := F.oneSurface f hf hl _ (tet_face_edge f hf k hk) (tet_face_borders f hf k hk)
    have hn' : ¬ 0 < T.edges (((faceEdges .tet).getD f []).getD k 0 + 6) := not_lt.2 hn
    simp only [edgeTerm, hn', or_false]
    by_cases hc : 0 < T.edges (((faceEdges .tet).getD f []).getD k 0)
    · rw [if_pos hc, if_pos hc, h.resolve_left (by omega)]
    · rw [if_neg hc, if_neg hc]
  generalize hE : edgeTerm G T .tet 6 (tetEdgeCoeff r) (tetEdgeFactor r) = E at hz hs ⊢
  simp only [Finset.sum_range_succ, Finset.sum_range_zero]
  obtain ⟨g1, g2⟩ := hg
  have hdead : ∀ e, T.edges e ≤ 0 → T.edges (e + 6) ≤ 0 → E e = 0 := by
    intro e h1 h2
    rw [← hE, edgeTerm, if_neg (by omega)]
  interval_cases f <;> simp [InPlane] at hp
  · -- face 0
    have z0 := hz 0 (by decide) (by simp [tetEdgeCoeff, at3, hp])
    have z1 := hz 1 (by decide) (by simp [tetEdgeCoeff, at3, hp])
    have z2 := hz 2 (by decide) (by simp [tetEdgeCoeff, at3, hp])
    have s0 := hs 0 (by decide) (Or.inr (by
      by_cases a0 : r 2 = 0
      · simp [faceEdges, tetEdgeFactor, tetEdgeOnFace, tetMaxOrth, tetOrth, edgeToFace, entry, hp, a0]
      by_cases a1 : r 2 = 1
      · simp [faceEdges, tetEdgeFactor, tetEdgeOnFace, tetMaxOrth, tetOrth, edgeToFace, entry, hp, a1]
      have a2 : 1 - r 2 ≠ 0 := fun h => a1 (by linarith)
      simp [faceEdges, tetEdgeFactor, tetEdgeOnFace, tetMaxOrth, tetOrth, edgeToFace, entry, hp, a0, a1, a2]))
    have s1 := hs 1 (by decide) (Or.inr (by
      by_cases a0 : r 2 = 0
      · simp [faceEdges, tetEdgeFactor, tetEdgeOnFace, tetMaxOrth, tetOrth, edgeToFace, entry, hp, a0]
      by_cases a1 : r 2 = 1
      · simp [faceEdges, tetEdgeFactor, tetEdgeOnFace, tetMaxOrth, tetOrth, edgeToFace, entry, hp, a1]
      have a2 : 1 - r 2 ≠ 0 := fun h => a1 (by linarith)
      simp [faceEdges, tetEdgeFactor, tetEdgeOnFace, tetMaxOrth, tetOrth, edgeToFace, entry, hp, a0, a1, a2]))
    have s2 := hs 2 (by decide) (Or.inr (by
      by_cases a1 : r 1 = 1
      · simp [faceEdges, tetEdgeFactor, tetEdgeOnFace, tetMaxOrth, tetOrth, edgeToFace, entry, hp, a1]
      by_cases a0 : r 1 = 0
      · simp [faceEdges, tetEdgeFactor, tetEdgeOnFace, tetMaxOrth, tetOrth, edgeToFace, entry, hp, a0]
      have a2 : 1 - r 1 ≠ 0 := fun h => a1 (by linarith)
      simp [faceEdges, tetEdgeFactor, tetEdgeOnFace, tetMaxOrth, tetOrth, edgeToFace, entry, hp, a0, a1, a2]))
    rw [← s0, ← s1, ← s2, z0, z1, z2]
    show _ = 0 + E 3 + E 4 + E 5
    abel
  · -- face 1
    have z0 := hz 0 (by decide) (Or.inl (by
      by_cases a0 : r 2 = 0
      · simp [tetEdgeFactor, tetEdgeOnFace, tetMaxOrth, tetOrth, edgeToFace, entry, hp, a0]
      simp [tetEdgeFactor, tetEdgeOnFace, tetMaxOrth, tetOrth, edgeToFace, entry, hp, a0]))
    have z3 := hz 3 (by decide) (Or.inl (by
      by_cases a0 : 1 - r 2 = 0
      · simp [tetEdgeFactor, tetEdgeOnFace, tetMaxOrth, tetOrth, edgeToFace, entry, hp, a0]
      simp [tetEdgeFactor, tetEdgeOnFace, tetMaxOrth, tetOrth, edgeToFace, entry, hp, a0]))
    have z4 := hz 4 (by decide) (Or.inl (by
      by_cases a0 : 1 - r 2 = 0
      · simp [tetEdgeFactor, tetEdgeOnFace, tetMaxOrth, tetOrth, edgeToFace, entry, hp, a0]
      simp [tetEdgeFactor, tetEdgeOnFace, tetMaxOrth, tetOrth, edgeToFace, entry, hp, a0]))
    have s0 := hs 0 (by decide) (Or.inr (by
      by_cases a0 : r 2 = 0 ∨ r 2 = 1
      · simp [faceEdges, tetEdgeFactor, tetEdgeOnFace, tetMaxOrth, tetOrth, edgeToFace, entry, hp, a0]
      simp [faceEdges, tetEdgeFactor, tetEdgeOnFace, tetMaxOrth, tetOrth, edgeToFace, entry, hp, a0]))
    have s1 := hs 1 (by decide) (Or.inr (by
      by_cases a0 : r 2 = 0 ∨ r 2 = 1
      · simp [faceEdges, tetEdgeFactor, tetEdgeOnFace, tetMaxOrth, tetOrth, edgeToFace, entry, hp, a0]
      simp [faceEdges, tetEdgeFactor, tetEdgeOnFace, tetMaxOrth, tetOrth, edgeToFace, entry, hp, a0]))
    have s2 := hs 2 (by decide) (Or.inl (g1 rfl))
    rw [← s0, ← s1, ← s2, z0, z3, z4]
    show _ = 0 + E 1 + E 2 + E 5
    abel
  · -- face 2
    have z3 := hz 3 (by decide) (Or.inl (by
      by_cases a0 : r 2 = 0
      · simp [tetEdgeFactor, tetEdgeOnFace, tetMaxOrth, tetOrth, edgeToFace, entry, hp, a0]
      simp [tetEdgeFactor, tetEdgeOnFace, tetMaxOrth, tetOrth, edgeToFace, entry, hp, a0]))
    have z5 := hz 5 (by decide) (Or.inl (by
      by_cases a0 : 1 - r 2 = 0
      · simp [tetEdgeFactor, tetEdgeOnFace, tetMaxOrth, tetOrth, edgeToFace, entry, hp, a0]
      simp [tetEdgeFactor, tetEdgeOnFace, tetMaxOrth, tetOrth, edgeToFace, entry, hp, a0]))
    obtain ⟨d0, d2, d1, d7⟩ := g2 rfl
    have z1 : E 1 = 0 := hdead 1 d1 d7
    have s0 := hs 0 (by decide) (Or.inl d0)
    have s1 := hs 1 (by decide) (Or.inl d2)
    have s2 := hs 2 (by decide) (Or.inr (by
      by_cases a0 : r 2 = 0
      · simp [faceEdges, tetEdgeFactor, tetEdgeOnFace, tetMaxOrth, tetOrth, edgeToFace, entry, hp, a0]
      by_cases a1 : r 2 = 1
      · simp [faceEdges, tetEdgeFactor, tetEdgeOnFace, tetMaxOrth, tetOrth, edgeToFace, entry, hp, a1]
      have a2 : 1 - r 2 ≠ 0 := fun h => a1 (by linarith)
      simp [faceEdges, tetEdgeFactor, tetEdgeOnFace, tetMaxOrth, tetOrth, edgeToFace, entry, hp, a0, a1, a2]))
    rw [← s0, ← s1, ← s2, z1, z3, z5]
    show _ = 0 + E 0 + E 2 + E 4
    abel
  · -- face 3
    have z2 := hz 2 (by decide) (Or.inl (by
      by_cases a0 : r 0 = 0
      · simp [tetEdgeFactor, tetEdgeOnFace, tetMaxOrth, tetOrth, edgeToFace, entry, hp, a0]
      simp [tetEdgeFactor, tetEdgeOnFace, tetMaxOrth, tetOrth, edgeToFace, entry, hp, a0]))
    have z4 := hz 4 (by decide) (Or.inl (by
      by_cases a0 : r 2 = 0
      · simp [tetEdgeFactor, tetEdgeOnFace, tetMaxOrth, tetOrth, edgeToFace, entry, hp, a0]
      simp [tetEdgeFactor, tetEdgeOnFace, tetMaxOrth, tetOrth, edgeToFace, entry, hp, a0]))
    have z5 := hz 5 (by decide) (by simp [tetEdgeCoeff, at3, hp])
    have s0 := hs 0 (by decide) (Or.inr (by
      by_cases a0 : r 0 = 0 ∨ r 0 = 1
      · simp [faceEdges, tetEdgeFactor, tetEdgeOnFace, tetMaxOrth, tetOrth, edgeToFace, entry, hp, a0]
      simp [faceEdges, tetEdgeFactor, tetEdgeOnFace, tetMaxOrth, tetOrth, edgeToFace, entry, hp, a0]))
    have s1 := hs 1 (by decide) (Or.inr (by
      by_cases a0 : r 0 = 0 ∨ r 0 = 1
      · simp [faceEdges, tetEdgeFactor, tetEdgeOnFace, tetMaxOrth, tetOrth, edgeToFace, entry, hp, a0]
      simp [faceEdges, tetEdgeFactor, tetEdgeOnFace, tetMaxOrth, tetOrth, edgeToFace, entry, hp, a0]))
    have s2 := hs 2 (by decide) (Or.inr (by
      by_cases a0 : r 2 = 0
      · simp [faceEdges, tetEdgeFactor, tetEdgeOnFace, tetMaxOrth, tetOrth, edgeToFace, entry, hp, a0]
      by_cases a1 : r 2 = 1
      · simp [faceEdges, tetEdgeFactor, tetEdgeOnFace, tetMaxOrth, tetOrth, edgeToFace, entry, hp, a1]
      have a2 : 1 - r 2 ≠ 0 := fun h => a1 (by linarith)
      simp [faceEdges, tetEdgeFactor, tetEdgeOnFace, tetMaxOrth, tetOrth, edgeToFace, entry, hp, a0, a1, a2]))
    rw [← s0, ← s1, ← s2, z2, z4, z5]
    show _ = 0 + E 0 + E 1 + E 3
    abel

/-- **C64** (tetrahedra, faces).  At the points of a face with a linked surface the geometry is the point of the surface at the parameters between those of
its vertices, provided that linked faces meet in edges with curves and that the face is regular.  The full claim is without `TetRegular`; it is false, see
`C64_tet_face_false` and `C64_tet_other_edge_false`. -/
theorem C64_tet_face_partial {G : Cad} {T : Tree} (F : Fits G T .tet) (I : Inside G T .tet) (S : Seamed T .tet) {f : Nat} (hf : f < 4)
    (hl : 0 < T.faces f) (hg : TetRegular T f) {r : Pt} (hr : Inner .tet r) (hp : InPlane .tet f r) :
    evaluateTet G T r = G.surf (T.faces f) (faceBetween T .tet f r) := by
  unfold evaluateTet
  simp only [addEdges_eq, addFaces_eq]
  rw [tet_face_sum F hf hl hp hg, Finset.sum_eq_single (s := Finset.range 4) (f := faceTerm T (tetFaceDelta G T r) (tetFaceFactor r)) f]
  · have hself : faceTerm T (tetFaceDelta G T r) (tetFaceFactor r) f = tetPatch G T f r := by
      rw [faceTerm, if_pos hl, tetFaceFactor_self hf hp, one_smul, tetFaceDelta_eq G T r f hf, tetFaceIntersection_self hf hp]
    rw [hself]
    simp only [tetPatch]
    rw [tet_params T hf hp]
    abel
  · intro g hgr hne
    have hg4 := Finset.mem_range.1 hgr
    apply faceTerm_zero
    by_cases hlg : T.faces g ≤ 0
    · exact Or.inr (Or.inl hlg)
    have hlg' : 0 < T.faces g := by omega
    by_cases ho : r = corner .tet g
    · left
      rw [ho, tetFaceFactor_opposite g hg4]
    · right; right
      obtain ⟨e, he, hbf, hbg, t, t0, t1, hq⟩ := tetFaceIntersection_other hf hg4 hne hr hp ho
      rw [tetFaceDelta_eq G T r g hg4, hq]
      exact tetPatch_edge F I he hg4 hlg' hbg (S f hf g hg4 hne.symm hl hlg' e he hbf hbg) t0 t1
  · intro h
    exact absurd (Finset.mem_range.2 hf) h

end T8.CadGeometry
