import Verif.Spec.CadPlanar
import Verif.Lemmas.CadGeometry
import Mathlib.Tactic.NormNum

/-!
# C65: quads and triangles with linked curves and surfaces
-/

namespace T8.CadGeometry.Planar
open T8 T8.CadGeometry

theorem lerp1_between (T : Tree) (e : Nat) (t : ℝ) : lerp1 t (T.edgeParams e) 0 = between T e t := by
  simp only [lerp1, between]; ring

theorem lerp1_smul {ι : Type} (t : ℝ) (w : Nat → ι → ℝ) : lerp1 t w = (1 - t) • w 0 + t • w 1 := by
  funext i
  simp only [lerp1, Pi.add_apply, Pi.smul_apply, smul_eq_mul]
  ring

theorem edge_vertices {ι : Type} (c : Eclass) (hc : c = .quad ∨ c = .triangle) (V : Nat → ι → ℝ) (e : Nat) (he : e < (ends c).length) :
    getFaceVertices c V e 0 = V (tail c e) ∧ getFaceVertices c V e 1 = V (head c e) := by
  rcases hc with rfl | rfl
  · simp [ends] at he; interval_cases e <;> exact ⟨rfl, rfl⟩
  · simp [ends] at he; interval_cases e <;> exact ⟨rfl, rfl⟩

/-- The displacement of an edge. -/
noncomputable def shift (G : Cad) (T : Tree) (c : Eclass) (e : Nat) (t : ℝ) : Pt :=
  edgeTarget G T c e t - ((1 - t) • T.V (tail c e) + t • T.V (head c e))

theorem shift_node {G : Cad} {T : Tree} {c : Eclass} (F : Fits G T c) {e : Nat} (he : e < (ends c).length) {t : ℝ} (ht : t = 0 ∨ t = 1) :
    shift G T c e t = 0 := by
  unfold shift edgeTarget
  rcases ht with rfl | rfl
  · split
    · rename_i h; simp [between, (F.curve e he h).1]
    · rename_i hn
      split
      · rename_i h; simp [(F.edgeSurface e he hn h).1]
      · simp
  · split
    · rename_i h; simp [between, (F.curve e he h).2]
    · rename_i hn
      split
      · rename_i h; simp [(F.edgeSurface e he hn h).2]
      · simp

theorem quadPointStep_eq (G : Cad) (T : Tree) (R : Nat → Prm) (i : Nat) (out : Pt) {e : Nat} (he : e < 4)
    (h : i = 0 ∨ T.edges (e + 4) ≤ 0) :
    quadPointStep G T R i out e = some (out + quadFactor (R i) e • shift G T .quad e (at2 (R i) (1 - e / 2))) := by
  obtain ⟨v0, v1⟩ := edge_vertices .quad (Or.inl rfl) T.V e he
  have hlen : (ends .quad).length = 4 := rfl
  simp only [quadPointStep, shift, edgeTarget, hlen, lerp1_between]
  rw [lerp1_smul _ (getFaceVertices .quad T.V e), lerp1_smul _ (T.edgeParams e), v0, v1]
  split
  · rfl
  · split
    · rename_i h'
      rw [if_neg (by omega)]
    · simp

/-- **C65** (quads, edges).  If no surface is linked to a quad, then the points of each edge are mapped to its curve, its surface or the straight line.  The
full claim is for all points of a batch; if an edge has a surface it is proved for the first point only, see `C65_quad_batch_false`. -/
theorem C65_quad_edge_partial {G : Cad} {T : Tree} (F : Fits G T .quad) (hf : T.faces 0 ≤ 0) (R : Nat → Prm) (i : Nat)
    (h : i = 0 ∨ ∀ e < 4, T.edges (e + 4) ≤ 0) {e : Nat} (he : e < 4) {t : ℝ} (hr : R i = onEdge .quad e t) :
    evaluateQuad G T R i = some (edgeTarget G T .quad e t) := by
  have hs : ∀ (out : Pt) (e : Nat), e < 4 → quadPointStep G T R i out e =
      some (out + quadFactor (R i) e • shift G T .quad e (at2 (R i) (1 - e / 2))) := fun out e he =>
    quadPointStep_eq G T R i out he (h.imp id fun h => h e he)
  rw [evaluateQuad, if_neg (by omega)]
  have hfold : (List.range 4).foldlM (quadPointStep G T R i) (lerp2 (R i 0) (R i 1) T.V) =
      some (lerp2 (R i 0) (R i 1) T.V + ∑ e ∈ Finset.range 4, quadFactor (R i) e • shift G T .quad e (at2 (R i) (1 - e / 2))) := by
    rw [show List.range 4 = [0, 1, 2, 3] from rfl]
    simp only [List.foldlM_cons, List.foldlM_nil, hs _ 0 (by decide), hs _ 1 (by decide), hs _ 2 (by decide), hs _ 3 (by decide),
      Finset.sum_range_succ, Finset.sum_range_zero, Option.bind_eq_bind, Option.bind_some, Option.pure_def]
    congr 1
    abel
  rw [hfold, Finset.sum_eq_single e]
  · have hlin : lerp2 (R i 0) (R i 1) T.V = (1 - t) • T.V (tail .quad e) + t • T.V (head .quad e) := by
      rw [hr]
      funext j
      interval_cases e <;> simp [lerp2, onEdge, corner, tail, head, ends] <;> ring
    have hw : quadFactor (R i) e = 1 := by
      rw [hr]
      interval_cases e <;> simp [quadFactor, at2, onEdge, corner, tail, head, ends]
    have ht : at2 (R i) (1 - e / 2) = t := by
      rw [hr]
      interval_cases e <;> simp [at2, onEdge, corner, tail, head, ends]
    rw [hlin, hw, ht, one_smul, shift]
    congr 1
    abel
  · intro e' he' hne
    rw [Finset.mem_range] at he'
    have : quadFactor (R i) e' = 0 ∨ at2 (R i) (1 - e' / 2) = 0 ∨ at2 (R i) (1 - e' / 2) = 1 := by
      rw [hr]
      clear hr
      interval_cases e <;> interval_cases e' <;> first
        | exact absurd rfl hne
        | simp [quadFactor, at2, onEdge, corner, tail, head, ends]
    rcases this with h' | h'
    · rw [h', zero_smul]
    · rw [shift_node F he' h', smul_zero]
  · intro h'
    exact absurd (Finset.mem_range.2 he) h'

/-- **C65** (quads, linked face).  The points of a quad with a linked surface are mapped to the surface at the parameters between those of the vertices, if no
edge has a curve, or for the first point if the curves are straight lines in the parameters of the surface.  The full claim is that points of edges with
curves are mapped to the curves, whatever their parameters are; it is false, see `C65_quad_curve_false` and `C65_quad_face_batch_false`. -/
theorem C65_quad_face_partial {G : Cad} {T : Tree} (hf : 0 < T.faces 0) (R : Nat → Prm) (i : Nat)
    (h : ∀ e < 4, 0 < T.edges e → i = 0 ∧ ∀ t : ℝ, G.toFace (T.edges e) (T.faces 0) (between T e t) (T.faceParams 0 0) =
      (1 - t) • T.faceParams 0 (tail .quad e) + t • T.faceParams 0 (head .quad e)) :
    evaluateQuad G T R i = some (G.surf (T.faces 0) (faceBetween T .quad (R i))) := by
  have hs : ∀ (p : Prm) (e : Nat), e < 4 → quadParamStep G T R i p e = p := by
    intro p e he
    obtain ⟨v0, v1⟩ := edge_vertices .quad (Or.inl rfl) (T.faceParams 0) e he
    simp only [quadParamStep]
    split
    · rename_i hc
      obtain ⟨rfl, h'⟩ := h e he hc
      rw [lerp1_between, h', lerp1_smul _ (getFaceVertices .quad (T.faceParams 0) e), v0, v1, sub_self, smul_zero, add_zero]
    · rfl
  rw [evaluateQuad, if_pos hf]
  rw [show List.range 4 = [0, 1, 2, 3] from rfl]
  simp only [List.foldl_cons, List.foldl_nil, hs _ 0 (by decide), hs _ 1 (by decide), hs _ 2 (by decide), hs _ 3 (by decide)]
  congr 2
  funext j
  simp only [lerp2, faceBetween, Pi.add_apply, Pi.smul_apply, smul_eq_mul]
  ring

/-! ### Triangles -/

theorem cornerRef0 : (cornerRef .triangle 0 0 = 0 ∧ cornerRef .triangle 0 1 = 0) ∧ (cornerRef .triangle 1 0 = 1 ∧ cornerRef .triangle 1 1 = 0) ∧
    (cornerRef .triangle 2 0 = 1 ∧ cornerRef .triangle 2 1 = 1) := by
  simp [cornerRef]

theorem ref0 (r : Prm) : refIntersection 0 r = ![1, if 0 = r 0 then 0 else r 1 / r 0] := by
  simp only [refIntersection, cornerRef]
  by_cases h : (0 : ℝ) = r 0 <;> simp [h]

theorem ref1 (r : Prm) : refIntersection 1 r =
    if r 0 = 1 then ![1, 1] else if r 1 = 0 then ![0, 0] else ![r 1 / (1 - r 0 + r 1), r 1 / (1 - r 0 + r 1)] := by
  simp only [refIntersection, cornerRef]
  by_cases h : r 0 = 1
  · simp [h]
  · by_cases h1 : r 1 = 0
    · simp [h, h1]
    · have h2 : 1 - r 0 ≠ 0 := fun h' => h (by linarith)
      have h3 : (1 : ℝ) ≠ r 0 := fun h' => h h'.symm
      simp only [one_ne_zero, if_false, if_true, Matrix.cons_val_zero, Matrix.cons_val_one, h, h1, h3]
      have : -((0 - r 1) / (1 - r 0)) / (1 - (0 - r 1) / (1 - r 0)) = r 1 / (1 - r 0 + r 1) := by
        have : 1 - (0 - r 1) / (1 - r 0) = (1 - r 0 + r 1) / (1 - r 0) := by field_simp; ring
        rw [this, show -((0 - r 1) / (1 - r 0)) = r 1 / (1 - r 0) by ring, div_div_div_cancel_right₀ h2]
      rw [this]

theorem ref2 (r : Prm) : refIntersection 2 r =
    if r 0 = 1 then ![1, 0] else if r 1 = 1 then ![0, 1] else ![(r 0 - r 1) / (1 - r 1), 0] := by
  simp only [refIntersection, cornerRef]
  by_cases h : r 0 = 1
  · simp [h]
  · by_cases h1 : r 1 = 1
    · simp [h, h1]
    · simp [h, h1]

/-- **C65** (rays).  The intersection is a point of the edge, on the ray from the opposite vertex through the point, and behind the point, for all points of
the reference triangle except the opposite vertex. -/
theorem C65_ref_intersection {e : Nat} (he : e < 3) {r : Prm} (hr : InTriangle r) (ho : r ≠ corner .triangle e) :
    (∃ t : ℝ, 0 ≤ t ∧ t ≤ 1 ∧ refIntersection e r = onEdge .triangle e t ∧ triCoeff e r = t) ∧
      ∃ s : ℝ, 0 < s ∧ s ≤ 1 ∧ r = corner .triangle e + s • (refIntersection e r - corner .triangle e) := by
  obtain ⟨h0, h1, h2⟩ := hr
  interval_cases e
  · have hx : r 0 ≠ 0 := by
      intro hx
      apply ho
      funext j
      fin_cases j
      · simp [corner, hx]
      · simp [corner]; linarith
    have hpos : 0 < r 0 := lt_of_le_of_ne (by linarith) (Ne.symm hx)
    have hr0 := ref0 r
    rw [if_neg (Ne.symm hx)] at hr0
    refine ⟨⟨r 1 / r 0, div_nonneg h0 hpos.le, (div_le_one hpos).2 h1, ?_, ?_⟩, r 0, hpos, h2, ?_⟩
    · rw [hr0]; funext j; fin_cases j <;> simp [onEdge, corner, tail, head, ends]
    · simp [triCoeff, hr0]
    · rw [hr0]
      funext j
      fin_cases j <;> simp [corner]
      field_simp
  · have hr1 := ref1 r
    by_cases hx : r 0 = 1
    · have hy : r 1 ≠ 0 := by
        intro hy
        apply ho
        funext j
        fin_cases j <;> simp [corner, hx, hy]
      rw [if_pos hx] at hr1
      refine ⟨⟨1, by norm_num, le_refl _, ?_, ?_⟩, r 1, lt_of_le_of_ne h0 (Ne.symm hy), by linarith, ?_⟩
      · rw [hr1]; funext j; fin_cases j <;> simp [onEdge, corner, tail, head, ends]
      · simp [triCoeff, hr1]
      · rw [hr1]; funext j; fin_cases j <;> simp [corner, hx]
    · have hlt : r 0 < 1 := lt_of_le_of_ne h2 hx
      rw [if_neg hx] at hr1
      by_cases hy : r 1 = 0
      · rw [if_pos hy] at hr1
        refine ⟨⟨0, le_refl _, by norm_num, ?_, ?_⟩, 1 - r 0, by linarith, by linarith, ?_⟩
        · rw [hr1]; funext j; fin_cases j <;> simp [onEdge, corner, tail, head, ends]
        · simp [triCoeff, hr1]
        · rw [hr1]; funext j; fin_cases j <;> simp [corner, hy]
      · rw [if_neg hy] at hr1
        have hpos : 0 < 1 - r 0 + r 1 := by linarith
        refine ⟨⟨r 1 / (1 - r 0 + r 1), div_nonneg h0 hpos.le, (div_le_one hpos).2 (by linarith), ?_, ?_⟩, 1 - r 0 + r 1, hpos, by linarith, ?_⟩
        · rw [hr1]; funext j; fin_cases j <;> simp [onEdge, corner, tail, head, ends]
        · simp [triCoeff, hr1]
        · rw [hr1]
          have hne := hpos.ne'
          funext j
          fin_cases j <;> simp [corner] <;> field_simp
          ring
  · have hr2 := ref2 r
    by_cases hx : r 0 = 1
    · have hy : r 1 ≠ 1 := by
        intro hy
        apply ho
        funext j
        fin_cases j <;> simp [corner, hx, hy]
      rw [if_pos hx] at hr2
      refine ⟨⟨1, by norm_num, le_refl _, ?_, ?_⟩, 1 - r 1, ?_, by linarith, ?_⟩
      · rw [hr2]; funext j; fin_cases j <;> simp [onEdge, corner, tail, head, ends]
      · simp [triCoeff, hr2]
      · have : r 1 < 1 := lt_of_le_of_ne (by linarith) hy
        linarith
      · rw [hr2]; funext j; fin_cases j <;> simp [corner, hx]
    · have hlt : r 0 < 1 := lt_of_le_of_ne h2 hx
      have hy : r 1 ≠ 1 := by intro h; linarith
      rw [if_neg hx, if_neg hy] at hr2
      have hpos : 0 < 1 - r 1 := by linarith
      refine ⟨⟨(r 0 - r 1) / (1 - r 1), div_nonneg (by linarith) hpos.le, (div_le_one hpos).2 (by linarith), ?_, ?_⟩, 1 - r 1, hpos, by linarith, ?_⟩
      · rw [hr2]; funext j; fin_cases j <;> simp [onEdge, corner, tail, head, ends]
      · simp [triCoeff, hr2]
      · rw [hr2]
        have hne := hpos.ne'
        funext j
        fin_cases j <;> simp [corner]
        field_simp
        ring

theorem triLinear_edge (V : Nat → Pt) {e : Nat} (he : e < 3) (t : ℝ) :
    triLinear (onEdge .triangle e t) V = (1 - t) • V (tail .triangle e) + t • V (head .triangle e) := by
  funext j
  interval_cases e <;> simp [triLinear, tri2, onEdge, corner, tail, head, ends] <;> ring

theorem triPointStep_eq (G : Cad) (T : Tree) (r : Prm) (out : Pt) {e : Nat} (he : e < 3) {t : ℝ}
    (h1 : refIntersection e r = onEdge .triangle e t) (h2 : triCoeff e r = t) :
    triPointStep G T r out e = out + triScale e T.V (triLinear (onEdge .triangle e t) T.V) out • shift G T .triangle e t := by
  have hlen : (ends .triangle).length = 3 := rfl
  simp only [triPointStep, shift, edgeTarget, hlen, h1, h2, edgePoint, lerp1_between]
  rw [triLinear_edge T.V he, lerp1_smul]
  by_cases a : 0 < T.edges e
  · simp [a]
  · by_cases b : 0 < T.edges (e + 3)
    · simp [a, b]
    · simp [a, b]

/-- Other edges do not move the points of an edge. -/
theorem tri_other {e e' : Nat} (he : e < 3) (he' : e' < 3) (hne : e' ≠ e) (t : ℝ) : ∃ s : ℝ, (s = 0 ∨ s = 1) ∧
    refIntersection e' (onEdge .triangle e t) = onEdge .triangle e' s ∧ triCoeff e' (onEdge .triangle e t) = s := by
  by_cases h0 : t = 0
  · subst h0
    interval_cases e <;> interval_cases e' <;> first
      | exact absurd rfl hne
      | (refine ⟨0, Or.inl rfl, ?_, ?_⟩ <;> simp [triCoeff, ref0, ref1, ref2, onEdge, corner, tail, head, ends]; done)
      | (refine ⟨1, Or.inr rfl, ?_, ?_⟩ <;> simp [triCoeff, ref0, ref1, ref2, onEdge, corner, tail, head, ends]; done)
  by_cases h1 : t = 1
  · subst h1
    interval_cases e <;> interval_cases e' <;> first
      | exact absurd rfl hne
      | (refine ⟨0, Or.inl rfl, ?_, ?_⟩ <;> simp [triCoeff, ref0, ref1, ref2, onEdge, corner, tail, head, ends]; done)
      | (refine ⟨1, Or.inr rfl, ?_, ?_⟩ <;> simp [triCoeff, ref0, ref1, ref2, onEdge, corner, tail, head, ends]; done)
  have h0' : 0 ≠ t := Ne.symm h0
  interval_cases e <;> interval_cases e' <;> first
    | exact absurd rfl hne
    | (refine ⟨0, Or.inl rfl, ?_, ?_⟩ <;> simp [triCoeff, ref0, ref1, ref2, onEdge, corner, tail, head, ends, h0, h1, h0']; done)
    | (refine ⟨1, Or.inr rfl, ?_, ?_⟩ <;> simp [triCoeff, ref0, ref1, ref2, onEdge, corner, tail, head, ends, h0, h1, h0']; done)

theorem tri_self {e : Nat} (he : e < 3) (t : ℝ) :
    refIntersection e (onEdge .triangle e t) = onEdge .triangle e t ∧ triCoeff e (onEdge .triangle e t) = t := by
  by_cases h0 : t = 0
  · subst h0
    interval_cases e <;> simp [triCoeff, ref0, ref1, ref2, onEdge, corner, tail, head, ends]
  by_cases h1 : t = 1
  · subst h1
    interval_cases e <;> simp [triCoeff, ref0, ref1, ref2, onEdge, corner, tail, head, ends]
  interval_cases e <;> simp [triCoeff, ref0, ref1, ref2, onEdge, corner, tail, head, ends, h0, h1] <;> funext j <;> fin_cases j <;> simp

theorem dot_self_ne {a : Pt} (h : a ≠ 0) : Real.sqrt (dot a a) ≠ 0 := by
  have h0 : 0 ≤ dot a a := by unfold dot; nlinarith [mul_self_nonneg (a 0), mul_self_nonneg (a 1), mul_self_nonneg (a 2)]
  intro hs
  rw [Real.sqrt_eq_zero h0] at hs
  apply h
  unfold dot at hs
  have h1 := mul_self_nonneg (a 0)
  have h2 := mul_self_nonneg (a 1)
  have h3 := mul_self_nonneg (a 2)
  have e0 : a 0 = 0 := mul_self_eq_zero.1 (by linarith)
  have e1 : a 1 = 0 := mul_self_eq_zero.1 (by linarith)
  have e2 : a 2 = 0 := mul_self_eq_zero.1 (by linarith)
  funext j
  fin_cases j <;> simp [e0, e1, e2]

/-- **C65** (triangles, edges).  If no surface is linked to a triangle, then the points of each edge are mapped to its curve, its surface or the straight
line, for all points of a batch, provided that the opposite vertex does not lie on the straight line at this point. -/
theorem C65_tri_edge {G : Cad} {T : Tree} (F : Fits G T .triangle) (hf : T.faces 0 ≤ 0) (R : Nat → Prm) (n i : Nat) {e : Nat} (he : e < 3)
    {t : ℝ} (hr : R i = onEdge .triangle e t) (hv : T.V e ≠ (1 - t) • T.V (tail .triangle e) + t • T.V (head .triangle e)) :
    ∃ out, evaluateTri G T R n = some out ∧ out i = edgeTarget G T .triangle e t := by
  refine ⟨_, by rw [evaluateTri, if_neg (by omega)], ?_⟩
  have ho : ∀ (out : Pt) (e' : Nat), e' < 3 → e' ≠ e → triPointStep G T (R i) out e' = out := by
    intro out e' he' hne
    obtain ⟨s, hs, h1, h2⟩ := tri_other he he' hne t
    rw [hr, triPointStep_eq G T _ out he' h1 h2, shift_node F he' hs, smul_zero, add_zero]
  have hself : triPointStep G T (R i) (triLinear (R i) T.V) e = edgeTarget G T .triangle e t := by
    obtain ⟨h1, h2⟩ := tri_self he t
    rw [hr, triPointStep_eq G T _ _ he h1 h2]
    have hd : triScale e T.V (triLinear (onEdge .triangle e t) T.V) (triLinear (onEdge .triangle e t) T.V) = 1 := by
      unfold triScale
      refine div_self (dot_self_ne ?_)
      rw [triLinear_edge T.V he]
      exact sub_ne_zero.2 hv
    rw [hd, one_smul, shift, triLinear_edge T.V he]
    abel
  rw [show List.range 3 = [0, 1, 2] from rfl]
  simp only [List.foldl_cons, List.foldl_nil]
  interval_cases e
  · rw [hself, ho _ 1 (by decide) (by decide), ho _ 2 (by decide) (by decide)]
  · rw [ho _ 0 (by decide) (by decide), hself, ho _ 2 (by decide) (by decide)]
  · rw [ho _ 0 (by decide) (by decide), ho _ 1 (by decide) (by decide), hself]

/-- **C65** (triangles, linked face without curves).  The first point of a batch is mapped to the surface at the parameters between those of the vertices.
The full claim is this for all points of the batch; it is false, since the others stay on the plane. -/
theorem C65_tri_face_partial {G : Cad} {T : Tree} (hf : 0 < T.faces 0) (hc : ∀ e < 3, T.edges e ≤ 0) (R : Nat → Prm) (n : Nat) :
    ∃ out, evaluateTri G T R n = some out ∧ out 0 = G.surf (T.faces 0) (faceBetween T .triangle (R 0)) ∧
      ∀ i ≠ 0, out i = triLinear (R i) T.V := by
  have hs : ∀ (s : TriState) (e : Nat), e < 3 → triParamStep G T R n s e =
      some { s with out := Function.update s.out 0 (G.surf (T.faces 0) (s.params 0)) } := by
    intro s e he
    simp only [triParamStep]
    rw [if_neg (by have := hc e he; omega)]
    rfl
  have hev : evaluateTri G T R n = some (Function.update (fun i => triLinear (R i) T.V) 0
      (G.surf (T.faces 0) (tri2 (R 0 0) (R 0 1) (T.faceParams 0)))) := by
    rw [evaluateTri, if_pos hf, show List.range 3 = [0, 1, 2] from rfl]
    simp only [List.foldlM_cons, List.foldlM_nil, hs _ 0 (by decide), hs _ 1 (by decide), hs _ 2 (by decide), Option.bind_eq_bind,
      Option.bind_some, Option.pure_def, Option.map_some, Function.update_idem]
  refine ⟨_, hev, ?_, ?_⟩
  · simp only [Function.update_self]
    congr 1
    funext j
    simp only [tri2, faceBetween, Pi.add_apply, Pi.smul_apply, smul_eq_mul]
    ring
  · intro i hi
    simp [Function.update_of_ne hi]

/-- **C65 fails for triangles**: if a triangle has a linked surface and one of its edges a curve, the result is undefined for every batch: the surface with
number `edges[i_edge + num_edges]` is asked for, and the code asserts that this number is 0. -/
theorem C65_tri_curve_false (G : Cad) {T : Tree} (hf : 0 < T.faces 0) (h0 : ∀ e < 3, T.edges (e + 3) ≤ 0) (R : Nat → Prm) {n : Nat} (hn : 0 < n)
    {e : Nat} (he : e < 3) (hc : 0 < T.edges e) : evaluateTri G T R n = none := by
  have hs : ∀ (s : TriState) (e : Nat), e < 3 → 0 < T.edges e → triParamStep G T R n s e = none := by
    intro s e he hc
    obtain ⟨m, rfl⟩ := Nat.exists_eq_succ_of_ne_zero hn.ne'
    have hp : triParamPoint G T R e s 0 = none := by
      simp only [triParamPoint]
      rw [if_neg (by have := h0 e he; omega)]
    simp only [triParamStep]
    rw [if_pos hc, List.range_succ_eq_map, List.foldlM_cons, hp]
    rfl
  have hz : ∀ (s : TriState) (e : Nat), ¬ 0 < T.edges e → ∃ s', triParamStep G T R n s e = some s' := by
    intro s e hc
    refine ⟨{ s with out := Function.update s.out 0 (G.surf (T.faces 0) (s.params 0)) }, ?_⟩
    simp only [triParamStep]
    rw [if_neg hc]
    rfl
  rw [evaluateTri, if_pos hf, show List.range 3 = [0, 1, 2] from rfl]
  simp only [List.foldlM_cons, List.foldlM_nil]
  generalize (⟨fun i => tri2 (R i 0) (R i 1) (T.faceParams 0), fun i => triLinear (R i) T.V⟩ : TriState) = s
  by_cases c0 : 0 < T.edges 0
  · rw [hs _ 0 (by decide) c0]; rfl
  obtain ⟨s1, e1⟩ := hz s 0 c0
  rw [e1]
  simp only [Option.bind_eq_bind, Option.bind_some]
  by_cases c1 : 0 < T.edges 1
  · rw [hs _ 1 (by decide) c1]; rfl
  obtain ⟨s2, e2⟩ := hz s1 1 c1
  rw [e2]
  simp only [Option.bind_some]
  by_cases c2 : 0 < T.edges 2
  · rw [hs _ 2 (by decide) c2]; rfl
  · interval_cases e
    · exact absurd hc c0
    · exact absurd hc c1
    · exact absurd hc c2

/-! ### Witnesses -/

/-- The unit square with curve 1 at edge 0 and surface 1 at the face. -/
def square (curve edgeSurface face : Int) : Tree where
  V v := [![0, 0, 0], ![1, 0, 0], ![0, 1, 0], ![1, 1, 0]].getD v 0
  edges i := if i = 0 then curve else if i = 4 then edgeSurface else 0
  faces i := if i = 0 then face else 0
  edgeParams _ i := if i = 0 then ![0, 0] else ![1, 0]
  faceParams _ i := corner .quad i

/-- The plane with the curve `x = y (1 - y)` and with the line `x = 0`. -/
def plane : Cad where
  curve k t := if k = 1 then ![t * (1 - t), t, 0] else ![0, t, 0]
  surface _ u v := ![u, v, 0]
  toFace k _ t _ := if k = 1 then ![t * (1 - t), t] else ![0, t]

theorem square_edge (a b c : Int) {e : Nat} (he : e < 4) (h : 0 < (square a b c).edges e) : e = 0 := by
  by_contra hn
  have : e ≠ 4 := by omega
  simp [square, hn, this] at h

theorem square_fits (a c : Int) : Fits plane (square a 0 c) .quad ∧ Converts plane (square a 0 c) .quad := by
  refine ⟨⟨?_, ?_⟩, ⟨?_, ?_⟩⟩
  · intro e he h
    obtain rfl := square_edge _ _ _ he h
    constructor <;> simp [plane, square, tail, head, ends]
  · intro e he _ h
    have hlen : (ends .quad).length = 4 := rfl
    rw [hlen] at h
    simp [square] at h
  · intro e he h t _ _
    simp only [plane, Cad.surf]
    split <;> simp
  · intro e he h
    obtain rfl := square_edge _ _ _ he h
    constructor <;> simp [plane, square, tail, head, ends, corner]

/-- **C65 fails for quads**: with a linked surface, the displacement of the parameters at an edge is scaled with 0 at this edge and with 1 at the opposite
edge.  Points of the edge do not lie on its curve, and points of the opposite edge, which has no curve, are moved out of the quad. -/
theorem C65_quad_curve_false : (Fits plane (square 1 0 1) .quad ∧ Converts plane (square 1 0 1) .quad) ∧
    (evaluateQuad plane (square 1 0 1) (fun _ => onEdge .quad 0 (1 / 2)) 0 = some ![0, 1 / 2, 0] ∧
      edgeTarget plane (square 1 0 1) .quad 0 (1 / 2) = ![1 / 4, 1 / 2, 0]) ∧
    (evaluateQuad plane (square 1 0 1) (fun _ => onEdge .quad 1 (1 / 2)) 0 = some ![5 / 4, 1 / 2, 0] ∧
      edgeTarget plane (square 1 0 1) .quad 1 (1 / 2) = ![1, 1 / 2, 0]) := by
  refine ⟨square_fits _ _, ⟨?_, ?_⟩, ?_, ?_⟩
  · rw [evaluateQuad, if_pos (by simp [square])]
    congr 1
    funext j
    fin_cases j <;> norm_num [List.range_succ, quadParamStep, quadFaceFactor, at2, square, plane, Cad.surf, onEdge, corner, tail, head, ends,
      lerp1, lerp2, getFaceVertices, Neighbor.faceVertices, entry]
  · funext j
    fin_cases j <;> norm_num [edgeTarget, square, plane, between]
  · rw [evaluateQuad, if_pos (by simp [square])]
    congr 1
    funext j
    fin_cases j <;> norm_num [List.range_succ, quadParamStep, quadFaceFactor, at2, square, plane, Cad.surf, onEdge, corner, tail, head, ends,
      lerp1, lerp2, getFaceVertices, Neighbor.faceVertices, entry]
  · funext j
    fin_cases j <;> norm_num [edgeTarget, square, plane, ends, tail, head]

/-- A batch of two points. -/
noncomputable def pair : Nat → Prm := fun i => if i = 0 then ![1, 0] else ![1 / 2, 1 / 2]

/-- **C65 fails for batches of quads**: with a linked surface and a straight curve, the second point of a batch depends on the first point. -/
theorem C65_quad_face_batch_false : (Fits plane (square 2 0 1) .quad ∧ Converts plane (square 2 0 1) .quad) ∧
    evaluateQuad plane (square 2 0 1) pair 1 = some ![1 / 2, 1, 0] ∧
    evaluateQuad plane (square 2 0 1) (fun _ => pair 1) 0 = some ![1 / 2, 1 / 2, 0] := by
  refine ⟨square_fits _ _, ?_, ?_⟩
  · rw [evaluateQuad, if_pos (by simp [square])]
    congr 1
    funext j
    fin_cases j <;> norm_num [List.range_succ, quadParamStep, quadFaceFactor, at2, square, plane, Cad.surf, corner, pair,
      lerp1, lerp2, getFaceVertices, Neighbor.faceVertices, entry]
  · rw [evaluateQuad, if_pos (by simp [square])]
    congr 1
    funext j
    fin_cases j <;> norm_num [List.range_succ, quadParamStep, quadFaceFactor, at2, square, plane, Cad.surf, corner, pair,
      lerp1, lerp2, getFaceVertices, Neighbor.faceVertices, entry]

/-- **C65 fails for batches of quads**: if an edge has a surface, the second point of a batch is undefined. -/
theorem C65_quad_batch_false : evaluateQuad plane (square 0 1 0) pair 1 = none := by
  rw [evaluateQuad, if_neg (by simp [square]), show List.range 4 = [0, 1, 2, 3] from rfl, List.foldlM_cons]
  have : ∀ out, quadPointStep plane (square 0 1 0) pair 1 out 0 = none := by
    intro out
    simp [quadPointStep, square]
  rw [this]
  rfl

/-- **C65 fails for batches of triangles**: with a linked surface and no curve, the second point stays on the plane through the vertices. -/
theorem C65_tri_batch_false : ∃ (G : Cad) (T : Tree) (out : Nat → Pt), 0 < T.faces 0 ∧
    (∀ v < 3, G.surf (T.faces 0) (T.faceParams 0 v) = T.V v) ∧ evaluateTri G T pair 2 = some out ∧ ∀ p : Prm, out 1 ≠ G.surf (T.faces 0) p := by
  let G : Cad := { curve := fun _ _ => 0, surface := fun _ u v => ![u, v, u * (1 - u)], toFace := fun _ _ _ _ => 0 }
  let T : Tree := { V := fun v => [![0, 0, 0], ![1, 0, 0], ![1, 1, 0]].getD v 0, edges := fun _ => 0, faces := fun _ => 1,
                    edgeParams := fun _ _ => 0, faceParams := fun _ v => corner .triangle v }
  obtain ⟨out, h1, _, h3⟩ := C65_tri_face_partial (G := G) (T := T) (by simp [T]) (by simp [T]) pair 2
  refine ⟨G, T, out, by simp [T], ?_, h1, ?_⟩
  · intro v hv
    interval_cases v <;> funext j <;> fin_cases j <;> simp [G, T, Cad.surf, corner]
  · intro p h
    rw [h3 1 (by decide)] at h
    have e0 := congrFun h 0
    have e2 := congrFun h 2
    have vec2 : ∀ a b c : ℝ, ![a, b, c] 2 = c := fun _ _ _ => rfl
    norm_num [triLinear, tri2, pair, G, T, Cad.surf] at e0
    norm_num [triLinear, tri2, pair, G, T, Cad.surf, vec2] at e2
    rcases e2 with e2 | e2 <;> linarith

/-! ### The hypotheses can be met -/

/-- Beside `C65_quad_edge_partial`: a quad with a curve at edge 0. -/
example (R : Nat → Prm) (i : Nat) (h : R i = onEdge .quad 0 (1 / 2)) :
    evaluateQuad plane (square 1 0 0) R i = some ![1 / 4, 1 / 2, 0] := by
  rw [C65_quad_edge_partial (square_fits 1 0).1 (by simp [square]) R i (Or.inr (by intro e _; simp [square])) (by decide) h]
  congr 1
  funext j
  fin_cases j <;> norm_num [edgeTarget, square, plane, between]

/-- Beside `C65_quad_face_partial`: a quad with a surface and a straight curve. -/
example (R : Nat → Prm) : evaluateQuad plane (square 2 0 1) R 0 = some (plane.surf 1 (faceBetween (square 2 0 1) .quad (R 0))) := by
  refine C65_quad_face_partial (T := square 2 0 1) (by simp [square]) R 0 fun e he h => ⟨rfl, fun t => ?_⟩
  obtain rfl := square_edge _ _ _ he h
  funext j
  fin_cases j <;> simp [square, plane, between, corner, tail, head, ends]

/-- Beside `C65_tri_edge`: a triangle with a curve at edge 2. -/
example : ∃ (G : Cad) (T : Tree), Fits G T .triangle ∧ T.faces 0 ≤ 0 ∧ 0 < T.edges 2 ∧
    T.V 2 ≠ (1 - (1 / 2 : ℝ)) • T.V (tail .triangle 2) + (1 / 2 : ℝ) • T.V (head .triangle 2) ∧
    edgeTarget G T .triangle 2 (1 / 2) = ![1 / 2, -1 / 4, 0] := by
  let G : Cad := { curve := fun _ t => ![t, -(t * (1 - t)), 0], surface := fun _ _ _ => 0, toFace := fun _ _ _ _ => 0 }
  let T : Tree := { V := fun v => [![0, 0, 0], ![1, 0, 0], ![1, 1, 0]].getD v 0, edges := fun e => if e = 2 then 1 else 0, faces := fun _ => 0,
                    edgeParams := fun _ i => ![(i : ℝ), 0], faceParams := fun _ _ => 0 }
  refine ⟨G, T, ⟨?_, ?_⟩, by simp [T], by simp [T], ?_, ?_⟩
  · intro e he h
    have : e = 2 := by
      by_contra hn
      simp [T, hn] at h
    subst this
    constructor <;> simp [G, T, tail, head, ends]
  · intro e he _ h
    have hlen : (ends .triangle).length = 3 := rfl
    rw [hlen] at h
    have : e + 3 ≠ 2 := by omega
    simp [T, this] at h
  · intro h
    have := congrFun h 1
    norm_num [T, tail, head, ends] at this
  · funext j
    fin_cases j <;> norm_num [edgeTarget, G, T, between]

end T8.CadGeometry.Planar
