import Mathlib.Tactic.Ring
import Mathlib.Tactic.FinCases
import Mathlib.Tactic.IntervalCases
import Mathlib.Algebra.BigOperators.Intervals
import Mathlib.LinearAlgebra.Span.Basic
import Verif.Model.CadGeometry
import Verif.Spec.Lagrange

/-!
# Proofs: Lagrange geometries
-/

namespace T8.Lagrange
open T8

/-- The sum in `evaluate` for one coordinate. -/
noncomputable def interp (b : List ℝ) (w : Nat → ℝ) : ℝ := (b.zipIdx.map fun p => p.1 * w p.2).foldl (· + ·) 0

theorem evaluate_eq (c : Eclass) (d : Nat) (V : Nat → Pt) (r : Pt) :
    evaluate c d V r = (basis c d r).map fun b i => interp b fun n => V n i := rfl

theorem interp_sum (b : List ℝ) (w : Nat → ℝ) : interp b w = ∑ n ∈ Finset.range b.length, b.getD n 0 * w n := by
  have h : ∀ (b : List ℝ) (k : Nat), ((b.zipIdx k).map fun p => p.1 * w p.2).sum = ∑ n ∈ Finset.range b.length, b.getD n 0 * w (k + n) := by
    intro b
    induction b with
    | nil => intro k; simp
    | cons a b ih =>
      intro k
      rw [List.zipIdx_cons, List.map_cons, List.sum_cons, ih, List.length_cons, Finset.sum_range_succ']
      simp only [List.getD_cons_zero, List.getD_cons_succ, Nat.add_zero]
      rw [add_comm]
      congr 1
      exact Finset.sum_congr rfl fun n _ => by rw [show k + 1 + n = k + (n + 1) by omega]
  rw [interp, ← List.sum_eq_foldl, h b 0]
  simp

theorem interp_add (b : List ℝ) (w w' : Nat → ℝ) : interp b (fun n => w n + w' n) = interp b w + interp b w' := by
  rw [interp_sum, interp_sum, interp_sum, ← Finset.sum_add_distrib]
  exact Finset.sum_congr rfl fun n _ => by ring

theorem interp_mul (b : List ℝ) (a : ℝ) (w : Nat → ℝ) : interp b (fun n => a * w n) = a * interp b w := by
  rw [interp_sum, interp_sum, Finset.mul_sum]
  exact Finset.sum_congr rfl fun n _ => by ring

theorem basis_some {c : Eclass} {d : Nat} (h : Implemented c d) (r : Pt) : ∃ b, basis c d r = some b ∧ b.length = numNodes c d := by
  obtain ⟨rfl | rfl | rfl | rfl, rfl | rfl⟩ := h <;> exact ⟨_, rfl, rfl⟩

theorem vec2 (a b c : ℝ) : (![a, b, c] : Fin 3 → ℝ) 2 = c := rfl

set_option maxHeartbeats 4000000 in
/-- Monomials are reproduced. -/
theorem interp_mono {c : Eclass} {d : Nat} (h : Implemented c d) {r : Pt} {b : List ℝ} (hb : basis c d r = some b) {e : Nat × Nat × Nat}
    (he : Exponent c d e) : interp b (fun n => mono e (node c n)) = mono e r := by
  obtain ⟨i, j, k⟩ := e
  obtain ⟨rfl | rfl | rfl | rfl, rfl | rfl⟩ := h
  case inl.inl | inl.inr =>
    obtain ⟨hi, hj, hk⟩ := he
    simp only at hi hj hk
    subst hj hk
    simp only [basis, Option.some.injEq] at hb
    subst hb
    interval_cases i <;> norm_num [interp, s2, s3, mono, node, grid, List.zipIdx, vec2] <;> ring
  case inr.inl.inl | inr.inl.inr =>
    obtain ⟨hij, hk⟩ := he
    simp only at hij hk
    subst hk
    simp only [basis, Option.some.injEq] at hb
    subst hb
    have hi : i ≤ 2 := by omega
    interval_cases i <;> (have hj : j ≤ 2 := by omega) <;> interval_cases j <;> first
      | omega
      | (norm_num [interp, t3, t6, mono, node, grid, List.zipIdx, vec2] <;> ring)
  case inr.inr.inl.inl | inr.inr.inl.inr =>
    obtain ⟨hi, hj, hk⟩ := he
    simp only at hi hj hk
    subst hk
    simp only [basis, Option.some.injEq] at hb
    subst hb
    interval_cases i <;> interval_cases j <;> norm_num [interp, q4, q9, mono, node, grid, List.zipIdx, vec2] <;> ring
  case inr.inr.inr.inl | inr.inr.inr.inr =>
    obtain ⟨hi, hj, hk⟩ := he
    simp only at hi hj hk
    simp only [basis, Option.some.injEq] at hb
    subst hb
    interval_cases i <;> interval_cases j <;> interval_cases k <;> norm_num [interp, h8, h27, mono, node, grid, List.zipIdx, vec2] <;> ring

/-- **C67** (exactness).  If the nodes are the images of the reference nodes under a map whose components are polynomials of degree `d`, then the geometry is this
map. -/
theorem C67_exact {c : Eclass} {d : Nat} (h : Implemented c d) {F : Pt → Pt} (hF : ∀ i, (fun r => F r i) ∈ Poly c d) (r : Pt) :
    evaluate c d (fun n => F (node c n)) r = some (F r) := by
  obtain ⟨b, hb, _⟩ := basis_some h r
  rw [evaluate_eq, hb, Option.map_some]
  congr 1
  funext i
  have key : ∀ f ∈ Poly c d, interp b (fun n => f (node c n)) = f r := by
    intro f hf
    induction hf using Submodule.span_induction with
    | mem x hx =>
      obtain ⟨e, he, rfl⟩ := hx
      exact interp_mono h hb he
    | zero => simp [interp_sum]
    | add x y _ _ hx hy =>
      simp only [Pi.add_apply]
      rw [interp_add, hx, hy]
    | smul a x _ hx =>
      simp only [Pi.smul_apply, smul_eq_mul]
      rw [interp_mul, hx]
  exact key _ (hF i)

set_option maxHeartbeats 4000000 in
/-- **C67** (nodes).  The geometry maps each reference node to the node of the tree. -/
theorem C67_nodes {c : Eclass} {d : Nat} (h : Implemented c d) (V : Nat → Pt) {n : Nat} (hn : n < numNodes c d) :
    evaluate c d V (node c n) = some (V n) := by
  rw [evaluate_eq]
  obtain ⟨rfl | rfl | rfl | rfl, rfl | rfl⟩ := h <;> simp only [numNodes, if_true] at hn <;> norm_num at hn <;>
    interval_cases n <;> simp only [basis, Option.map_some] <;> congr 1 <;> funext i <;>
    norm_num [interp, s2, s3, t3, t6, q4, q9, h8, h27, node, grid, List.zipIdx, vec2]

set_option maxHeartbeats 4000000 in
/-- **C67** (faces).  On each face the geometry is the geometry of the face as an element of its own: the image of a point of the face is determined by the nodes of
the face.  So trees that share the nodes of a face leave no gap. -/
theorem C67_faces {c : Eclass} {d : Nat} (h : Implemented c d) (hc : c ≠ .line) (V : Nat → Pt) {f : Nat} (hf : f < c.numFaces) (r : Pt) :
    ∃ q W, mapOnFace (faceClass c) c f r = some q ∧ faceElement c d V f = some W ∧ OnFace c f q ∧
      (evaluate c d V q).isSome ∧ evaluate c d V q = evaluate (faceClass c) d W r := by
  obtain ⟨rfl | rfl | rfl | rfl, rfl | rfl⟩ := h
  case inl.inl | inl.inr => exact absurd rfl hc
  all_goals
    simp only [Eclass.numFaces] at hf
    interval_cases f <;> refine ⟨_, _, rfl, rfl, by simp [OnFace, vec2], rfl, ?_⟩ <;>
      rw [evaluate_eq, evaluate_eq] <;> simp only [basis, faceClass, Option.map_some] <;> congr 1 <;> funext i <;>
      simp [interp, s2, s3, t3, t6, q4, q9, h8, h27, List.zipIdx, vec2, -mul_eq_mul_right_iff, -mul_eq_mul_left_iff] <;> ring

set_option maxHeartbeats 4000000 in
/-- **C67** (nodes of faces).  The nodes of a face as an element of its own are its nodes in the tree. -/
theorem C67_face_nodes {c : Eclass} {d : Nat} (h : Implemented c d) (hc : c ≠ .line) {f n : Nat} (hf : f < c.numFaces)
    (hn : n < numNodes (faceClass c) d) :
    ∃ m < numNodes c d, (faceNodes c d).map (fun F => (F.getD f []).getD n 0) = some m ∧
      mapOnFace (faceClass c) c f (node (faceClass c) n) = some (node c m) := by
  obtain ⟨rfl | rfl | rfl | rfl, rfl | rfl⟩ := h
  case inl.inl | inl.inr => exact absurd rfl hc
  all_goals
    simp only [Eclass.numFaces] at hf
    simp only [faceClass, numNodes, if_true] at hn
    norm_num at hn
    interval_cases f <;> interval_cases n <;> refine ⟨_, ?_, rfl, ?_⟩ <;> first
      | decide
      | (simp only [mapOnFace, faceClass, List.getElem?_cons_zero, List.getElem?_cons_succ, Option.some.injEq]
         funext i
         fin_cases i <;> norm_num [node, grid, faceNodes, vec2])

/-- **C67** (degree 1).  The geometry of degree 1 is the linear geometry. -/
theorem C67_linear (V : Nat → Pt) (r : Pt) :
    evaluate .line 1 V r = some (CadGeometry.lerp1 (r 0) V) ∧ evaluate .quad 1 V r = some (CadGeometry.lerp2 (r 0) (r 1) V) ∧
      evaluate .hex 1 V r = some (CadGeometry.lerp3 r V) ∧ evaluate .triangle 1 V r = some (CadGeometry.tri2 (r 0) (r 1) V) := by
  refine ⟨?_, ?_, ?_, ?_⟩ <;> rw [evaluate_eq] <;> simp only [basis, Option.map_some] <;> congr 1 <;> funext i <;>
    simp [interp, s2, t3, q4, h8, List.zipIdx, CadGeometry.lerp1, CadGeometry.lerp2, CadGeometry.lerp3, CadGeometry.tri2] <;> ring

/-- **C67 fails for the faces of lines**: they are vertices, and there is no geometry for vertices. -/
theorem C67_line_faces_false (d : Nat) (V : Nat → Pt) (r : Pt) : faceClass .line = .vertex ∧ evaluate .vertex d V r = none := ⟨rfl, rfl⟩

/-! ### The hypotheses can be met -/

/-- Beside `C67_exact`: a curved hexahedron. -/
example (r : Pt) : evaluate .hex 2 (fun n => (fun r : Pt => ![r 0 ^ 2 * r 1 ^ 2 * r 2 ^ 2, r 1, r 2 ^ 2]) (node .hex n)) r =
    some ![r 0 ^ 2 * r 1 ^ 2 * r 2 ^ 2, r 1, r 2 ^ 2] := by
  refine C67_exact (F := fun r => ![r 0 ^ 2 * r 1 ^ 2 * r 2 ^ 2, r 1, r 2 ^ 2]) ⟨by simp, by simp⟩ (fun i => ?_) r
  fin_cases i
  · exact Submodule.subset_span ⟨(2, 2, 2), by simp [Exponent], by funext r; simp [mono]⟩
  · exact Submodule.subset_span ⟨(0, 1, 0), by simp [Exponent], by funext r; simp [mono]⟩
  · exact Submodule.subset_span ⟨(0, 0, 2), by simp [Exponent], by funext r; simp [mono, vec2]⟩

/-- Beside `C67_nodes`, `C67_faces` and `C67_face_nodes`: node 4 of face 3 of a hexahedron of degree 2 is node 14. -/
example (V : Nat → Pt) : evaluate .hex 2 V (node .hex 14) = some (V 14) ∧ node .hex 14 = ![1, 1, 1 / 2] :=
  ⟨C67_nodes ⟨by simp, by simp⟩ V (by decide), by funext i; fin_cases i <;> norm_num [node, grid, vec2]⟩

end T8.Lagrange
