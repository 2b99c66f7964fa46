import Verif.Spec.CadGeometry
import Mathlib.Tactic.IntervalCases
import Mathlib.Tactic.Ring
import Mathlib.Tactic.Linarith
import Mathlib.Tactic.FieldSimp
import Mathlib.Tactic.Abel
import Mathlib.Tactic.FinCases
import Mathlib.Algebra.BigOperators.Group.Finset.Basic
import Mathlib.Algebra.BigOperators.Intervals
import Mathlib.Algebra.BigOperators.Pi

/-!
# Lemmas: curved trees

The loops of the code as sums, and when their terms vanish.
-/

namespace T8.CadGeometry
open T8 T8.CadGeometry.Spec

theorem foldl_sum {M : Type} [AddCommMonoid M] (P : Nat → Prop) [DecidablePred P] (g : Nat → M) (n : Nat) (out : M) :
    (List.range n).foldl (fun (out : M) (e : Nat) => if P e then out + g e else out) out =
      out + ∑ e ∈ Finset.range n, if P e then g e else 0 := by
  induction n with
  | zero => simp
  | succ n ih =>
    rw [List.range_succ, List.foldl_append, ih, Finset.sum_range_succ]
    simp only [List.foldl_cons, List.foldl_nil]
    split <;> simp [add_assoc]

/-- What one edge adds. -/
def edgeTerm (G : Cad) (T : Tree) (c : Eclass) (n : Nat) (coeff factor : Nat → ℝ) (e : Nat) : Pt :=
  if 0 < T.edges e ∨ 0 < T.edges (e + n) then factor e • edgeDelta G T c n e (coeff e) else 0

theorem addEdges_eq (G : Cad) (T : Tree) (c : Eclass) (n : Nat) (coeff factor : Nat → ℝ) (out : Pt) :
    addEdges G T c n coeff factor out = out + ∑ e ∈ Finset.range n, edgeTerm G T c n coeff factor e := by
  unfold addEdges
  rw [foldl_sum (fun e => 0 < T.edges e ∨ 0 < T.edges (e + n)) (fun e => factor e • edgeDelta G T c n e (coeff e))]
  rfl

/-- What one face adds. -/
def faceTerm (T : Tree) (delta : Nat → Pt) (factor : Nat → ℝ) (f : Nat) : Pt := if 0 < T.faces f then factor f • delta f else 0

theorem addFaces_eq (T : Tree) (n : Nat) (delta : Nat → Pt) (factor : Nat → ℝ) (out : Pt) :
    addFaces T n delta factor out = out + ∑ f ∈ Finset.range n, faceTerm T delta factor f := by
  unfold addFaces
  rw [foldl_sum (fun f => 0 < T.faces f) (fun f => factor f • delta f)]
  rfl

theorem fromEdges_eq {ι : Type} (T : Tree) (es : List Nat) (factor : Nat → ℝ) (delta : Nat → ι → ℝ) :
    fromEdges T es factor delta =
      ∑ k ∈ Finset.range es.length, if 0 < T.edges (es.getD k 0) then factor k • delta k else 0 := by
  unfold fromEdges
  rw [foldl_sum (fun k => 0 < T.edges (es.getD k 0)) (fun k => factor k • delta k), zero_add]

theorem lerp1_zero {ι : Type} (w : Nat → ι → ℝ) : lerp1 0 w = w 0 := by
  funext i; simp [lerp1]

theorem lerp1_one {ι : Type} (w : Nat → ι → ℝ) : lerp1 1 w = w 1 := by
  funext i; simp [lerp1]

theorem lerp1_between (T : Tree) (e : Nat) (t : ℝ) : lerp1 t (T.edgeParams e) 0 = between T e t := by
  simp only [lerp1, between]; ring

theorem tail_hex : ∀ e < 12, entry (edgeVertices .hex) e 0 = tail .hex e ∧ entry (edgeVertices .hex) e 1 = head .hex e := by decide
theorem tail_tet : ∀ e < 6, entry (edgeVertices .tet) e 0 = tail .tet e ∧ entry (edgeVertices .tet) e 1 = head .tet e := by decide
theorem tail_prism : ∀ e < 9, entry (edgeVertices .prism) e 0 = tail .prism e ∧ entry (edgeVertices .prism) e 1 = head .prism e := by
  decide

theorem tails (c : Eclass) (e : Nat) (he : e < (ends c).length) :
    entry (edgeVertices c) e 0 = tail c e ∧ entry (edgeVertices c) e 1 = head c e := by
  cases c with
  | hex => exact tail_hex e he
  | tet => exact tail_tet e he
  | prism => exact tail_prism e he
  | _ => simp [ends] at he

theorem getEdgeVertices_zero (c : Eclass) (V : Nat → Pt) (e : Nat) (he : e < (ends c).length) :
    getEdgeVertices c V e 0 = V (tail c e) := by
  unfold getEdgeVertices; rw [(tails c e he).1]

theorem getEdgeVertices_one (c : Eclass) (V : Nat → Pt) (e : Nat) (he : e < (ends c).length) :
    getEdgeVertices c V e 1 = V (head c e) := by
  unfold getEdgeVertices; rw [(tails c e he).2]

/-- The displacement of a linked edge vanishes at its vertices. -/
theorem edgeDelta_node {G : Cad} {T : Tree} {c : Eclass} (F : Fits G T c) {e : Nat} (he : e < (ends c).length)
    (hl : 0 < T.edges e ∨ 0 < T.edges (e + (ends c).length)) {t : ℝ} (ht : t = 0 ∨ t = 1) :
    edgeDelta G T c (ends c).length e t = 0 := by
  unfold edgeDelta edgePoint
  split
  case isTrue h =>
    rcases ht with rfl | rfl
    · rw [lerp1_zero, lerp1_zero, getEdgeVertices_zero c T.V e he, (F.curve e he h).1, sub_self]
    · rw [lerp1_one, lerp1_one, getEdgeVertices_one c T.V e he, (F.curve e he h).2, sub_self]
  case isFalse h =>
    have h' : 0 < T.edges (e + (ends c).length) := hl.resolve_left h
    rcases ht with rfl | rfl
    · rw [lerp1_zero, lerp1_zero, getEdgeVertices_zero c T.V e he, (F.edgeSurface e he h').1, sub_self]
    · rw [lerp1_one, lerp1_one, getEdgeVertices_one c T.V e he, (F.edgeSurface e he h').2, sub_self]

/-- An edge adds nothing where its factor vanishes or at its vertices. -/
theorem edgeTerm_zero {G : Cad} {T : Tree} {c : Eclass} (F : Fits G T c) (coeff factor : Nat → ℝ) {e : Nat} (he : e < (ends c).length)
    (h : factor e = 0 ∨ coeff e = 0 ∨ coeff e = 1) : edgeTerm G T c (ends c).length coeff factor e = 0 := by
  unfold edgeTerm
  split
  case isFalse => rfl
  case isTrue hl =>
    rcases h with h | h
    · rw [h, zero_smul]
    · rw [edgeDelta_node F he hl h, smul_zero]

/-- On the edge itself it adds what is missing to the target. -/
theorem edgeTerm_self {G : Cad} {T : Tree} {c : Eclass} (coeff factor : Nat → ℝ) {e : Nat} (he : e < (ends c).length)
    (h : factor e = 1) :
    edgeTerm G T c (ends c).length coeff factor e =
      edgeTarget G T c e (coeff e) - ((1 - coeff e) • T.V (tail c e) + coeff e • T.V (head c e)) := by
  have hline : lerp1 (coeff e) (getEdgeVertices c T.V e) = (1 - coeff e) • T.V (tail c e) + coeff e • T.V (head c e) := by
    funext i
    simp only [lerp1, getEdgeVertices_zero c T.V e he, getEdgeVertices_one c T.V e he, Pi.add_apply, Pi.smul_apply, smul_eq_mul]
    ring
  have hprm : lerp1 (coeff e) (T.edgeParams e) = (1 - coeff e) • T.edgeParams e 0 + coeff e • T.edgeParams e 1 := by
    funext i
    simp only [lerp1, Pi.add_apply, Pi.smul_apply, smul_eq_mul]
    ring
  unfold edgeTerm edgeDelta edgePoint edgeTarget
  rw [h, one_smul, hline, lerp1_between, hprm]
  by_cases h1 : 0 < T.edges e
  · simp [h1]
  · by_cases h2 : 0 < T.edges (e + (ends c).length)
    · simp [h1, h2]
    · simp [h1, h2]

theorem faceTerm_zero (T : Tree) (delta : Nat → Pt) (factor : Nat → ℝ) (f : Nat) (h : factor f = 0 ∨ T.faces f ≤ 0 ∨ delta f = 0) :
    faceTerm T delta factor f = 0 := by
  unfold faceTerm
  split
  case isFalse => rfl
  case isTrue hl =>
    rcases h with h | h | h
    · rw [h, zero_smul]
    · omega
    · rw [h, smul_zero]

/-! ### Hexahedra: faces as patches -/

/-- A bilinear patch with displaced edges. -/
def patch {ι : Type} (P : Nat → ι → ℝ) (d : Nat → ℝ → ι → ℝ) (a b : ℝ) : ι → ℝ :=
  lerp2 a b P + ((1 - a) • d 0 b + a • d 1 b + (1 - b) • d 2 a + b • d 3 a)

/-- The smaller and the larger direction in a face. -/
def low (f : Nat) : Nat := if f / 2 = 0 then 1 else 0
/-- The larger direction in a face. -/
def high (f : Nat) : Nat := if f / 2 = 2 then 1 else 2

/-- The displacement of edge `k` of face `f`. -/
noncomputable def dPoint (G : Cad) (T : Tree) (f k : Nat) (t : ℝ) : Pt :=
  let e := entry (faceEdges .hex) f k
  if 0 < T.edges e then G.curve (T.edges e) (between T e t) - lerp1 t (getFaceVertices .quad (getFaceVertices .hex T.V f) k) else 0

/-- The displacement of the parameters at edge `k` of face `f`. -/
noncomputable def dParam (G : Cad) (T : Tree) (f k : Nat) (t : ℝ) : Prm :=
  let e := entry (faceEdges .hex) f k
  if 0 < T.edges e then
    G.toFace (T.edges e) (T.faces f) (between T e t) (T.faceParams f 0) - lerp1 t (getFaceVertices .quad (T.faceParams f) k)
  else 0

theorem ite_smul_zero' {ι : Type} (P : Prop) [Decidable P] (a : ℝ) (x : ι → ℝ) : (if P then a • x else 0) = a • (if P then x else 0) := by
  split <;> simp

theorem hexFaceDelta_eq (G : Cad) (T : Tree) (r : Pt) (f : Nat) (hf : f < 6) :
    hexFaceDelta G T r f = G.surf (T.faces f) (patch (T.faceParams f) (dParam G T f) (at3 r (low f)) (at3 r (high f))) -
      patch (getFaceVertices .hex T.V f) (dPoint G T f) (at3 r (low f)) (at3 r (high f)) := by
  unfold hexFaceDelta
  simp only [fromEdges_eq, lerp1_between, ite_smul_zero']
  interval_cases f
  all_goals
    congr 1
    · congr 1
      funext i
      simp [patch, dParam, faceEdges, entry, Finset.sum_range_succ, hexFaceEdgeFactor, orthDirection, at3, low, high, switch, lerp2]
      try ring
    · funext i
      simp [patch, dPoint, faceEdges, entry, Finset.sum_range_succ, hexFaceEdgeFactor, orthDirection, at3, low, high, switch, lerp2]
      try ring

theorem patch_left {ι : Type} (P : Nat → ι → ℝ) (d : Nat → ℝ → ι → ℝ) (b : ℝ) (h2 : d 2 0 = 0) (h3 : d 3 0 = 0) :
    patch P d 0 b = lerp1 b (getFaceVertices .quad P 0) + d 0 b := by
  funext i
  simp [patch, h2, h3, lerp2, lerp1, getFaceVertices, Neighbor.faceVertices, entry]

theorem patch_right {ι : Type} (P : Nat → ι → ℝ) (d : Nat → ℝ → ι → ℝ) (b : ℝ) (h2 : d 2 1 = 0) (h3 : d 3 1 = 0) :
    patch P d 1 b = lerp1 b (getFaceVertices .quad P 1) + d 1 b := by
  funext i
  simp [patch, h2, h3, lerp2, lerp1, getFaceVertices, Neighbor.faceVertices, entry]

theorem patch_bottom {ι : Type} (P : Nat → ι → ℝ) (d : Nat → ℝ → ι → ℝ) (a : ℝ) (h0 : d 0 0 = 0) (h1 : d 1 0 = 0) :
    patch P d a 0 = lerp1 a (getFaceVertices .quad P 2) + d 2 a := by
  funext i
  simp [patch, h0, h1, lerp2, lerp1, getFaceVertices, Neighbor.faceVertices, entry]

theorem patch_top {ι : Type} (P : Nat → ι → ℝ) (d : Nat → ℝ → ι → ℝ) (a : ℝ) (h0 : d 0 1 = 0) (h1 : d 1 1 = 0) :
    patch P d a 1 = lerp1 a (getFaceVertices .quad P 3) + d 3 a := by
  funext i
  simp [patch, h0, h1, lerp2, lerp1, getFaceVertices, Neighbor.faceVertices, entry]

/-- The edges of the faces of a hexahedron in the order of the edges of a quad. -/
theorem hex_face_edge : ∀ f < 6, ∀ k < 4, entry (faceEdges .hex) f k < 12 ∧
    entry (Neighbor.faceVertices .quad) k 0 < 4 ∧ entry (Neighbor.faceVertices .quad) k 1 < 4 ∧
    (cornersOf .hex f).getD (entry (Neighbor.faceVertices .quad) k 0) 0 = tail .hex (entry (faceEdges .hex) f k) ∧
    (cornersOf .hex f).getD (entry (Neighbor.faceVertices .quad) k 1) 0 = head .hex (entry (faceEdges .hex) f k) ∧
    Borders .hex (entry (faceEdges .hex) f k) f := by decide

theorem hex_face_corner : ∀ f < 6, (cornersOf .hex f).length = 4 ∧ ∀ i < 4, entry (Neighbor.faceVertices .hex) f i = (cornersOf .hex f).getD i 0 := by
  decide

theorem hex_edge_corner (f k : Nat) (V : Nat → Pt) (hf : f < 6) (hk : k < 4) :
    getFaceVertices .quad (getFaceVertices .hex V f) k 0 = V (tail .hex (entry (faceEdges .hex) f k)) ∧
    getFaceVertices .quad (getFaceVertices .hex V f) k 1 = V (head .hex (entry (faceEdges .hex) f k)) := by
  obtain ⟨_, hi, hj, h0, h1, _⟩ := hex_face_edge f hf k hk
  unfold getFaceVertices
  rw [(hex_face_corner f hf).2 _ hi, (hex_face_corner f hf).2 _ hj, h0, h1]
  exact ⟨rfl, rfl⟩

theorem between_zero (T : Tree) (e : Nat) : between T e 0 = T.edgeParams e 0 0 := by simp [between]
theorem between_one (T : Tree) (e : Nat) : between T e 1 = T.edgeParams e 1 0 := by simp [between]

theorem dPoint_node {G : Cad} {T : Tree} (F : Fits G T .hex) {f k : Nat} (hf : f < 6) (hk : k < 4) {t : ℝ} (ht : t = 0 ∨ t = 1) :
    dPoint G T f k t = 0 := by
  have he := (hex_face_edge f hf k hk).1
  obtain ⟨v0, v1⟩ := hex_edge_corner f k T.V hf hk
  simp only [dPoint]
  split
  case isFalse => rfl
  case isTrue h =>
    rcases ht with rfl | rfl
    · rw [lerp1_zero, between_zero, v0, (F.curve _ he h).1, sub_self]
    · rw [lerp1_one, between_one, v1, (F.curve _ he h).2, sub_self]

theorem dParam_node {G : Cad} {T : Tree} (C : Converts G T .hex) {f k : Nat} (hf : f < 6) (hl : 0 < T.faces f) (hk : k < 4) {t : ℝ}
    (ht : t = 0 ∨ t = 1) : dParam G T f k t = 0 := by
  obtain ⟨he, hi, hj, h0, h1, _⟩ := hex_face_edge f hf k hk
  have hlen := (hex_face_corner f hf).1
  simp only [dParam]
  split
  case isFalse => rfl
  case isTrue h =>
    have hn := C.nodes f hf hl _ he h _ (by rw [hlen]; exact hi) _ (by rw [hlen]; exact hj) h0 h1
    rcases ht with rfl | rfl
    · rw [lerp1_zero, between_zero, hn.1]
      exact sub_self _
    · rw [lerp1_one, between_one, hn.2]
      exact sub_self _

/-- A linked face of a hexahedron adds nothing at the edges that have a curve. -/
theorem hexFaceDelta_edge {G : Cad} {T : Tree} (F : Fits G T .hex) (C : Converts G T .hex) (r : Pt) {f k : Nat} (hf : f < 6)
    (hl : 0 < T.faces f) (hk : k < 4) (hc : 0 < T.edges (entry (faceEdges .hex) f k)) {t : ℝ} (h0 : 0 ≤ t) (h1 : t ≤ 1)
    (h : (k = 0 ∧ at3 r (low f) = 0 ∧ at3 r (high f) = t) ∨ (k = 1 ∧ at3 r (low f) = 1 ∧ at3 r (high f) = t) ∨
      (k = 2 ∧ at3 r (high f) = 0 ∧ at3 r (low f) = t) ∨ (k = 3 ∧ at3 r (high f) = 1 ∧ at3 r (low f) = t)) :
    hexFaceDelta G T r f = 0 := by
  have key : G.surf (T.faces f) (lerp1 t (getFaceVertices .quad (T.faceParams f) k) + dParam G T f k t) -
      (lerp1 t (getFaceVertices .quad (getFaceVertices .hex T.V f) k) + dPoint G T f k t) = 0 := by
    obtain ⟨he, _, _, _, _, hb⟩ := hex_face_edge f hf k hk
    simp only [dParam, dPoint, hc, if_true, add_sub_cancel]
    rw [C.inside f hf hl _ he hb hc t h0 h1, sub_self]
  rw [hexFaceDelta_eq G T r f hf]
  rcases h with ⟨rfl, ha, hb⟩ | ⟨rfl, ha, hb⟩ | ⟨rfl, ha, hb⟩ | ⟨rfl, ha, hb⟩
  · rw [ha, hb, patch_left _ _ _ (dPoint_node F hf (by decide) (Or.inl rfl)) (dPoint_node F hf (by decide) (Or.inl rfl)),
      patch_left _ _ _ (dParam_node C hf hl (by decide) (Or.inl rfl)) (dParam_node C hf hl (by decide) (Or.inl rfl))]
    exact key
  · rw [ha, hb, patch_right _ _ _ (dPoint_node F hf (by decide) (Or.inr rfl)) (dPoint_node F hf (by decide) (Or.inr rfl)),
      patch_right _ _ _ (dParam_node C hf hl (by decide) (Or.inr rfl)) (dParam_node C hf hl (by decide) (Or.inr rfl))]
    exact key
  · rw [ha, hb, patch_bottom _ _ _ (dPoint_node F hf (by decide) (Or.inl rfl)) (dPoint_node F hf (by decide) (Or.inl rfl)),
      patch_bottom _ _ _ (dParam_node C hf hl (by decide) (Or.inl rfl)) (dParam_node C hf hl (by decide) (Or.inl rfl))]
    exact key
  · rw [ha, hb, patch_top _ _ _ (dPoint_node F hf (by decide) (Or.inr rfl)) (dPoint_node F hf (by decide) (Or.inr rfl)),
      patch_top _ _ _ (dParam_node C hf hl (by decide) (Or.inr rfl)) (dParam_node C hf hl (by decide) (Or.inr rfl))]
    exact key

/-- A linked face of a hexahedron adds nothing at its vertices. -/
theorem hexFaceDelta_node {G : Cad} {T : Tree} (F : Fits G T .hex) (C : Converts G T .hex) (r : Pt) {f : Nat} (hf : f < 6)
    (hl : 0 < T.faces f) (ha : at3 r (low f) = 0 ∨ at3 r (low f) = 1) (hb : at3 r (high f) = 0 ∨ at3 r (high f) = 1) :
    hexFaceDelta G T r f = 0 := by
  have key : ∀ i < 4, G.surf (T.faces f) (T.faceParams f i) - getFaceVertices .hex T.V f i = 0 := by
    intro i hi
    have hlen := (hex_face_corner f hf).1
    rw [F.faceSurface f hf hl i (by rw [hlen]; exact hi)]
    unfold getFaceVertices
    rw [(hex_face_corner f hf).2 i hi, sub_self]
  have dp : ∀ k < 4, ∀ t : ℝ, t = 0 ∨ t = 1 → dPoint G T f k t = 0 := fun k hk t ht => dPoint_node F hf hk ht
  have dq : ∀ k < 4, ∀ t : ℝ, t = 0 ∨ t = 1 → dParam G T f k t = 0 := fun k hk t ht => dParam_node C hf hl hk ht
  have np : ∀ {ι : Type} (P : Nat → ι → ℝ) (d : Nat → ℝ → ι → ℝ), (∀ k < 4, ∀ t : ℝ, t = 0 ∨ t = 1 → d k t = 0) →
      patch P d 0 0 = P 0 ∧ patch P d 1 0 = P 1 ∧ patch P d 0 1 = P 2 ∧ patch P d 1 1 = P 3 := by
    intro ι P d hd
    refine ⟨?_, ?_, ?_, ?_⟩ <;>
    · funext i
      simp [patch, lerp2, hd 0 (by decide) 0 (Or.inl rfl), hd 1 (by decide) 0 (Or.inl rfl), hd 2 (by decide) 0 (Or.inl rfl),
        hd 3 (by decide) 0 (Or.inl rfl), hd 0 (by decide) 1 (Or.inr rfl), hd 1 (by decide) 1 (Or.inr rfl),
        hd 2 (by decide) 1 (Or.inr rfl), hd 3 (by decide) 1 (Or.inr rfl)]
  obtain ⟨p0, p1, p2, p3⟩ := np (T.faceParams f) (dParam G T f) dq
  obtain ⟨w0, w1, w2, w3⟩ := np (getFaceVertices .hex T.V f) (dPoint G T f) dp
  rw [hexFaceDelta_eq G T r f hf]
  rcases ha with ha | ha <;> rcases hb with hb | hb <;> rw [ha, hb]
  · rw [p0, w0]; exact key 0 (by decide)
  · rw [p2, w2]; exact key 2 (by decide)
  · rw [p1, w1]; exact key 1 (by decide)
  · rw [p3, w3]; exact key 3 (by decide)

/-! ### Tetrahedra -/

theorem tetDelta_node {G : Cad} {T : Tree} (F : Fits G T .tet) {e : Nat} (he : e < 6) (hl : 0 < T.edges e ∨ 0 < T.edges (e + 6)) {t : ℝ}
    (ht : t = 0 ∨ t = 1) : edgeDelta G T .tet 6 e t = 0 := edgeDelta_node (c := .tet) F he hl ht

theorem tet_face_corner : ∀ f < 4, (cornersOf .tet f).length = 3 ∧ (faceEdges .tet).getD f [] ≠ [] := by decide

/-- The displacement of a face of a tetrahedron at the point `q` of the face. -/
noncomputable def tetPatch (G : Cad) (T : Tree) (f : Nat) (q : Pt) : Pt :=
  let es := (faceEdges .tet).getD f []
  G.surf (T.faces f) (tri2 (at3 q (tetFaceCoord f 0)) (at3 q (tetFaceCoord f 1)) (T.faceParams f)) -
    (tri3 q T.V + ∑ k ∈ Finset.range 3, if 0 < T.edges (es.getD k 0) then
      (tetEdgeOnFace (es.getD k 0) f q * tetEdgeOnFace (es.getD k 0) f q) • edgeDelta G T .tet 6 (es.getD k 0) (tetEdgeCoeff q (es.getD k 0))
      else 0)

theorem tetFaceDelta_eq (G : Cad) (T : Tree) (r : Pt) (f : Nat) (hf : f < 4) :
    tetFaceDelta G T r f = tetPatch G T f (tetFaceIntersection f r) := by
  unfold tetFaceDelta tetPatch
  simp only [fromEdges_eq]
  have hlen : ((faceEdges .tet).getD f []).length = 3 := by interval_cases f <;> rfl
  rw [hlen]
  congr 2
  refine Finset.sum_congr rfl fun k _ => ?_
  split
  · rename_i h
    simp only [edgeDelta, edgePoint, h, if_true]
  · rfl

/-- The surface parameters on a face of a tetrahedron. -/
theorem tet_params (T : Tree) {f : Nat} (hf : f < 4) {q : Pt} (hp : InPlane .tet f q) :
    tri2 (at3 q (tetFaceCoord f 0)) (at3 q (tetFaceCoord f 1)) (T.faceParams f) = faceBetween T .tet f q := by
  funext i
  interval_cases f <;> simp [InPlane] at hp <;>
    simp [faceBetween, cornersOf, faceCorners, Finset.sum_range_succ, weight, tri2, at3, tetFaceCoord, entry, hp] <;> ring

/-- The ray through a point of the face meets the face in this point. -/
theorem tetFaceIntersection_self {f : Nat} (hf : f < 4) {r : Pt} (hp : InPlane .tet f r) : tetFaceIntersection f r = r := by
  unfold tetFaceIntersection
  interval_cases f <;> simp [InPlane] at hp
  · rw [if_neg (by simp [cornerRef, hp])]
    funext i
    fin_cases i <;> simp [dot, getFaceVertices, Neighbor.faceVertices, entry, cornerRef, tetNormal, hp]
  · rw [if_neg (by simp only [cornerRef]; simp; intro h0 _ h2; rw [h0] at hp; linarith)]
    have : (-1 : ℝ) / (r 0 - 1 + -r 2) = 1 := by
      rw [hp, show r 2 - 1 + -r 2 = -1 by ring]; norm_num
    funext i
    fin_cases i <;> simp [dot, getFaceVertices, Neighbor.faceVertices, entry, cornerRef, tetNormal, this]
  · rw [if_neg (by simp only [cornerRef]; simp; intro h0 h1 h2; rw [h1, h2] at hp; linarith)]
    have : (-1 : ℝ) / (-r 1 + (r 2 - 1)) = 1 := by
      rw [hp, show -r 2 + (r 2 - 1) = -1 by ring]; norm_num
    funext i
    fin_cases i <;> simp [dot, getFaceVertices, Neighbor.faceVertices, entry, cornerRef, tetNormal, this]
  · rw [if_neg (by simp [cornerRef, hp])]
    funext i
    fin_cases i <;> simp [dot, getFaceVertices, Neighbor.faceVertices, entry, cornerRef, tetNormal, hp]

theorem tetEdgeCoeff_corner (v : Nat) (hv : v < 4) (e : Nat) (he : e < 6) :
    tetEdgeCoeff (corner .tet v) e = 0 ∨ tetEdgeCoeff (corner .tet v) e = 1 := by
  interval_cases v <;> interval_cases e <;> simp [tetEdgeCoeff, at3, corner]

theorem tet_face_edge : ∀ f < 4, ∀ k < 3, ((faceEdges .tet).getD f []).getD k 0 < 6 := by decide

theorem tri3_corner (V : Nat → Pt) (v : Nat) (hv : v < 4) : tri3 (corner .tet v) V = V v := by
  funext i
  interval_cases v <;> simp [tri3, corner] <;> ring

/-- A linked face of a tetrahedron is not displaced at its vertices. -/
theorem tetPatch_node {G : Cad} {T : Tree} (F : Fits G T .tet) {f : Nat} (hf : f < 4) (hl : 0 < T.faces f) {i : Nat} (hi : i < 3) :
    tetPatch G T f (corner .tet ((cornersOf .tet f).getD i 0)) = 0 := by
  have hv : (cornersOf .tet f).getD i 0 < 4 := by
    interval_cases f <;> interval_cases i <;> decide
  have hplane : InPlane .tet f (corner .tet ((cornersOf .tet f).getD i 0)) := by
    interval_cases f <;> interval_cases i <;> simp [InPlane, corner, cornersOf, faceCorners]
  have hparam : faceBetween T .tet f (corner .tet ((cornersOf .tet f).getD i 0)) = T.faceParams f i := by
    funext j
    interval_cases f <;> interval_cases i <;>
      simp [faceBetween, cornersOf, faceCorners, Finset.sum_range_succ, weight, corner]
  simp only [tetPatch]
  rw [tet_params T hf hplane, hparam, F.faceSurface f hf hl i (by rw [(tet_face_corner f hf).1]; exact hi), tri3_corner T.V _ hv]
  rw [Finset.sum_eq_zero, add_zero, sub_self]
  intro k hk
  rw [Finset.mem_range] at hk
  split
  · rename_i h
    rw [tetDelta_node F (tet_face_edge f hf k hk) (Or.inl h) (tetEdgeCoeff_corner _ hv _ (tet_face_edge f hf k hk)), smul_zero]
  · rfl

theorem tetEdgeCoeff_self {e : Nat} (he : e < 6) (t : ℝ) : tetEdgeCoeff (onEdge .tet e t) e = t := by
  interval_cases e <;> simp [tetEdgeCoeff, at3, onEdge, corner, tail, head, ends]

/-- On an edge the factor of its faces is 1, away from the vertices. -/
theorem tetEdgeOnFace_self {e f : Nat} (he : e < 6) (hf : f < 4) (hb : Borders .tet e f) {t : ℝ} (h0 : t ≠ 0) (h1 : t ≠ 1) :
    tetEdgeOnFace e f (onEdge .tet e t) = 1 := by
  have h2 : 1 - t ≠ 0 := fun h => h1 (by linarith)
  have h3 : 1 - t ≠ 1 := fun h => h0 (by linarith)
  unfold tetEdgeOnFace
  interval_cases e <;> interval_cases f <;> first
    | exact absurd hb (by decide)
    | simp [tetMaxOrth, tetOrth, onEdge, corner, tail, head, ends, h0, h1, h2, h3]

/-- On an edge of a face the other edges of the face have factor 0, or the point belongs to one of their vertices. -/
theorem tetEdgeOnFace_other {e e' f : Nat} (he : e < 6) (he' : e' < 6) (hf : f < 4) (hb : Borders .tet e f) (hb' : Borders .tet e' f)
    (hne : e' ≠ e) {t : ℝ} (h0 : t ≠ 0) (h1 : t ≠ 1) :
    tetEdgeOnFace e' f (onEdge .tet e t) = 0 ∨ tetEdgeCoeff (onEdge .tet e t) e' = 0 ∨ tetEdgeCoeff (onEdge .tet e t) e' = 1 := by
  have h2 : 1 - t ≠ 0 := fun h => h1 (by linarith)
  have h3 : 1 - t ≠ 1 := fun h => h0 (by linarith)
  unfold tetEdgeOnFace tetEdgeCoeff
  interval_cases f <;> interval_cases e <;> first
    | exact absurd hb (by decide)
    | (interval_cases e' <;> first
        | exact absurd hb' (by decide)
        | exact absurd rfl hne
        | simp [tetMaxOrth, tetOrth, at3, onEdge, corner, tail, head, ends, h0, h1, h2, h3])

theorem onEdge_zero (c : Eclass) (e : Nat) : onEdge c e 0 = corner c (tail c e) := by simp [onEdge]
theorem onEdge_one (c : Eclass) (e : Nat) : onEdge c e 1 = corner c (head c e) := by simp [onEdge]

theorem tet_edge_index : ∀ e < 6, ∀ f < 4, Borders .tet e f → ∃ i < 3, ∃ j < 3, (cornersOf .tet f).getD i 0 = tail .tet e ∧
    (cornersOf .tet f).getD j 0 = head .tet e ∧ ∃ k < 3, ((faceEdges .tet).getD f []).getD k 0 = e ∧
    ∀ k' < 3, k' ≠ k → ((faceEdges .tet).getD f []).getD k' 0 ≠ e := by
  intro e he f hf
  interval_cases e <;> interval_cases f <;> decide

theorem tet_face_borders : ∀ f < 4, ∀ k < 3, Borders .tet (((faceEdges .tet).getD f []).getD k 0) f := by decide

/-- A linked face of a tetrahedron is not displaced at its edges with curves. -/
theorem tetPatch_edge {G : Cad} {T : Tree} (F : Fits G T .tet) (I : Inside G T .tet) {e f : Nat} (he : e < 6) (hf : f < 4)
    (hl : 0 < T.faces f) (hb : Borders .tet e f) (hc : 0 < T.edges e) {t : ℝ} (h0 : 0 ≤ t) (h1 : t ≤ 1) :
    tetPatch G T f (onEdge .tet e t) = 0 := by
  obtain ⟨i, hi, j, hj, hit, hjh, k, hk, hke, hk'⟩ := tet_edge_index e he f hf hb
  by_cases t0 : t = 0
  · subst t0
    rw [onEdge_zero, ← hit]
    exact tetPatch_node F hf hl hi
  by_cases t1 : t = 1
  · subst t1
    rw [onEdge_one, ← hjh]
    exact tetPatch_node F hf hl hj
  have hplane : InPlane .tet f (onEdge .tet e t) := by
    clear hit hjh hk hke hk' hi hj
    interval_cases f <;> interval_cases e <;> first
      | exact absurd hb (by decide)
      | simp [InPlane, onEdge, corner, tail, head, ends]
  have hlen := (tet_face_corner f hf).1
  have hparam : faceBetween T .tet f (onEdge .tet e t) = (1 - t) • T.faceParams f i + t • T.faceParams f j := by
    clear hk hke hk'
    funext m
    interval_cases f <;> interval_cases e <;> first
      | exact absurd hb (by decide)
      | (interval_cases i <;> interval_cases j <;> first
          | exact absurd hit (by decide)
          | exact absurd hjh (by decide)
          | simp [faceBetween, cornersOf, faceCorners, Finset.sum_range_succ, weight, onEdge, corner, tail, head, ends])
  simp only [tetPatch]
  rw [tet_params T hf hplane, hparam, I f hf hl e he hc i (by rw [hlen]; exact hi) j (by rw [hlen]; exact hj) hit hjh t h0 h1]
  rw [Finset.sum_eq_single k]
  · rw [hke, if_pos hc, tetEdgeOnFace_self he hf hb t0 t1, tetEdgeCoeff_self he t]
    have hlin : tri3 (onEdge .tet e t) T.V = lerp1 t (getEdgeVertices .tet T.V e) := by
      funext m
      simp only [lerp1, getEdgeVertices_zero .tet T.V e he, getEdgeVertices_one .tet T.V e he]
      clear hit hjh hk hke hk' hi hj hparam hplane
      interval_cases e <;> simp [tri3, onEdge, corner, tail, head, ends] <;> ring
    rw [hlin, edgeDelta, edgePoint, if_pos hc, lerp1_between]
    simp
  · intro k' hk4 hne
    rw [Finset.mem_range] at hk4
    split
    · rename_i h
      have hx := tet_face_edge f hf k' hk4
      rcases tetEdgeOnFace_other he hx hf hb (tet_face_borders f hf k' hk4) (hk' k' hk4 hne) t0 t1 with hz | hz
      · rw [hz, zero_mul, zero_smul]
      · rw [tetDelta_node F hx (Or.inl h) hz, smul_zero]
    · rfl
  · intro h
    exact absurd (Finset.mem_range.2 hk) h

end T8.CadGeometry
