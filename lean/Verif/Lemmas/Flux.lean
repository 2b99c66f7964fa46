/-
The faces of elements of dimension three: areas, centroids and normals.
-/
import Verif.Lemmas.Measure

namespace T8.Geometry
open Neighbor

/-! ### The reference elements -/

/-- The centroid of face `f` of a reference element with the face corners `L`. -/
def refFaceCenter (c : Eclass) (L : List (List Nat)) (f : Nat) : Point :=
  fun k => ((L.getD f []).map fun v => cornerRefCoords c v k).sum / ((L.getD f []).length : ℚ)

/-- The outer normal of face `f` of a reference element, with the area of the face as its length. -/
def refFlux (c : Eclass) (L : List (List Nat)) (f : Nat) : Point :=
  let u := refFacePoint c L f
  fun k => (if (L.getD f []).length = 4 then 1 else 1 / 2) * (if 0 < side (u 0) (u 1) (u 2) (centroidRefCoords c) then -1 else 1) *
    cross (minus (u 1) (u 0)) (minus (u 2) (u 0)) k

/-- What holds for the faces of the reference elements. -/
def Surface (c : Eclass) (L : List (List Nat)) : Prop :=
  (∀ f < L.length, (L.getD f []).length = 3 ∨ (L.getD f []).length = 4) ∧
  (∀ f < L.length, (L.getD f []).length = 4 → ∀ k, refFacePoint c L f 3 k = refFacePoint c L f 1 k + refFacePoint c L f 2 k - refFacePoint c L f 0 k) ∧
  (∀ f < L.length, ∀ i < (L.getD f []).length, (L.getD f []).getD i 0 < c.numVertices) ∧
  (∀ k, ((List.range L.length).map fun f => refFlux c L f k).sum = 0) ∧
  ((List.range L.length).map fun f => dot (refFaceCenter c L f) (refFlux c L f)).sum = 3 * refVolume c

theorem surface_tet : Surface .tet [[1, 2, 3], [0, 2, 3], [0, 1, 3], [0, 1, 2]] := by
  refine ⟨?_, ?_, ?_, ?_, ?_⟩ <;> decide +kernel

theorem surface_prism : Surface .prism [[1, 2, 4, 5], [0, 2, 3, 5], [0, 1, 3, 4], [0, 1, 2], [3, 4, 5]] := by
  refine ⟨?_, ?_, ?_, ?_, ?_⟩ <;> decide +kernel

theorem surface_pyramid6 : Surface .pyramid [[0, 2, 4], [1, 3, 4], [0, 1, 4], [2, 3, 4], [0, 1, 2, 3]] := by
  refine ⟨?_, ?_, ?_, ?_, ?_⟩ <;> decide +kernel

theorem surface_pyramid7 : Surface .pyramid [[2, 3, 4], [0, 1, 4], [1, 3, 4], [0, 2, 4], [0, 1, 2, 3]] := by
  refine ⟨?_, ?_, ?_, ?_, ?_⟩ <;> decide +kernel

theorem surface_hex : Surface .hex [[0, 2, 4, 6], [1, 3, 5, 7], [0, 1, 4, 5], [2, 3, 6, 7], [0, 1, 2, 3], [4, 5, 6, 7]] := by
  refine ⟨?_, ?_, ?_, ?_, ?_⟩ <;> decide +kernel

/-- The faces of the elements of dimension three. -/
theorem face_table2 {S : P4ests} (D : S.Documented) {e : Element} (he : e.Valid S) (h3 : e.eclass.dim = 3) :
    ∃ L, Bounded (shape e) L ∧ Surface (shape e) L ∧ e.numFaces = L.length ∧ (∀ f < L.length, faceCorners S e f = L.getD f []) ∧
      (∀ f < L.length, faceShape e f = if (L.getD f []).length = 4 then .quad else .triangle) ∧
      (∀ r, InHull (shape e).numVertices (cornerRefCoords (shape e)) r ↔ InRef (shape e) r) ∧
      ((shape e) = .hex ∨ (shape e) = .tet ∨ (shape e) = .prism ∨ (shape e) = .pyramid) := by
  cases e with
  | vertex v => simp [Element.eclass, Eclass.dim] at h3
  | line l => simp [Element.eclass, Eclass.dim] at h3
  | quad q => simp [Element.eclass, Eclass.dim] at h3
  | triangle t => simp [Element.eclass, Eclass.dim] at h3
  | hex x =>
    refine ⟨_, bounded_hex, surface_hex, rfl, fun f hf => ?_, fun f hf => ?_, hull_hex, Or.inl rfl⟩
    · exact hex_corners D x hf
    · have hf' : f < 6 := hf
      interval_cases f <;> rfl
  | tet t =>
    refine ⟨_, bounded_tet, surface_tet, rfl, fun f _ => rfl, fun f hf => ?_, hull_tet, Or.inr (Or.inl rfl)⟩
    have hf' : f < 4 := hf
    interval_cases f <;> rfl
  | prism p =>
    refine ⟨_, bounded_prism, surface_prism, rfl, fun f _ => rfl, fun f hf => ?_, hull_prism, Or.inr (Or.inr (Or.inl rfl))⟩
    have hf' : f < 5 := hf
    interval_cases f <;> rfl
  | pyramid p =>
    have ht := Pyramid.type_lt (Pyramid.Valid.good he)
    by_cases h : Pyramid.isPyra p = true
    · have hsh : shape (.pyramid p) = .pyramid := by rw [shape, if_pos h]
      have h6 := (Pyramid.isPyra_iff p).1 h
      have h67 : p.type = 6 ∨ p.type = 7 := by omega
      rw [hsh]
      rcases h67 with h67 | h67
      · refine ⟨_, bounded_pyramid6, surface_pyramid6, by simp [Element.numFaces, Pyramid.numFaces, h], fun f _ => by
          rw [faceCorners, Pyramid.faceCorners, if_pos h, h67]; rfl, fun f hf => ?_, hull_pyramid, by simp⟩
        have hf' : f < 5 := hf
        rw [faceShape, Pyramid.faceIsQuad, h]
        interval_cases f <;> rfl
      · refine ⟨_, bounded_pyramid7, surface_pyramid7, by simp [Element.numFaces, Pyramid.numFaces, h], fun f _ => by
          rw [faceCorners, Pyramid.faceCorners, if_pos h, h67]; rfl, fun f hf => ?_, hull_pyramid, by simp⟩
        have hf' : f < 5 := hf
        rw [faceShape, Pyramid.faceIsQuad, h]
        interval_cases f <;> rfl
    · have hsh : shape (.pyramid p) = .tet := by rw [shape, if_neg h]
      rw [hsh]
      refine ⟨_, bounded_tet, surface_tet, by simp [Element.numFaces, Pyramid.numFaces, h], fun f _ => by
          rw [faceCorners, Pyramid.faceCorners, if_neg h]; rfl, fun f hf => ?_, hull_tet, by simp⟩
      have hf' : f < 4 := hf
      rw [faceShape, Pyramid.faceIsQuad, Bool.eq_false_iff.2 h]
      interval_cases f <;> rfl

/-! ### Frames -/

/-- The cofactors: how the normals of planes are mapped. -/
def cof (b0 b1 b2 w : Point) : Point := fun k => w 0 * cross b1 b2 k + w 1 * cross b2 b0 k + w 2 * cross b0 b1 k

theorem cross_at (o b0 b1 b2 u0 u1 u2 : Point) :
    cross (minus (at_ o b0 b1 b2 u1) (at_ o b0 b1 b2 u0)) (minus (at_ o b0 b1 b2 u2) (at_ o b0 b1 b2 u0)) =
    cof b0 b1 b2 (cross (minus u1 u0) (minus u2 u0)) := by
  funext k
  fin_cases k <;> simp [cross, cof, minus, at_] <;> ring

theorem dot_cof (o b0 b1 b2 r w : Point) :
    dot (at_ o b0 b1 b2 r) (cof b0 b1 b2 w) = dot o (cof b0 b1 b2 w) + det b0 b1 b2 * dot r w := by
  simp [dot, cof, at_, cross, det]; ring

theorem triangleArea_cross (sqrt : ℚ → ℚ) (p0 p1 p2 : Point) :
    triangleArea sqrt p0 p1 p2 = 1 / 2 * norm sqrt (cross (minus p1 p0) (minus p2 p0)) := by
  rw [triangleArea, norm]
  simp only [gram_eq]
  rw [abs_of_nonneg (gram_nonneg _ _)]
  congr 2
  simp [gram, inner, dot, cross]; ring

/-- The corners of the faces. -/
theorem facePoint_at {S : P4ests} {V : Nat → Point} {e : Element} {o b0 b1 b2 : Point} (hC : Corners S V e o b0 b1 b2) {L : List (List Nat)}
    (hS : Surface (shape e) L) {f : Nat} (hf : f < L.length) (hL : faceCorners S e f = L.getD f []) {i : Nat} (hi : i < (L.getD f []).length) :
    facePoint S V e f i = at_ o b0 b1 b2 (refFacePoint (shape e) L f i) := by
  rw [facePoint, hL, corners_at hC (hS.2.2.1 f hf i hi)]; rfl

/-- The normal before it gets its length and its direction. -/
def rawNormal (S : P4ests) (V : Nat → Point) (e : Element) (f : Nat) : Point :=
  cross (minus (facePoint S V e f 1) (facePoint S V e f 0)) (minus (facePoint S V e f 2) (facePoint S V e f 0))

theorem faceArea_norm (sqrt : ℚ → ℚ) {S : P4ests} {V : Nat → Point} {e : Element} {o b0 b1 b2 : Point} (hC : Corners S V e o b0 b1 b2)
    {L : List (List Nat)} (hS : Surface (shape e) L) {f : Nat} (hf : f < L.length) (hL : faceCorners S e f = L.getD f [])
    (hsh : faceShape e f = if (L.getD f []).length = 4 then .quad else .triangle) :
    faceArea sqrt S V e f = (if (L.getD f []).length = 4 then 1 else 1 / 2) * norm sqrt (rawNormal S V e f) := by
  rw [faceArea, hsh, rawNormal]
  by_cases h4 : (L.getD f []).length = 4
  · simp only [if_pos h4]
    rw [triangleArea_cross, triangleArea_cross]
    have e1 : norm sqrt (cross (minus (facePoint S V e f 2) (facePoint S V e f 1)) (minus (facePoint S V e f 3) (facePoint S V e f 1))) =
        norm sqrt (cross (minus (facePoint S V e f 1) (facePoint S V e f 0)) (minus (facePoint S V e f 2) (facePoint S V e f 0))) := by
      rw [facePoint_at hC hS hf hL (i := 3) (by omega), facePoint_at hC hS hf hL (i := 2) (by omega),
        facePoint_at hC hS hf hL (i := 1) (by omega), facePoint_at hC hS hf hL (i := 0) (by omega), norm, norm]
      rw [show refFacePoint (shape e) L f 3 = fun k => refFacePoint (shape e) L f 1 k + refFacePoint (shape e) L f 2 k - refFacePoint (shape e) L f 0 k from
        funext fun k => hS.2.1 f hf h4 k]
      congr 1
      simp [dot, cross, minus, at_]; ring
    rw [e1]; ring
  · simp only [if_neg h4]
    rw [triangleArea_cross]

/-- The normal of a face times its area. -/
theorem area_normal {sqrt : ℚ → ℚ} (hs : ∀ x, 0 < x → 0 < sqrt x) {S : P4ests} {V : Nat → Point} {e : Element} (h3 : e.eclass.dim = 3)
    {o b0 b1 b2 : Point} (hC : Corners S V e o b0 b1 b2) (hD : det b0 b1 b2 ≠ 0) {L : List (List Nat)} (hB : Bounded (shape e) L)
    (hS : Surface (shape e) L) {f : Nat} (hf : f < L.length) (hL : faceCorners S e f = L.getD f [])
    (hsh : faceShape e f = if (L.getD f []).length = 4 then .quad else .triangle) (k : Fin 3) :
    faceArea sqrt S V e f * faceNormal sqrt S V e f k =
      (if 0 < det b0 b1 b2 then 1 else -1) * cof b0 b1 b2 (refFlux (shape e) L f) k := by
  have hlen : 3 ≤ (L.getD f []).length := by have := hS.1 f hf; omega
  have p0 := facePoint_at hC hS hf hL (i := 0) (by omega)
  have p1 := facePoint_at hC hS hf hL (i := 1) (by omega)
  have p2 := facePoint_at hC hS hf hL (i := 2) (by omega)
  rw [faceArea_norm sqrt hC hS hf hL hsh, faceNormal_dim3 sqrt S V h3]
  have hr : rawNormal S V e f = cof b0 b1 b2 (cross (minus (refFacePoint (shape e) L f 1) (refFacePoint (shape e) L f 0))
      (minus (refFacePoint (shape e) L f 2) (refFacePoint (shape e) L f 0))) := by rw [rawNormal, p0, p1, p2, cross_at]
  have hd : dot (minus (linearCentroid S V e) (facePoint S V e f 0)) (rawNormal S V e f) =
      det b0 b1 b2 * side (refFacePoint (shape e) L f 0) (refFacePoint (shape e) L f 1) (refFacePoint (shape e) L f 2) (centroidRefCoords (shape e)) := by
    rw [rawNormal, p0, p1, p2, centroid_frame hC, dot_minus]
  have hm := hB.1 f hf
  have hN : 0 < norm sqrt (rawNormal S V e f) := hs _ (dot_self_pos (by rw [hd]; exact mul_ne_zero hD hm))
  show _ * (rawNormal S V e f k * (1 / if 0 < dot (minus (linearCentroid S V e) (facePoint S V e f 0)) (rawNormal S V e f) then
    -norm sqrt (rawNormal S V e f) else norm sqrt (rawNormal S V e f))) = _
  rw [hd]
  generalize norm sqrt (rawNormal S V e f) = N at *
  have hk : cof b0 b1 b2 (refFlux (shape e) L f) k = (if (L.getD f []).length = 4 then 1 else 1 / 2) *
      (if 0 < side (refFacePoint (shape e) L f 0) (refFacePoint (shape e) L f 1) (refFacePoint (shape e) L f 2) (centroidRefCoords (shape e)) then -1 else 1) *
      rawNormal S V e f k := by
    rw [hr]; simp only [cof, refFlux]; ring
  rw [hk]
  generalize (if (L.getD f []).length = 4 then (1 : ℚ) else 1 / 2) = κ
  generalize side (refFacePoint (shape e) L f 0) (refFacePoint (shape e) L f 1) (refFacePoint (shape e) L f 2) (centroidRefCoords (shape e)) = s at *
  generalize rawNormal S V e f k = R
  generalize det b0 b1 b2 = d at *
  have hN' : N ≠ 0 := hN.ne'
  rcases lt_or_gt_of_ne hD with hd0 | hd0 <;> rcases lt_or_gt_of_ne hm with hs0 | hs0
  · rw [if_pos (mul_pos_of_neg_of_neg hd0 hs0), if_neg hd0.not_gt, if_neg hs0.not_gt]; field_simp
  · rw [if_neg (mul_neg_of_neg_of_pos hd0 hs0).not_gt, if_neg hd0.not_gt, if_pos hs0]; field_simp
  · rw [if_neg (mul_neg_of_pos_of_neg hd0 hs0).not_gt, if_pos hd0, if_neg hs0.not_gt]; field_simp
  · rw [if_pos (mul_pos hd0 hs0), if_pos hd0, if_pos hs0]; field_simp

/-- The centroid of a face. -/
theorem faceCentroid_at {S : P4ests} {V : Nat → Point} {e : Element} {o b0 b1 b2 : Point} (hC : Corners S V e o b0 b1 b2)
    {L : List (List Nat)} (hS : Surface (shape e) L) {f : Nat} (hf : f < L.length) (hL : faceCorners S e f = L.getD f [])
    (hsh : faceShape e f = if (L.getD f []).length = 4 then .quad else .triangle) :
    faceCentroid S V e f = at_ o b0 b1 b2 (refFaceCenter (shape e) L f) := by
  have hp := fun i (hi : i < (L.getD f []).length) => facePoint_at hC hS hf hL hi
  funext k
  rw [faceCentroid, hsh]
  by_cases h4 : (L.getD f []).length = 4
  · simp only [if_pos h4]
    rw [hp 0 (by omega), hp 1 (by omega), hp 2 (by omega), hp 3 (by omega)]
    obtain ⟨a, b, c, d, h⟩ : ∃ a b c d, L.getD f [] = [a, b, c, d] := by
      generalize L.getD f [] = l at h4
      match l, h4 with
      | [a, b, c, d], _ => exact ⟨a, b, c, d, rfl⟩
    simp only [at_, refFaceCenter, refFacePoint, h]
    simp; ring
  · have h3 : (L.getD f []).length = 3 := by have := hS.1 f hf; omega
    simp only [if_neg h4]
    rw [hp 0 (by omega), hp 1 (by omega), hp 2 (by omega)]
    obtain ⟨a, b, c, h⟩ : ∃ a b c, L.getD f [] = [a, b, c] := by
      generalize L.getD f [] = l at h3
      match l, h3 with
      | [a, b, c], _ => exact ⟨a, b, c, rfl⟩
    simp only [at_, refFaceCenter, refFacePoint, h]
    simp; ring

theorem sum_mul {n : Nat} (f : Nat → ℚ) (a : ℚ) : ((List.range n).map fun i => a * f i).sum = a * ((List.range n).map f).sum := by
  induction List.range n with
  | nil => simp
  | cons x l ih => simp only [List.map_cons, List.sum_cons, ih]; ring

theorem sum_cof {n : Nat} (b0 b1 b2 : Point) (w : Nat → Point) (k : Fin 3) : ((List.range n).map fun f => cof b0 b1 b2 (w f) k).sum =
    cof b0 b1 b2 (fun j => ((List.range n).map fun f => w f j).sum) k := by
  simp only [cof]
  induction List.range n with
  | nil => simp
  | cons x l ih => simp only [List.map_cons, List.sum_cons, ih]; ring

theorem sum_dot {n : Nat} (o b0 b1 b2 : Point) (c w : Nat → Point) :
    ((List.range n).map fun f => dot (at_ o b0 b1 b2 (c f)) (cof b0 b1 b2 (w f))).sum =
    dot o (cof b0 b1 b2 (fun j => ((List.range n).map fun f => w f j).sum)) + det b0 b1 b2 * ((List.range n).map fun f => dot (c f) (w f)).sum := by
  simp only [dot_cof]
  simp only [cof, dot]
  induction List.range n with
  | nil => simp
  | cons x l ih => simp only [List.map_cons, List.sum_cons, ih]; ring

/-! ### Normals -/

theorem dot_comm (x y : Point) : dot x y = dot y x := by simp only [dot]; ring

theorem dot_scale' (x y : Point) (a : ℚ) : dot (times x a) y = dot x y * a := by simp only [dot, times]; ring

theorem side_corner {u0 u1 u2 r : Point} (h : r = u0 ∨ r = u1 ∨ r = u2 ∨ ∀ k, r k = u1 k + u2 k - u0 k) : side u0 u1 u2 r = 0 := by
  rcases h with rfl | rfl | rfl | h <;> simp only [side, det]
  · ring
  · ring
  · ring
  · simp only [h]; ring

theorem corner_in_ref {c : Eclass} (h : c = .hex ∨ c = .tet ∨ c = .prism ∨ c = .pyramid) {v : Nat} (hv : v < c.numVertices) :
    InRef c (cornerRefCoords c v) := by
  rcases h with rfl | rfl | rfl | rfl <;> simp only [Eclass.numVertices] at hv <;> interval_cases v <;>
    simp [InRef, cornerRefCoords, cornerRefTable]

/-- The normal in the frame of the element: the scalar products with it are the sides of the plane of the face, up to a factor. -/
theorem normal_side {sqrt : ℚ → ℚ} (hs : ∀ x, 0 < x → 0 < sqrt x) {S : P4ests} {V : Nat → Point} {e : Element} (h3 : e.eclass.dim = 3)
    {o b0 b1 b2 : Point} (hC : Corners S V e o b0 b1 b2) (hD : det b0 b1 b2 ≠ 0) {L : List (List Nat)} (hB : Bounded (shape e) L)
    (hS : Surface (shape e) L) {f : Nat} (hf : f < L.length) (hL : faceCorners S e f = L.getD f []) :
    ∃ N : ℚ, N = norm sqrt (rawNormal S V e f) ∧ 0 < N ∧ ∃ a, (a = 1 / N ∨ a = -(1 / N)) ∧ faceNormal sqrt S V e f = times (rawNormal S V e f) a ∧
      ∃ d, d * side (refFacePoint (shape e) L f 0) (refFacePoint (shape e) L f 1) (refFacePoint (shape e) L f 2) (centroidRefCoords (shape e)) < 0 ∧
      ∀ r, dot (faceNormal sqrt S V e f) (minus (at_ o b0 b1 b2 r) (facePoint S V e f 0)) =
        d * side (refFacePoint (shape e) L f 0) (refFacePoint (shape e) L f 1) (refFacePoint (shape e) L f 2) r := by
  have hlen : 3 ≤ (L.getD f []).length := by have := hS.1 f hf; omega
  have p0 := facePoint_at hC hS hf hL (i := 0) (by omega)
  have p1 := facePoint_at hC hS hf hL (i := 1) (by omega)
  have p2 := facePoint_at hC hS hf hL (i := 2) (by omega)
  have hd : ∀ r, dot (minus (at_ o b0 b1 b2 r) (facePoint S V e f 0)) (rawNormal S V e f) =
      det b0 b1 b2 * side (refFacePoint (shape e) L f 0) (refFacePoint (shape e) L f 1) (refFacePoint (shape e) L f 2) r := fun r => by
    rw [rawNormal, p0, p1, p2, dot_minus]
  have hm := hB.1 f hf
  have hN : 0 < norm sqrt (rawNormal S V e f) := hs _ (dot_self_pos (by rw [hd]; exact mul_ne_zero hD hm))
  have hn : faceNormal sqrt S V e f = times (rawNormal S V e f) (1 / if 0 < dot (minus (linearCentroid S V e) (facePoint S V e f 0)) (rawNormal S V e f) then
    -norm sqrt (rawNormal S V e f) else norm sqrt (rawNormal S V e f)) := faceNormal_dim3 sqrt S V h3 f
  rw [centroid_frame hC, hd] at hn
  refine ⟨_, rfl, hN, _, ?_, hn, _, ?_, fun r => by rw [hn, dot_scale', dot_comm, hd, mul_right_comm]⟩
  · split
    · right; rw [div_neg]
    · left; rfl
  · have hi : 0 < 1 / norm sqrt (rawNormal S V e f) := by positivity
    rcases lt_or_gt_of_ne (mul_ne_zero hD hm) with h | h
    · rw [if_neg h.not_gt]
      have := mul_neg_of_neg_of_pos h hi
      linarith
    · rw [if_pos h, div_neg]
      have := mul_pos h hi
      linarith

/-- The outer normal. -/
theorem outer_normal {sqrt : ℚ → ℚ} (hs : ∀ x, 0 < x → 0 < sqrt x) {S : P4ests} (D : S.Documented) {V : Nat → Point} {e : Element}
    (he : e.Valid S) (hV : Flat e.eclass V) {f : Nat} (hf : f < e.numFaces) :
    (∀ p ∈ (faceCorners S e f).map (elementCoordinate S V e), dot (faceNormal sqrt S V e f) (minus p (facePoint S V e f 0)) = 0) ∧
    (∀ v < (shape e).numVertices, dot (faceNormal sqrt S V e f) (minus (elementCoordinate S V e v) (facePoint S V e f 0)) ≤ 0) ∧
    dot (faceNormal sqrt S V e f) (minus (linearCentroid S V e) (facePoint S V e f 0)) < 0 ∧
    ∃ a, a ≠ 0 ∧ a * a = 1 / (norm sqrt (rawNormal S V e f) * norm sqrt (rawNormal S V e f)) ∧
      faceNormal sqrt S V e f = times (rawNormal S V e f) a := by
  obtain ⟨h3, o, a0, a1, a2, hF, hd⟩ := hV
  obtain ⟨o', b0, b1, b2, hC, hdet⟩ := element_frame he h3 hF
  have hD : det b0 b1 b2 ≠ 0 := fun h0 => by
    rw [h0, abs_zero] at hdet
    have : 0 < |det a0 a1 a2| / 8 ^ e.level := div_pos (abs_pos.2 hd) (by positivity)
    rw [← hdet] at this; exact lt_irrefl _ this
  obtain ⟨L, hB, hS, hn, hL, hsh, hH, hshape⟩ := face_table2 D he h3
  rw [hn] at hf
  obtain ⟨N, hN, hN0, a, ha, hna, d, hd0, hdr⟩ := normal_side hs h3 hC hD hB hS hf (hL f hf)
  refine ⟨fun p hp => ?_, fun v hv => ?_, ?_, a, ?_, ?_, hna⟩
  · rw [hL f hf, List.mem_map] at hp
    obtain ⟨v, hv, rfl⟩ := hp
    obtain ⟨i, hi, rfl⟩ := List.mem_iff_getElem.1 hv
    have hg : (L.getD f []).getD i 0 = (L.getD f [])[i] := by rw [List.getD_eq_getElem?_getD, List.getElem?_eq_getElem hi]; rfl
    have hlt := hS.2.2.1 f hf i hi
    rw [hg] at hlt
    rw [corners_at hC hlt, hdr, side_corner, mul_zero]
    have hr : cornerRefCoords (shape e) (L.getD f [])[i] = refFacePoint (shape e) L f i := by rw [refFacePoint, hg]
    rw [hr]
    have hl4 := hS.1 f hf
    have hi4 : i = 0 ∨ i = 1 ∨ i = 2 ∨ (i = 3 ∧ (L.getD f []).length = 4) := by omega
    rcases hi4 with rfl | rfl | rfl | ⟨rfl, h4⟩
    · exact Or.inl rfl
    · exact Or.inr (Or.inl rfl)
    · exact Or.inr (Or.inr (Or.inl rfl))
    · exact Or.inr (Or.inr (Or.inr (hS.2.1 f hf h4)))
  · rw [corners_at hC hv, hdr]
    have h := ((hB.2.2 _).2 (corner_in_ref hshape hv)) f hf
    by_contra hcon
    rw [not_le] at hcon
    have h1 := mul_neg_of_pos_of_neg hcon hd0
    have h2 : 0 ≤ d * d * (side (refFacePoint (shape e) L f 0) (refFacePoint (shape e) L f 1) (refFacePoint (shape e) L f 2) (centroidRefCoords (shape e)) *
      side (refFacePoint (shape e) L f 0) (refFacePoint (shape e) L f 1) (refFacePoint (shape e) L f 2) (cornerRefCoords (shape e) v)) :=
      mul_nonneg (mul_self_nonneg d) h
    linarith
  · rw [centroid_frame hC, hdr]; exact hd0
  · have hi : 0 < 1 / N := by positivity
    rcases ha with rfl | rfl <;> [exact hi.ne'; exact (neg_neg_of_pos hi).ne]
  · rw [← hN]
    rcases ha with rfl | rfl <;> field_simp

/-! ### The surface -/

theorem surface_sum {sqrt : ℚ → ℚ} (hs : ∀ x, 0 < x → 0 < sqrt x) {S : P4ests} (D : S.Documented) {V : Nat → Point} {e : Element}
    (he : e.Valid S) (hV : Flat e.eclass V) :
    (∀ k, ((List.range e.numFaces).map fun f => faceArea sqrt S V e f * faceNormal sqrt S V e f k).sum = 0) ∧
    ((List.range e.numFaces).map fun f => faceArea sqrt S V e f * dot (faceCentroid S V e f) (faceNormal sqrt S V e f)).sum = 3 * volume sqrt S V e := by
  obtain ⟨h3, o, a0, a1, a2, hF, hd⟩ := hV
  obtain ⟨o', b0, b1, b2, hC, hdet⟩ := element_frame he h3 hF
  have hD : det b0 b1 b2 ≠ 0 := fun h0 => by
    rw [h0, abs_zero] at hdet
    have : 0 < |det a0 a1 a2| / 8 ^ e.level := div_pos (abs_pos.2 hd) (by positivity)
    rw [← hdet] at this; exact lt_irrefl _ this
  obtain ⟨L, hB, hS, hn, hL, hsh, hH, hshape⟩ := face_table2 D he h3
  have hz : (fun j => ((List.range L.length).map fun f => refFlux (shape e) L f j).sum) = fun _ => (0 : ℚ) := funext hS.2.2.2.1
  rw [hn]
  refine ⟨fun k => ?_, ?_⟩
  · rw [sum_map_congr (fun f hf => area_normal hs h3 hC hD hB hS hf (hL f hf) (hsh f hf) k), sum_mul, sum_cof, hz]
    simp [cof]
  · rw [sum_map_congr (g := fun f => (if 0 < det b0 b1 b2 then 1 else -1) *
      dot (at_ o' b0 b1 b2 (refFaceCenter (shape e) L f)) (cof b0 b1 b2 (refFlux (shape e) L f))) (fun f hf => ?_), sum_mul, sum_dot, hz, hS.2.2.2.2,
      volume_dim3 sqrt hC hshape]
    · have : dot o' (cof b0 b1 b2 fun _ => 0) = 0 := by simp [dot, cof]
      rw [this]
      rcases lt_or_gt_of_ne hD with h | h
      · rw [if_neg h.not_gt, abs_of_neg h]; ring
      · rw [if_pos h, abs_of_pos h]; ring
    · rw [← faceCentroid_at hC hS hf (hL f hf) (hsh f hf)]
      have := area_normal hs h3 hC hD hB hS hf (hL f hf) (hsh f hf)
      simp only [dot]
      linear_combination faceCentroid S V e f 0 * this 0 + faceCentroid S V e f 1 * this 1 + faceCentroid S V e f 2 * this 2

/-! ### Two elements with the same face -/

/-- Three different corners of a parallelogram always span the same area. -/
theorem cross_corners {p0 p1 p2 p3 q0 q1 q2 : Point} (h3 : ∀ k, p3 k = p1 k + p2 k - p0 k) (h0 : q0 = p0 ∨ q0 = p1 ∨ q0 = p2 ∨ q0 = p3)
    (h1 : q1 = p0 ∨ q1 = p1 ∨ q1 = p2 ∨ q1 = p3) (h2 : q2 = p0 ∨ q2 = p1 ∨ q2 = p2 ∨ q2 = p3) (d1 : q0 ≠ q1) (d2 : q0 ≠ q2) (d3 : q1 ≠ q2) :
    ∃ s : ℚ, (s = 1 ∨ s = -1) ∧ cross (minus q1 q0) (minus q2 q0) = times (cross (minus p1 p0) (minus p2 p0)) s := by
  have aux : ∀ s : ℚ, (∀ k, cross (minus q1 q0) (minus q2 q0) k = cross (minus p1 p0) (minus p2 p0) k * s) →
      cross (minus q1 q0) (minus q2 q0) = times (cross (minus p1 p0) (minus p2 p0)) s := fun s h => funext h
  rcases h0 with rfl | rfl | rfl | rfl <;> rcases h1 with rfl | rfl | rfl | rfl <;> first
    | exact absurd rfl d1
    | (rcases h2 with rfl | rfl | rfl | rfl <;> first
        | exact absurd rfl d2
        | exact absurd rfl d3
        | (refine ⟨1, Or.inl rfl, aux 1 ?_⟩; intro k; fin_cases k <;> simp [cross, minus, h3] <;> ring1)
        | (refine ⟨-1, Or.inr rfl, aux (-1) ?_⟩; intro k; fin_cases k <;> simp [cross, minus, h3] <;> ring1))

theorem cornerRefCoords_inj {c : Eclass} (h : c = .hex ∨ c = .tet ∨ c = .prism ∨ c = .pyramid) :
    ∀ v < c.numVertices, ∀ w < c.numVertices, cornerRefCoords c v = cornerRefCoords c w → v = w := by
  rcases h with rfl | rfl | rfl | rfl <;> decide +kernel

/-- The corners of a face as points. -/
def facePoints (S : P4ests) (V : Nat → Point) (e : Element) (f : Nat) : List Point := (faceCorners S e f).map (elementCoordinate S V e)

theorem nodup_tables {c : Eclass} {L : List (List Nat)} (h : Bounded c L) (hS : Surface c L) : ∀ f < L.length, (L.getD f []).Nodup := by
  intro f hf
  have hm := h.1 f hf
  have hl := hS.1 f hf
  have hp := hS.2.1 f hf
  simp only [refFacePoint] at hm hp
  generalize L.getD f [] = l at *
  have key : ∀ a b c' : Nat, side (cornerRefCoords c a) (cornerRefCoords c b) (cornerRefCoords c c') (centroidRefCoords c) ≠ 0 → a ≠ b ∧ a ≠ c' ∧ b ≠ c' := by
    intro a b c' hne
    refine ⟨?_, ?_, ?_⟩ <;> rintro rfl <;> exact hne (by simp only [side, det]; ring)
  match l, hl with
  | [a, b, c'], _ =>
    obtain ⟨h1, h2, h3⟩ := key a b c' hm
    simp [h1, h2, h3]
  | [a, b, c', d], _ =>
    obtain ⟨h1, h2, h3⟩ := key a b c' hm
    have hd : ∀ k, cornerRefCoords c d k = cornerRefCoords c b k + cornerRefCoords c c' k - cornerRefCoords c a k := hp rfl
    refine List.nodup_cons.2 ⟨?_, List.nodup_cons.2 ⟨?_, List.nodup_cons.2 ⟨?_, by simp⟩⟩⟩
    · simp only [List.mem_cons, List.not_mem_nil, or_false, not_or]
      refine ⟨h1, h2, ?_⟩
      rintro rfl
      refine hm ?_
      have e : ∀ k, cornerRefCoords c c' k = 2 * cornerRefCoords c a k - cornerRefCoords c b k := fun k => by linarith [hd k]
      show side (cornerRefCoords c a) (cornerRefCoords c b) (cornerRefCoords c c') _ = 0
      simp only [side, det, e]; ring
    · simp only [List.mem_cons, List.not_mem_nil, or_false, not_or]
      refine ⟨h3, ?_⟩
      rintro rfl
      refine hm ?_
      have e : ∀ k, cornerRefCoords c c' k = cornerRefCoords c a k := fun k => by linarith [hd k]
      show side (cornerRefCoords c a) _ (cornerRefCoords c c') _ = 0
      simp only [side, det, e]; ring
    · simp only [List.mem_cons, List.not_mem_nil, or_false]
      rintro rfl
      refine hm ?_
      have e : ∀ k, cornerRefCoords c b k = cornerRefCoords c a k := fun k => by linarith [hd k]
      show side (cornerRefCoords c a) (cornerRefCoords c b) _ _ = 0
      simp only [side, det, e]; ring

theorem face_points {S : P4ests} (D : S.Documented) {V : Nat → Point} {e : Element} (he : e.Valid S) (hV : Flat e.eclass V) {f : Nat}
    (hf : f < e.numFaces) (sqrt : ℚ → ℚ) :
    (facePoints S V e f).Nodup ∧ ((facePoints S V e f).length = 3 ∨ (facePoints S V e f).length = 4) ∧
    (∀ i < (facePoints S V e f).length, (facePoints S V e f)[i]? = some (facePoint S V e f i)) ∧
    ((facePoints S V e f).length = 4 → ∀ k, facePoint S V e f 3 k = facePoint S V e f 1 k + facePoint S V e f 2 k - facePoint S V e f 0 k) ∧
    faceArea sqrt S V e f = (if (facePoints S V e f).length = 4 then 1 else 1 / 2) * norm sqrt (rawNormal S V e f) ∧
    ∀ k, faceCentroid S V e f k = ((facePoints S V e f).map fun p => p k).sum / ((facePoints S V e f).length : ℚ) := by
  obtain ⟨h3, o, a0, a1, a2, hF, hd⟩ := hV
  obtain ⟨o', b0, b1, b2, hC, hdet⟩ := element_frame he h3 hF
  have hD : det b0 b1 b2 ≠ 0 := fun h0 => by
    rw [h0, abs_zero] at hdet
    have : 0 < |det a0 a1 a2| / 8 ^ e.level := div_pos (abs_pos.2 hd) (by positivity)
    rw [← hdet] at this; exact lt_irrefl _ this
  obtain ⟨L, hB, hS, hn, hL, hsh, hH, hshape⟩ := face_table2 D he h3
  rw [hn] at hf
  have hlen : (facePoints S V e f).length = (L.getD f []).length := by rw [facePoints, List.length_map, hL f hf]
  have hlt : ∀ v ∈ L.getD f [], v < (shape e).numVertices := fun v hv => by
    obtain ⟨i, hi, rfl⟩ := List.mem_iff_getElem.1 hv
    have := hS.2.2.1 f hf i hi
    rwa [List.getD_eq_getElem?_getD, List.getElem?_eq_getElem hi] at this
  have hp : ∀ i < (facePoints S V e f).length, (facePoints S V e f)[i]? = some (facePoint S V e f i) := fun i hi => by
    rw [hlen] at hi
    rw [facePoints, facePoint, hL f hf]
    generalize L.getD f [] = l at hi
    rw [List.getElem?_map, List.getD_eq_getElem?_getD, List.getElem?_eq_getElem hi]; rfl
  refine ⟨?_, ?_, hp, fun h4 k => ?_, ?_, fun k => ?_⟩
  · rw [facePoints, hL f hf]
    refine List.Nodup.map_on (fun v hv w hw h => ?_) (nodup_tables hB hS f hf)
    rw [corners_at hC (hlt v hv), corners_at hC (hlt w hw)] at h
    exact cornerRefCoords_inj hshape v (hlt v hv) w (hlt w hw) (at_injective hD h)
  · rw [hlen]; exact hS.1 f hf
  · rw [hlen] at h4
    rw [facePoint_at hC hS hf (hL f hf) (i := 3) (by omega), facePoint_at hC hS hf (hL f hf) (i := 2) (by omega),
        facePoint_at hC hS hf (hL f hf) (i := 1) (by omega), facePoint_at hC hS hf (hL f hf) (i := 0) (by omega)]
    simp only [at_, hS.2.1 f hf h4]; ring
  · rw [hlen]; exact faceArea_norm sqrt hC hS hf (hL f hf) (hsh f hf)
  · rw [faceCentroid, hsh f hf, ← hlen]
    have hl := hS.1 f hf
    rw [← hlen] at hl
    generalize facePoints S V e f = P at *
    match P, hl with
    | [a, b, c], _ =>
      have e0 : a = facePoint S V e f 0 := Option.some.inj (hp 0 (by simp))
      have e1 : b = facePoint S V e f 1 := Option.some.inj (hp 1 (by simp))
      have e2 : c = facePoint S V e f 2 := Option.some.inj (hp 2 (by simp))
      subst e0 e1 e2
      simp; ring
    | [a, b, c, d], _ =>
      have e0 : a = facePoint S V e f 0 := Option.some.inj (hp 0 (by simp))
      have e1 : b = facePoint S V e f 1 := Option.some.inj (hp 1 (by simp))
      have e2 : c = facePoint S V e f 2 := Option.some.inj (hp 2 (by simp))
      have e3 : d = facePoint S V e f 3 := Option.some.inj (hp 3 (by simp))
      subst e0 e1 e2 e3
      simp; ring

/-- Two faces with the same corners. -/
theorem same_face {S : P4ests} (D : S.Documented) {V V' : Nat → Point} {e n : Element} (he : e.Valid S) (hn : n.Valid S)
    (hV : Flat e.eclass V) (hV' : Flat n.eclass V') {f g : Nat} (hf : f < e.numFaces) (hg : g < n.numFaces) (sqrt : ℚ → ℚ)
    (h : ∀ p, p ∈ facePoints S V e f ↔ p ∈ facePoints S V' n g) :
    faceArea sqrt S V e f = faceArea sqrt S V' n g ∧ faceCentroid S V e f = faceCentroid S V' n g ∧
    ∃ s : ℚ, (s = 1 ∨ s = -1) ∧ rawNormal S V' n g = times (rawNormal S V e f) s := by
  obtain ⟨u1, u2, u3, u4, u5, u6⟩ := face_points D he hV hf sqrt
  obtain ⟨w1, w2, w3, w4, w5, w6⟩ := face_points D hn hV' hg sqrt
  have hperm : (facePoints S V e f).Perm (facePoints S V' n g) := (List.perm_ext_iff_of_nodup u1 w1).2 h
  have hlen := hperm.length_eq
  have mem : ∀ i < (facePoints S V' n g).length, facePoint S V' n g i ∈ facePoints S V e f := fun i hi =>
    (h _).2 (List.mem_of_getElem? (w3 i hi))
  have dist : ∀ i j, i < (facePoints S V' n g).length → j < (facePoints S V' n g).length → i ≠ j → facePoint S V' n g i ≠ facePoint S V' n g j := by
    intro i j hi hj hij heq
    refine hij (List.Nodup.getElem_inj_iff w1 (hi := hi) (hj := hj) |>.1 ?_)
    have a := w3 i hi; have b := w3 j hj
    rw [List.getElem?_eq_getElem hi] at a; rw [List.getElem?_eq_getElem hj] at b
    rw [Option.some.inj a, Option.some.inj b, heq]
  have corner : ∀ p ∈ facePoints S V e f, p = facePoint S V e f 0 ∨ p = facePoint S V e f 1 ∨ p = facePoint S V e f 2 ∨
      ((facePoints S V e f).length = 4 ∧ p = facePoint S V e f 3) := fun p hp => by
    obtain ⟨i, hi, rfl⟩ := List.mem_iff_getElem.1 hp
    have a := u3 i hi
    rw [List.getElem?_eq_getElem hi] at a
    rw [Option.some.inj a]
    have : i = 0 ∨ i = 1 ∨ i = 2 ∨ ((facePoints S V e f).length = 4 ∧ i = 3) := by omega
    rcases this with rfl | rfl | rfl | ⟨h4, rfl⟩
    · exact Or.inl rfl
    · exact Or.inr (Or.inl rfl)
    · exact Or.inr (Or.inr (Or.inl rfl))
    · exact Or.inr (Or.inr (Or.inr ⟨h4, rfl⟩))
  let p3 : Point := fun k => facePoint S V e f 1 k + facePoint S V e f 2 k - facePoint S V e f 0 k
  have corner' : ∀ i < (facePoints S V' n g).length, facePoint S V' n g i = facePoint S V e f 0 ∨ facePoint S V' n g i = facePoint S V e f 1 ∨
      facePoint S V' n g i = facePoint S V e f 2 ∨ facePoint S V' n g i = p3 := fun i hi => by
    rcases corner _ (mem i hi) with a | a | a | ⟨h4, a⟩
    · exact Or.inl a
    · exact Or.inr (Or.inl a)
    · exact Or.inr (Or.inr (Or.inl a))
    · exact Or.inr (Or.inr (Or.inr (a.trans (funext (u4 h4)))))
  obtain ⟨s, hs, hr⟩ := cross_corners (p3 := p3) (fun _ => rfl) (corner' 0 (by omega)) (corner' 1 (by omega)) (corner' 2 (by omega))
    (dist 0 1 (by omega) (by omega) (by omega)) (dist 0 2 (by omega) (by omega) (by omega)) (dist 1 2 (by omega) (by omega) (by omega))
  have hraw : rawNormal S V' n g = times (rawNormal S V e f) s := hr
  refine ⟨?_, ?_, s, hs, hraw⟩
  · rw [u5, w5, hlen, hraw]
    congr 1
    rw [norm, norm]
    congr 1
    simp only [dot, times]
    rcases hs with rfl | rfl <;> ring
  · funext k
    rw [u6, w6, hlen, (hperm.map fun p => p k).sum_eq]

end T8.Geometry
