/-
The outer normals of the faces of lines, triangles and quadrilaterals.
-/
import Verif.Lemmas.Flux

namespace T8.Geometry
open Neighbor

/-- The corners of the faces of quadrilaterals. -/
theorem quad_face_corners {S : P4ests} (D : S.Documented) (x : Standalone.Elem 2) {f : Nat} (hf : f < 4) : faceCorners S (.quad x) f =
    [[0, 2], [1, 3], [0, 1], [2, 3]].getD f [] := by
  refine Eq.trans (b := (List.range (2 ^ 2)).filter fun k => Cube.CornerOnFace k f) (D.1.faceCorners f hf) ?_
  interval_cases f <;> decide

/-- The determinant in the plane. -/
def flat2 (x y : Point) : ℚ := x 0 * y 1 - x 1 * y 0

/-- The faces of the reference elements in the plane. -/
def Bounded2 (c : Eclass) (L : List (List Nat)) : Prop :=
  (∀ f < L.length, (L.getD f []).length = 2) ∧
  (∀ f < L.length, ∀ i < 2, (L.getD f []).getD i 0 < c.numVertices) ∧
  (∀ f < L.length, flat2 (minus (centroidRefCoords c) (refFacePoint c L f 0)) (minus (refFacePoint c L f 1) (refFacePoint c L f 0)) ≠ 0) ∧
  ∀ f < L.length, ∀ v < c.numVertices,
    0 ≤ flat2 (minus (centroidRefCoords c) (refFacePoint c L f 0)) (minus (refFacePoint c L f 1) (refFacePoint c L f 0)) *
      flat2 (minus (cornerRefCoords c v) (refFacePoint c L f 0)) (minus (refFacePoint c L f 1) (refFacePoint c L f 0))

theorem bounded2_quad : Bounded2 .quad [[0, 2], [1, 3], [0, 1], [2, 3]] := by
  refine ⟨?_, ?_, ?_, ?_⟩ <;> decide +kernel

theorem bounded2_triangle : Bounded2 .triangle [[1, 2], [0, 2], [0, 1]] := by
  refine ⟨?_, ?_, ?_, ?_⟩ <;> decide +kernel

theorem face_table_dim2 {S : P4ests} (D : S.Documented) {e : Element} (h2 : e.eclass.dim = 2) :
    ∃ L, Bounded2 (shape e) L ∧ e.numFaces = L.length ∧ (∀ f < L.length, faceCorners S e f = L.getD f []) ∧ ∀ f, faceShape e f = .line := by
  cases e with
  | quad x => exact ⟨_, bounded2_quad, rfl, fun f hf => quad_face_corners D x hf, fun _ => rfl⟩
  | triangle t => exact ⟨_, bounded2_triangle, rfl, fun _ _ => rfl, fun _ => rfl⟩
  | vertex v => simp [Element.eclass, Eclass.dim] at h2
  | line l => simp [Element.eclass, Eclass.dim] at h2
  | hex x => simp [Element.eclass, Eclass.dim] at h2
  | tet t => simp [Element.eclass, Eclass.dim] at h2
  | prism p => simp [Element.eclass, Eclass.dim] at h2
  | pyramid p => simp [Element.eclass, Eclass.dim] at h2

theorem gram_cross (x y : Point) : gram x y = dot (cross x y) (cross x y) := by simp [gram, inner, dot, cross]; ring

theorem gram_flat (b0 b1 x y : Point) :
    gram (at_ (fun _ => 0) b0 b1 (fun _ => 0) x) (at_ (fun _ => 0) b0 b1 (fun _ => 0) y) = flat2 x y ^ 2 * gram b0 b1 := by
  simp only [gram, inner, at_, flat2]; ring

/-- The projection that makes the normal of an edge. -/
theorem edge_normal {c b : Point} (h : gram c b ≠ 0) :
    let n : Point := fun k => c k + -1 * dot c b / dot b b * b k
    dot n b = 0 ∧ 0 < dot n n ∧ dot c n = dot n n ∧ ∀ s t : ℚ, ∀ w : Point, (∀ k, w k = s * c k + t * b k) → dot n w = s * dot n n := by
  intro n
  have hb : dot b b ≠ 0 := fun h0 => by
    have hz : ∀ k, b k = 0 := fun k => by
      have h0' : b 0 * b 0 + b 1 * b 1 + b 2 * b 2 = 0 := h0
      have a := mul_self_nonneg (b 0); have b' := mul_self_nonneg (b 1); have c' := mul_self_nonneg (b 2)
      apply mul_self_eq_zero.1
      fin_cases k
      · show b 0 * b 0 = 0; linarith
      · show b 1 * b 1 = 0; linarith
      · show b 2 * b 2 = 0; linarith
    exact h (by simp [gram, inner, hz])
  have e1 : dot n b = 0 := by
    have : dot n b = dot c b + -1 * dot c b / dot b b * dot b b := by simp only [n, dot]; ring
    rw [this]; field_simp; ring
  have e2 : dot c n = dot n n := by
    have : dot n n = dot c n + -1 * dot c b / dot b b * dot n b := by simp only [n, dot]; ring
    rw [this, e1]; ring
  have e3 : dot c n * dot b b = gram c b := by
    have : dot c n = dot c c - dot c b * dot c b / dot b b := by simp only [n, dot]; ring
    rw [this]; field_simp; simp only [gram, inner, dot]; ring
  have hn0 : dot n n ≠ 0 := fun h0 => h (by rw [← e3, e2, h0]; ring)
  have hnn : 0 < dot n n := dot_self_pos hn0
  refine ⟨e1, hnn, e2, fun s t w hw => ?_⟩
  have : dot n w = s * dot c n + t * dot n b := by simp only [dot, hw]; ring
  rw [this, e1, e2]; ring

/-- The outer normal of an edge. -/
theorem outer_normal2 {sqrt : ℚ → ℚ} (hs : ∀ x, 0 < x → 0 < sqrt x) {S : P4ests} (D : S.Documented) {V : Nat → Point} {e : Element}
    (he : e.Valid S) (h2 : e.eclass.dim = 2) {o a0 a1 a2 : Point} (hV : Frame e.eclass V o a0 a1 a2) (hg : gram a0 a1 ≠ 0) {f : Nat}
    (hf : f < e.numFaces) :
    (∀ p ∈ (faceCorners S e f).map (elementCoordinate S V e), dot (faceNormal sqrt S V e f) (minus p (facePoint S V e f 0)) = 0) ∧
    (∀ v < (shape e).numVertices, dot (faceNormal sqrt S V e f) (minus (elementCoordinate S V e v) (facePoint S V e f 0)) ≤ 0) ∧
    dot (faceNormal sqrt S V e f) (minus (linearCentroid S V e) (facePoint S V e f 0)) < 0 ∧
    (∃ x, 0 < x ∧ dot (faceNormal sqrt S V e f) (faceNormal sqrt S V e f) = x / (sqrt x * sqrt x)) ∧
    ∃ x y, ∀ k, faceNormal sqrt S V e f k = x * a0 k + y * a1 k := by
  obtain ⟨A, b, c, hr, hdet⟩ := ref_frame2 he h2
  let o' : Point := fun k => o k + A 0 * a0 k + A 1 * a1 k
  let b0 : Point := fun k => b 0 * a0 k + b 1 * a1 k
  let b1 : Point := fun k => c 0 * a0 k + c 1 * a1 k
  have hC : Corners S V e o' b0 b1 (fun _ => 0) := fun v hv k => by
    rw [elementCoordinate, geometry_frame2 hV h2, vertexRefCoords_eq he hv, ← refCoords_corner he hv, hr, hr]
    simp only [o', b0, b1]; ring
  have hgb : gram b0 b1 ≠ 0 := by
    have : gram b0 b1 = gram a0 a1 * (b 0 * c 1 - b 1 * c 0) ^ 2 := by simp only [gram, inner, b0, b1]; ring
    rw [this, hdet]
    exact mul_ne_zero hg (by positivity)
  obtain ⟨L, hB, hn, hL, hsh⟩ := face_table_dim2 D h2
  rw [hn] at hf
  have hp : ∀ i < 2, facePoint S V e f i = at_ o' b0 b1 (fun _ => 0) (refFacePoint (shape e) L f i) := fun i hi => by
    rw [facePoint, hL f hf, corners_at hC (hB.2.1 f hf i hi)]; rfl
  set u0 := refFacePoint (shape e) L f 0 with hu0
  set u1 := refFacePoint (shape e) L f 1 with hu1
  set m := centroidRefCoords (shape e) with hm
  have hflat : flat2 (minus m u0) (minus u1 u0) ≠ 0 := hB.2.2.1 f hf
  have hmin : ∀ r : Point, minus (at_ o' b0 b1 (fun _ => 0) r) (facePoint S V e f 0) = at_ (fun _ => 0) b0 b1 (fun _ => 0) (minus r u0) := fun r => by
    rw [hp 0 (by omega), minus_at]; congr 1; funext k; simp only [minus]; ring
  have hcen : minus (linearCentroid S V e) (facePoint S V e f 0) = at_ (fun _ => 0) b0 b1 (fun _ => 0) (minus m u0) := by
    rw [centroid_frame hC, hmin]
  have hedge : minus (facePoint S V e f 1) (facePoint S V e f 0) = at_ (fun _ => 0) b0 b1 (fun _ => 0) (minus u1 u0) := by
    rw [hp 1 (by omega), hmin]
  set C : Point := at_ (fun _ => 0) b0 b1 (fun _ => 0) (minus m u0) with hCdef
  set B : Point := at_ (fun _ => 0) b0 b1 (fun _ => 0) (minus u1 u0) with hBdef
  obtain ⟨k1, k2, k3, k4⟩ := edge_normal (c := C) (b := B) (by rw [gram_flat]; exact mul_ne_zero (pow_ne_zero _ hflat) hgb)
  set n : Point := fun k => C k + -1 * dot C B / dot B B * B k with hndef
  have hN : 0 < norm sqrt n := hs _ k2
  have hnor : faceNormal sqrt S V e f = times n (-(1 / norm sqrt n)) := by
    rw [faceNormal, hsh f]
    show times (fun k => minus (linearCentroid S V e) (facePoint S V e f 0) k + -1 * dot (minus (linearCentroid S V e) (facePoint S V e f 0))
      (minus (facePoint S V e f 1) (facePoint S V e f 0)) / dot (minus (facePoint S V e f 1) (facePoint S V e f 0))
      (minus (facePoint S V e f 1) (facePoint S V e f 0)) * minus (facePoint S V e f 1) (facePoint S V e f 0) k) _ = _
    simp only [hcen, hedge]
    rw [if_pos (by rw [k3]; exact k2), div_neg]
  have hany : ∀ r : Point, dot (faceNormal sqrt S V e f) (minus (at_ o' b0 b1 (fun _ => 0) r) (facePoint S V e f 0)) =
      flat2 (minus r u0) (minus u1 u0) / flat2 (minus m u0) (minus u1 u0) * dot n n * -(1 / norm sqrt n) := fun r => by
    rw [hnor, dot_scale', hmin]
    congr 1
    refine k4 _ (flat2 (minus m u0) (minus r u0) / flat2 (minus m u0) (minus u1 u0)) _ fun k => ?_
    rw [hCdef, hBdef]
    simp only [at_]
    field_simp
    simp only [flat2]; ring
  have hi : 0 < 1 / norm sqrt n := by positivity
  refine ⟨fun p hp' => ?_, fun v hv => ?_, ?_, ⟨dot n n, k2, ?_⟩, ?_⟩
  · rw [hL f hf, List.mem_map] at hp'
    obtain ⟨v, hv, rfl⟩ := hp'
    obtain ⟨i, hi', rfl⟩ := List.mem_iff_getElem.1 hv
    have hl := hB.1 f hf
    have hg' : (L.getD f []).getD i 0 = (L.getD f [])[i] := by rw [List.getD_eq_getElem?_getD, List.getElem?_eq_getElem hi']; rfl
    have hlt := hB.2.1 f hf i (by omega)
    rw [hg'] at hlt
    rw [corners_at hC hlt, hany]
    have hr : cornerRefCoords (shape e) (L.getD f [])[i] = refFacePoint (shape e) L f i := by rw [refFacePoint, hg']
    rw [hr]
    have : i = 0 ∨ i = 1 := by omega
    have hz : flat2 (minus (refFacePoint (shape e) L f i) u0) (minus u1 u0) = 0 := by
      rcases this with rfl | rfl
      · simp only [flat2, ← hu0, minus]; ring
      · simp only [flat2, ← hu1, minus]; ring
    rw [hz]; ring
  · rw [corners_at hC hv, hany]
    have h := hB.2.2.2 f hf v hv
    have hq : 0 ≤ flat2 (minus (cornerRefCoords (shape e) v) u0) (minus u1 u0) / flat2 (minus m u0) (minus u1 u0) := by
      rw [← mul_div_mul_left _ _ hflat]
      exact div_nonneg h (mul_self_nonneg _)
    have := mul_nonneg (mul_nonneg hq k2.le) hi.le
    linarith
  · rw [centroid_frame hC, hany, div_self hflat]
    have := mul_pos k2 hi
    linarith
  · rw [hnor, dot_scale', dot_scale]
    have : norm sqrt n ≠ 0 := hN.ne'
    have hne : sqrt (dot n n) = norm sqrt n := rfl
    rw [hne]; field_simp
  · refine ⟨-(1 / norm sqrt n) * ((minus m u0 0 + -1 * dot C B / dot B B * minus u1 u0 0) * b 0 + (minus m u0 1 + -1 * dot C B / dot B B * minus u1 u0 1) * c 0),
      -(1 / norm sqrt n) * ((minus m u0 0 + -1 * dot C B / dot B B * minus u1 u0 0) * b 1 + (minus m u0 1 + -1 * dot C B / dot B B * minus u1 u0 1) * c 1),
      fun k => ?_⟩
    rw [hnor]
    show (C k + -1 * dot C B / dot B B * B k) * _ = _
    generalize -1 * dot C B / dot B B = z
    rw [hCdef, hBdef]
    simp only [at_, b0, b1]; ring

/-- The outer normals of the ends of a line. -/
theorem outer_normal1 {sqrt : ℚ → ℚ} (hs : ∀ x, 0 < x → 0 < sqrt x) {S : P4ests} {V : Nat → Point} {l : Dline.Line}
    (he : Element.Valid S (.line l)) {o a0 a1 a2 : Point} (hV : Frame .line V o a0 a1 a2) (hg : inner a0 a0 ≠ 0) {f : Nat} (hf : f < 2) :
    (∀ p ∈ (faceCorners S (.line l) f).map (elementCoordinate S V (.line l)), dot (faceNormal sqrt S V (.line l) f) (minus p (facePoint S V (.line l) f 0)) = 0) ∧
    (∀ v < 2, dot (faceNormal sqrt S V (.line l) f) (minus (elementCoordinate S V (.line l) v) (facePoint S V (.line l) f 0)) ≤ 0) ∧
    dot (faceNormal sqrt S V (.line l) f) (minus (linearCentroid S V (.line l)) (facePoint S V (.line l) f 0)) < 0 ∧
    (∃ x, 0 < x ∧ dot (faceNormal sqrt S V (.line l) f) (faceNormal sqrt S V (.line l) f) = x / (sqrt x * sqrt x)) ∧
    ∃ x, ∀ k, faceNormal sqrt S V (.line l) f k = x * a0 k := by
  obtain ⟨o', hC, -⟩ := element_frame1 he hV
  set B : Point := fun k => a0 k / 2 ^ l.level with hB
  have hc : ∀ v < 2, ∀ k, elementCoordinate S V (.line l) v k = o' k + (v : ℚ) * B k := fun v hv k => by
    rw [hC v hv k]
    interval_cases v <;> simp [shape, Element.eclass, cornerRefCoords, cornerRefTable]
  have hz : ∀ k, linearCentroid S V (.line l) k = o' k + 1 / 2 * B k := fun k => by
    rw [linearCentroid]
    show ((List.range 2).map fun v => elementCoordinate S V (.line l) v k).sum * (1 / ((2 : Nat) : ℚ)) = _
    rw [sum_range]
    simp only [List.range_succ, List.range_zero, List.nil_append, List.map_append, List.map_cons, List.map_nil, List.singleton_append]
    rw [hc 0 (by omega), hc 1 (by omega)]; simp; ring
  have hbb : 0 < dot B B := by
    have : dot B B * (2 ^ l.level * 2 ^ l.level) = inner a0 a0 := by
      have hp : (2 : ℚ) ^ l.level ≠ 0 := by positivity
      simp only [dot, hB, inner]; field_simp
    exact dot_self_pos (x := B) fun h0 => hg (by rw [← this, h0]; ring)
  have hN : 0 < norm sqrt B := hs _ hbb
  have hi : 0 < 1 / norm sqrt B := by positivity
  have hpt : facePoint S V (.line l) f 0 = elementCoordinate S V (.line l) f := rfl
  have hmin : minus (elementCoordinate S V (.line l) 1) (elementCoordinate S V (.line l) 0) = B := by
    funext k; simp only [minus]; rw [hc 0 (by omega), hc 1 (by omega)]; simp
  have hnor : faceNormal sqrt S V (.line l) f = times B ((if f = 0 then -1 else 1) / norm sqrt B) := by
    show times (minus (elementCoordinate S V (.line l) 1) (elementCoordinate S V (.line l) 0)) (_ / norm sqrt (minus (elementCoordinate S V (.line l) 1)
      (elementCoordinate S V (.line l) 0))) = _
    rw [hmin]
  have hany : ∀ p : Point, ∀ s : ℚ, (∀ k, p k = o' k + s * B k) → dot (faceNormal sqrt S V (.line l) f) (minus p (facePoint S V (.line l) f 0)) =
      (s - f) * (if f = 0 then -1 else 1) * (dot B B * (1 / norm sqrt B)) := fun p s hp => by
    rw [hnor, dot_scale', hpt]
    have : dot B (minus p (elementCoordinate S V (.line l) f)) = (s - f) * dot B B := by
      simp only [dot, minus, hp, hc f hf]; ring
    rw [this]; ring
  have hpos : 0 < dot B B * (1 / norm sqrt B) := mul_pos hbb hi
  refine ⟨fun p hp => ?_, fun v hv => ?_, ?_, ⟨dot B B, hbb, ?_⟩, (if f = 0 then -1 else 1) / norm sqrt B / 2 ^ l.level, fun k => ?_⟩
  · have : p = elementCoordinate S V (.line l) f := by simpa [faceCorners] using hp
    rw [this, hany _ f (hc f hf)]; ring
  · rw [hany _ v (hc v hv)]
    generalize dot B B * (1 / norm sqrt B) = P at *
    interval_cases f <;> interval_cases v <;> simp <;> linarith
  · rw [hany _ _ hz]
    generalize dot B B * (1 / norm sqrt B) = P at *
    interval_cases f <;> simp <;> linarith
  · rw [hnor, dot_scale', dot_scale]
    have hne : sqrt (dot B B) = norm sqrt B := rfl
    have : norm sqrt B ≠ 0 := hN.ne'
    rw [hne]
    split <;> field_simp
  · rw [hnor]
    show B k * _ = _
    rw [hB]; ring

end T8.Geometry
