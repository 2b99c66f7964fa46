/-
C62: the measures of the elements: volumes, areas, centroids and normals of faces.

In trees that are affine images of the reference tree, the volume of an element is its share of the volume of the tree, so the
volumes of the leaves of a tree add up to the volume of the tree. The normals are outer normals. In dimension three, the discrete
theorem of Gauss holds for the faces of each element, and the values agree on the two sides of a common face.
-/
import Verif.Lemmas.Normal2
import Verif.Props.PointInside
import Mathlib.Data.Int.Log

namespace T8.Geometry
open Neighbor

/-! ### Volumes -/

/-- The volume of an element: the part that the element has in the volume of the tree. -/
theorem C62_volume {sqrt : ℚ → ℚ} (hs : Doubling sqrt) (S : P4ests) (D : S.Documented) (V : Nat → Point) (e : Element) (he : e.Valid S)
    (o a0 a1 a2 : Point) (hV : Frame e.eclass V o a0 a1 a2) :
    volume sqrt S V e = refVolume (shape e) * spanned sqrt e.eclass.dim a0 a1 a2 / (2 ^ e.eclass.dim) ^ e.level := by
  have h3 : e.eclass.dim = 3 → (shape e = .hex ∨ shape e = .tet ∨ shape e = .prism ∨ shape e = .pyramid) →
      volume sqrt S V e = refVolume (shape e) * spanned sqrt e.eclass.dim a0 a1 a2 / (2 ^ e.eclass.dim) ^ e.level := fun h3 hsh => by
    obtain ⟨o', b0, b1, b2, hC, hdet⟩ := element_frame he h3 hV
    rw [volume_dim3 sqrt hC hsh, hdet, h3]
    show _ = _ * |det a0 a1 a2| / _
    norm_num; ring
  have h2 : e.eclass.dim = 2 → (shape e = .quad ∨ shape e = .triangle) →
      volume sqrt S V e = refVolume (shape e) * spanned sqrt e.eclass.dim a0 a1 a2 / (2 ^ e.eclass.dim) ^ e.level := fun h2 hsh => by
    obtain ⟨o', b0, b1, hC, hg⟩ := element_frame2 he h2 hV
    rw [volume_dim2 D hC hsh, hg, gram_scale sqrt hs, h2]
    show _ = _ * sqrt (gram a0 a1) / _
    norm_num; ring
  cases e with
  | vertex v => show (0 : ℚ) = 0 * _ / _; ring
  | line l =>
    rw [volume_dim1 hs he hV]
    show _ = 1 * spanned sqrt 1 a0 a1 a2 / (2 ^ 1) ^ l.level
    rw [spanned, one_mul, pow_one]
  | quad q => exact h2 rfl (Or.inl rfl)
  | triangle t => exact h2 rfl (Or.inr rfl)
  | hex x => exact h3 rfl (Or.inl rfl)
  | tet t => exact h3 rfl (Or.inr (Or.inl rfl))
  | prism p => exact h3 rfl (Or.inr (Or.inr (Or.inl rfl)))
  | pyramid p =>
    refine h3 rfl ?_
    rw [shape_pyramid]; split <;> simp

theorem emb_facts (S : P4ests) (c : Eclass) {x : (treeOf S c).E} (hx : (treeOf S c).Valid x) :
    (emb S c x).eclass = c ∧ (emb S c x).Valid S ∧ (emb S c x).level = (treeOf S c).level x := by
  cases c <;> exact ⟨rfl, hx, rfl⟩

/-- The volumes of the children add up to the volume of the element. -/
theorem C62_children {sqrt : ℚ → ℚ} (hs : Doubling sqrt) (S : P4ests) (D : S.Documented) (c : Eclass) (V : Nat → Point)
    (o a0 a1 a2 : Point) (hV : Frame c V o a0 a1 a2) (x : (treeOf S c).E) (hx : (treeOf S c).Valid x)
    (hl : (treeOf S c).level x < (treeOf S c).maxLevel) :
    ((List.range ((treeOf S c).nc x)).map fun i => volume sqrt S V (emb S c ((treeOf S c).child x i))).sum = volume sqrt S V (emb S c x) := by
  have key : ∀ y, (treeOf S c).Valid y → volume sqrt S V (emb S c y) =
      spanned sqrt c.dim a0 a1 a2 / (2 ^ c.dim) ^ (treeOf S c).level y * refVolume (shape (emb S c y)) := fun y hy => by
    obtain ⟨h1, h2, h3⟩ := emb_facts S c hy
    have := C62_volume hs S D V (emb S c y) h2 o a0 a1 a2 (h1.symm ▸ hV)
    rw [h1, h3] at this
    rw [this]; ring
  rw [key x hx, sum_map_congr (g := fun i => spanned sqrt c.dim a0 a1 a2 / (2 ^ c.dim) ^ ((treeOf S c).level x + 1) *
    refVolume (shape (emb S c ((treeOf S c).child x i)))) (fun i hi => ?_), sum_mul, children_ref S c hx hl]
  · have : ((2 : ℚ) ^ c.dim) ≠ 0 := by positivity
    rw [pow_succ]; field_simp
  · rw [key _ ((treeOf S c).valid_child x i hx hl hi), (treeOf S c).level_child x i hx hl hi]

/-- C62. The volumes of the leaves of a tree add up to the volume of the tree, in all refinements. More generally, the volumes of the leaves below
an element add up to the volume of the element. -/
theorem C62_leaves {sqrt : ℚ → ℚ} (hs : Doubling sqrt) (S : P4ests) (D : S.Documented) (c : Eclass) (V : Nat → Point)
    (o a0 a1 a2 : Point) (hV : Frame c V o a0 a1 a2) (x : (treeOf S c).E) (hx : (treeOf S c).Valid x) (ls : List (treeOf S c).E)
    (h : (treeOf S c).Tiles x ls) :
    (ls.map fun y => volume sqrt S V (emb S c y)).sum = volume sqrt S V (emb S c x) :=
  tiles_sum _ (fun y hy hl => C62_children hs S D c V o a0 a1 a2 hV y hy hl) h hx

/-- The volumes of elements of dimension three and of the leaves below them do not depend on the square root at all. -/
theorem C62_leaves_dim3 (sqrt : ℚ → ℚ) (S : P4ests) (D : S.Documented) (c : Eclass) (h3 : c.dim = 3) (V : Nat → Point)
    (o a0 a1 a2 : Point) (hV : Frame c V o a0 a1 a2) (ls : List (treeOf S c).E) (h : (treeOf S c).Tiles (treeOf S c).root ls) :
    (ls.map fun y => volume sqrt S V (emb S c y)).sum = refVolume c * |det a0 a1 a2| := by
  have hno : ∀ e : Element, e.eclass.dim = 3 → volume sqrt S V e = volume (fun _ => 0) S V e := fun e he => by
    rw [volume, volume]
    cases e with
    | vertex v => simp [Element.eclass, Eclass.dim] at he
    | line l => simp [Element.eclass, Eclass.dim] at he
    | quad q => simp [Element.eclass, Eclass.dim] at he
    | triangle t => simp [Element.eclass, Eclass.dim] at he
    | hex x => rfl
    | tet t => rfl
    | prism p => rfl
    | pyramid p => rw [shape_pyramid]; by_cases h6 : 6 ≤ p.type <;> simp only [h6, if_true, if_false]
  have hD : Doubling fun _ => 0 := fun x => by ring
  have h1 := C62_leaves hD S D c V o a0 a1 a2 hV (treeOf S c).root (treeOf S c).valid_root ls h
  have hd : ∀ y, (emb S c y).eclass.dim = 3 := fun y => by cases c <;> exact h3
  simp only [hno _ (hd _)]
  rw [h1]
  obtain ⟨k1, k2, k3⟩ := emb_facts S c (treeOf S c).valid_root
  rw [C62_volume hD S D V _ k2 o a0 a1 a2 (k1.symm ▸ hV), k1, h3, k3, (treeOf S c).level_root, pow_zero, div_one]
  show _ * |det a0 a1 a2| = _
  congr 2
  cases c with
  | pyramid => show shape (.pyramid Pyramid.root) = .pyramid; decide
  | _ => rfl

/-! ### Normals -/

/-- C62. The normal of a face is an outer normal: it is orthogonal to the face, all corners of the element are behind the plane of the face, and the
center of the element is strictly behind it. Its length is the quotient of a positive number and its computed square root, hence 1 if
this square root is exact. -/
theorem C62_normal {sqrt : ℚ → ℚ} (hs : Positive sqrt) (S : P4ests) (D : S.Documented) (V : Nat → Point) (e : Element) (he : e.Valid S)
    (hV : Affine e.eclass V) (f : Nat) (hf : f < e.numFaces) :
    (∀ i ∈ faceCorners S e f, ∀ j ∈ faceCorners S e f,
      inner (faceNormal sqrt S V e f) (fun k => elementCoordinate S V e i k - elementCoordinate S V e j k) = 0) ∧
    (∀ v < (shape e).numVertices, ∀ i ∈ faceCorners S e f,
      inner (faceNormal sqrt S V e f) (fun k => elementCoordinate S V e v k - elementCoordinate S V e i k) ≤ 0) ∧
    (∀ i ∈ faceCorners S e f, inner (faceNormal sqrt S V e f) (fun k => linearCentroid S V e k - elementCoordinate S V e i k) < 0) ∧
    ∃ x, 0 < x ∧ inner (faceNormal sqrt S V e f) (faceNormal sqrt S V e f) = x / (sqrt x * sqrt x) := by
  have main : (∀ p ∈ (faceCorners S e f).map (elementCoordinate S V e), dot (faceNormal sqrt S V e f) (minus p (facePoint S V e f 0)) = 0) ∧
    (∀ v < (shape e).numVertices, dot (faceNormal sqrt S V e f) (minus (elementCoordinate S V e v) (facePoint S V e f 0)) ≤ 0) ∧
    dot (faceNormal sqrt S V e f) (minus (linearCentroid S V e) (facePoint S V e f 0)) < 0 ∧
    ∃ x, 0 < x ∧ dot (faceNormal sqrt S V e f) (faceNormal sqrt S V e f) = x / (sqrt x * sqrt x) := by
    obtain ⟨h0, o, a0, a1, a2, hF, hc⟩ := hV
    have : e.eclass.dim = 1 ∨ e.eclass.dim = 2 ∨ e.eclass.dim = 3 := by cases e <;> simp [Element.eclass, Eclass.dim] at h0 ⊢
    rcases this with h | h | h <;> rw [h] at hc <;> simp only [content] at hc
    · cases e with
      | line l =>
        obtain ⟨u1, u2, u3, u4, _⟩ := outer_normal1 hs he hF hc hf
        exact ⟨u1, u2, u3, u4⟩
      | _ => simp [Element.eclass, Eclass.dim] at h
    · obtain ⟨u1, u2, u3, u4, _⟩ := outer_normal2 hs D he h hF hc hf
      exact ⟨u1, u2, u3, u4⟩
    · obtain ⟨u1, u2, u3, a, ha, haa, hn⟩ := outer_normal hs D he ⟨h, o, a0, a1, a2, hF, hc⟩ hf
      refine ⟨u1, u2, u3, dot (rawNormal S V e f) (rawNormal S V e f), dot_self_pos (x := minus (linearCentroid S V e) (facePoint S V e f 0)) ?_, ?_⟩
      · intro h0
        rw [hn, dot_scale', dot_comm, h0, zero_mul] at u3
        exact lt_irrefl _ u3
      · rw [hn, dot_scale', dot_scale, mul_assoc, haa]
        simp only [norm]; ring
  obtain ⟨u1, u2, u3, u4⟩ := main
  have split : ∀ p q : Point, inner (faceNormal sqrt S V e f) (fun k => p k - q k) =
      dot (faceNormal sqrt S V e f) (minus p (facePoint S V e f 0)) - dot (faceNormal sqrt S V e f) (minus q (facePoint S V e f 0)) := fun p q => by
    simp only [inner, dot, minus]; ring
  refine ⟨fun i hi j hj => ?_, fun v hv i hi => ?_, fun i hi => ?_, u4⟩
  · rw [split, u1 _ (List.mem_map_of_mem hi), u1 _ (List.mem_map_of_mem hj), sub_zero]
  · rw [split, u1 _ (List.mem_map_of_mem hi), sub_zero]; exact u2 v hv
  · rw [split, u1 _ (List.mem_map_of_mem hi), sub_zero]; exact u3

/-- In dimension one and two the normals lie in the line or plane of the tree. -/
theorem C62_normal_in_plane {sqrt : ℚ → ℚ} (hs : Positive sqrt) (S : P4ests) (D : S.Documented) (V : Nat → Point) (e : Element) (he : e.Valid S)
    (h2 : e.eclass.dim = 2) (o a0 a1 a2 : Point) (hV : Frame e.eclass V o a0 a1 a2) (hc : content 2 a0 a1 a2 ≠ 0) (f : Nat) (hf : f < e.numFaces) :
    ∃ x y, ∀ k, faceNormal sqrt S V e f k = x * a0 k + y * a1 k :=
  (outer_normal2 hs D he h2 hV hc hf).2.2.2.2

theorem C62_normal_in_line {sqrt : ℚ → ℚ} (hs : Positive sqrt) (S : P4ests) (V : Nat → Point) (l : Dline.Line) (he : Element.Valid S (.line l))
    (o a0 a1 a2 : Point) (hV : Frame .line V o a0 a1 a2) (hc : content 1 a0 a1 a2 ≠ 0) (f : Nat) (hf : f < 2) :
    ∃ x, ∀ k, faceNormal sqrt S V (.line l) f k = x * a0 k :=
  (outer_normal1 hs he hV hc hf).2.2.2.2

/-! ### The surface of an element -/

/-- C62. The normals of the faces, with the areas as weights, add up to zero: what flows into an element at one place in a constant flow, flows out
elsewhere. All that is needed of the square root is that it is positive, as the one in the normal cancels with the one in the area. -/
theorem C62_closed {sqrt : ℚ → ℚ} (hs : Positive sqrt) (S : P4ests) (D : S.Documented) (V : Nat → Point) (e : Element) (he : e.Valid S)
    (hV : Flat e.eclass V) (k : Fin 3) :
    ((List.range e.numFaces).map fun f => faceArea sqrt S V e f * faceNormal sqrt S V e f k).sum = 0 :=
  (surface_sum hs D he hV).1 k

/-- C62. The theorem of Gauss for the function x: the areas, centroids and normals of the faces agree with the volume of the element. -/
theorem C62_gauss {sqrt : ℚ → ℚ} (hs : Positive sqrt) (S : P4ests) (D : S.Documented) (V : Nat → Point) (e : Element) (he : e.Valid S)
    (hV : Flat e.eclass V) :
    ((List.range e.numFaces).map fun f => faceArea sqrt S V e f * inner (faceCentroid S V e f) (faceNormal sqrt S V e f)).sum =
      3 * volume sqrt S V e :=
  (surface_sum hs D he hV).2

/-! ### The two sides of a face -/

variable {dim : Nat} {classes : List Eclass} {joins : List Stash.JoinFace}

/-- C62. The two elements at a face agree on its area and its centroid. If they lie on different sides of the face, their normals
are opposite, so that what flows out of one element flows into the other. The elements can be in different trees, of different classes,
with any orientation of the face connection. -/
theorem C62_across {sqrt : ℚ → ℚ} (hs : Positive sqrt) (S : P4ests) (D : S.Documented) (hC : Conforming dim classes joins) (V : Int → Nat → Point)
    (hV : AllMatched S classes joins V) (t : Int) (e : Element) (ht : 0 ≤ t) (hc : classes[t.toNat]? = some e.eclass)
    (he : e.Valid S) (f : Nat) (hf : f < e.numFaces) (nc : Eclass) (hl : e.level ≤ maxLevel nc)
    (hnc : neighborEclass S (Cmesh.commit dim classes joins) t e f = some (some nc)) (t' : Int) (n : Element) (g : Nat)
    (hn : faceNeighbor S (Cmesh.commit dim classes joins) t e nc f = some (some (t', n, g)))
    (hF : Flat e.eclass (V t)) (hF' : Flat nc (V t')) :
    faceArea sqrt S (V t) e f = faceArea sqrt S (V t') n g ∧ faceCentroid S (V t) e f = faceCentroid S (V t') n g ∧
    (0 < inner (faceNormal sqrt S (V t) e f) (fun k => linearCentroid S (V t') n k - faceCentroid S (V t) e f k) →
      ∀ k, faceNormal sqrt S (V t') n g k = -faceNormal sqrt S (V t) e f k) := by
  obtain ⟨m1, m2⟩ := C59_face_corners_meet S D hC V hV t e ht hc he f hf nc hl hnc t' n g hn
  rcases C52_face_neighbor_mutual S D hC t e ht hc he f hf with ⟨h, _⟩ | ⟨nc', h1, h2⟩
  · rw [hnc] at h; cases h
  rw [hnc] at h1
  cases h1
  obtain ⟨t1, n1, g1, k1, k2, k3, rfl, k5, k6, k7, _, _, _⟩ := h2 hl
  rw [hn] at k1
  cases k1
  obtain ⟨s1, s2, s, hs1, hraw⟩ := same_face D he k5 hF hF' hf k7 sqrt (fun p => by
    rw [facePoints, facePoints, List.mem_map, List.mem_map]
    constructor
    · rintro ⟨i, hi, rfl⟩
      obtain ⟨j, hj, h⟩ := m1 i hi
      exact ⟨j, hj, h.symm⟩
    · rintro ⟨j, hj, rfl⟩
      obtain ⟨i, hi, h⟩ := m2 j hj
      exact ⟨i, hi, h⟩)
  refine ⟨s1, s2, fun hpos => ?_⟩
  obtain ⟨u1, u2, u3, a, ha, haa, hna⟩ := outer_normal hs D he hF hf
  obtain ⟨w1, w2, w3, b, hb, hbb, hnb⟩ := outer_normal hs D k5 hF' k7
  obtain ⟨x1, x2, x3, x4, x5, x6⟩ := face_points D he hF hf sqrt
  have hnorm : norm sqrt (rawNormal S (V t') n g) = norm sqrt (rawNormal S (V t) e f) := by
    rw [hraw, norm, norm]
    congr 1
    simp only [dot, times]
    rcases hs1 with rfl | rfl <;> ring
  have hab : b = a ∨ b = -a := by
    rw [hnorm, ← haa] at hbb
    exact mul_self_eq_mul_self_iff.1 hbb
  have hsign : ∃ z : ℚ, (z = 1 ∨ z = -1) ∧ faceNormal sqrt S (V t') n g = times (faceNormal sqrt S (V t) e f) z := by
    rw [hna, hnb, hraw]
    rcases hs1 with rfl | rfl <;> rcases hab with rfl | rfl
    · exact ⟨1, Or.inl rfl, by funext k; simp only [times]; ring⟩
    · exact ⟨-1, Or.inr rfl, by funext k; simp only [times]; ring⟩
    · exact ⟨-1, Or.inr rfl, by funext k; simp only [times]; ring⟩
    · exact ⟨1, Or.inl rfl, by funext k; simp only [times]; ring⟩
  obtain ⟨z, hz, hn'⟩ := hsign
  rcases hz with rfl | rfl
  · exfalso
    have hlen : 0 < (facePoints S (V t) e f).length := by omega
    -- the corner 0 of the neighbor's face is one of the corners of this face
    have w0 : facePoint S (V t') n g 0 ∈ (faceCorners S e f).map (elementCoordinate S (V t) e) := by
      obtain ⟨y1, y2, y3, -, -, -⟩ := face_points D k5 hF' k7 sqrt
      have hy : 0 < (facePoints S (V t') n g).length := by omega
      have hmem := List.mem_of_getElem? (y3 0 hy)
      rw [facePoints, List.mem_map] at hmem
      obtain ⟨j, hj, hj'⟩ := hmem
      obtain ⟨i, hi, h⟩ := m2 j hj
      exact List.mem_map.2 ⟨i, hi, by rw [h, hj']⟩
    have v0 := u1 _ w0
    have hcen : dot (faceNormal sqrt S (V t) e f) (minus (faceCentroid S (V t) e f) (facePoint S (V t) e f 0)) = 0 := by
      have hsum : ∀ l : List Point, (∀ p ∈ l, dot (faceNormal sqrt S (V t) e f) (minus p (facePoint S (V t) e f 0)) = 0) →
          faceNormal sqrt S (V t) e f 0 * (l.map fun p => p 0).sum + faceNormal sqrt S (V t) e f 1 * (l.map fun p => p 1).sum +
          faceNormal sqrt S (V t) e f 2 * (l.map fun p => p 2).sum = l.length * dot (faceNormal sqrt S (V t) e f) (facePoint S (V t) e f 0) := by
        intro l
        induction l with
        | nil => intro _; simp
        | cons p l ih =>
          intro h
          have i1 := ih fun q hq => h q (List.mem_cons_of_mem _ hq)
          have i2 := h p List.mem_cons_self
          simp only [List.map_cons, List.sum_cons, List.length_cons]
          push_cast
          simp only [dot, minus] at i1 i2 ⊢
          linear_combination i1 + i2
      have h := hsum (facePoints S (V t) e f) u1
      have hne : ((facePoints S (V t) e f).length : ℚ) ≠ 0 := by exact_mod_cast hlen.ne'
      have e1 : dot (faceNormal sqrt S (V t) e f) (minus (faceCentroid S (V t) e f) (facePoint S (V t) e f 0)) =
          (faceNormal sqrt S (V t) e f 0 * ((facePoints S (V t) e f).map fun p => p 0).sum + faceNormal sqrt S (V t) e f 1 *
          ((facePoints S (V t) e f).map fun p => p 1).sum + faceNormal sqrt S (V t) e f 2 * ((facePoints S (V t) e f).map fun p => p 2).sum) /
          ((facePoints S (V t) e f).length : ℚ) - dot (faceNormal sqrt S (V t) e f) (facePoint S (V t) e f 0) := by
        simp only [dot, minus, x6]; ring
      rw [e1, h]; field_simp; ring
    rw [hn', dot_scale'] at w3
    simp only [inner] at hpos
    simp only [dot, minus] at w3 v0 hcen
    linarith
  · intro k
    rw [hn']
    show _ * -1 = _
    ring

/-! ### Faces that are not planar -/

/-- A cube whose corner 3 is moved up by 2: face 4 is not planar. -/
def warped : Nat → Point := fun v => if v = 3 then ![1, 1, 2] else cornerRefCoords .hex v

/-- A neighbor at this face, with the corners in another order. -/
def warpedNeighbor : Nat → Point := fun v =>
  [![1, 0, 0], ![0, 0, 0], ![1, 1, 2], ![0, 1, 0], ![1, 0, -1], ![0, 0, -1], ![1, 1, -1], ![0, 1, -1]].getD v ![0, 0, 0]

/-- The corners of the root are the vertices of the tree. -/
theorem root_coordinate (S : P4ests) (V : Nat → Point) (v : Nat) (hv : v < 8) : elementCoordinate S V (rootOf .hex) v = V v := by
  rw [← C59_tree_corners .hex V v hv, elementCoordinate, vertexRefCoords_eq (root_valid S .hex).1 hv]
  exact congrArg (linearGeometry .hex V) (root_corner S v hv)

/-- Finding: quadrilateral faces that are not planar are divided along the diagonal between their corners 1 and 2. These are
different diagonals for the two elements at the face if the orientation is 1 or 2, and then the elements disagree on the area of their
common face. The conditions on the square root hold for the real square root: here the area is (1 + 3) / 2 on one side, and the root of 5 on the other. -/
theorem C62_warped_false {sqrt : ℚ → ℚ} (h1 : sqrt 1 = 1) (h9 : sqrt 9 = 3) (h5 : sqrt 5 ≠ 2) (S : P4ests) (D : S.Documented) :
    (∀ p, p ∈ facePoints S warped (rootOf .hex) 4 ↔ p ∈ facePoints S warpedNeighbor (rootOf .hex) 4) ∧
    faceArea sqrt S warped (rootOf .hex) 4 ≠ faceArea sqrt S warpedNeighbor (rootOf .hex) 4 := by
  have hf : faceCorners S (rootOf .hex) 4 = [0, 1, 2, 3] := hex_corners D _ (f := 4) (by omega)
  have hp : ∀ V, facePoints S V (rootOf .hex) 4 = [V 0, V 1, V 2, V 3] := fun V => by
    rw [facePoints, hf]
    simp only [List.map_cons, List.map_nil]
    rw [root_coordinate S V 0 (by omega), root_coordinate S V 1 (by omega), root_coordinate S V 2 (by omega), root_coordinate S V 3 (by omega)]
  have hq : ∀ V, ∀ i < 4, facePoint S V (rootOf .hex) 4 i = V i := fun V i hi => by
    rw [facePoint, hf]
    interval_cases i
    · exact root_coordinate S V 0 (by omega)
    · exact root_coordinate S V 1 (by omega)
    · exact root_coordinate S V 2 (by omega)
    · exact root_coordinate S V 3 (by omega)
  have ha : ∀ V, faceArea sqrt S V (rootOf .hex) 4 = triangleArea sqrt (V 0) (V 1) (V 2) + triangleArea sqrt (V 1) (V 2) (V 3) := fun V => by
    show triangleArea sqrt _ _ _ + triangleArea sqrt _ _ _ = _
    rw [hq V 0 (by omega), hq V 1 (by omega), hq V 2 (by omega), hq V 3 (by omega)]
  refine ⟨fun p => ?_, ?_⟩
  · rw [hp, hp]
    have a0 : warped 0 = warpedNeighbor 1 := by decide +kernel
    have a1 : warped 1 = warpedNeighbor 0 := by decide +kernel
    have a2 : warped 2 = warpedNeighbor 3 := by decide +kernel
    have a3 : warped 3 = warpedNeighbor 2 := by decide +kernel
    rw [a0, a1, a2, a3]
    simp only [List.mem_cons, List.not_mem_nil, or_false]
    tauto
  · rw [ha, ha]
    have area : ∀ a b c : Point, ∀ x : ℚ, |gram (minus b a) (minus c a)| = x → triangleArea sqrt a b c = 1 / 2 * sqrt x := fun a b c x h => by
      rw [triangleArea]; simp only [gram_eq]; rw [h]
    rw [area (warped 0) (warped 1) (warped 2) 1 (by decide +kernel), area (warped 1) (warped 2) (warped 3) 9 (by decide +kernel),
      area (warpedNeighbor 0) (warpedNeighbor 1) (warpedNeighbor 2) 5 (by decide +kernel),
      area (warpedNeighbor 1) (warpedNeighbor 2) (warpedNeighbor 3) 5 (by decide +kernel), h1, h9]
    intro h
    exact h5 (by linarith)

/-! ### Concrete cases -/

/-- A coarse square root: the largest power of two whose square is not larger. -/
def coarseRoot (x : ℚ) : ℚ := if 0 < x then 2 ^ Int.log 4 x else 0

/-- The hypotheses on the square root hold for the coarse root. -/
theorem coarseRoot_root : Doubling coarseRoot ∧ Positive coarseRoot := by
  refine ⟨fun x => ?_, fun x hx => ?_⟩
  · rw [coarseRoot, coarseRoot]
    by_cases h : 0 < x
    · have h4 : 0 < 4 * x := by linarith
      rw [if_pos h, if_pos h4]
      have key : Int.log 4 (4 * x) = Int.log 4 x + 1 := by
        have e : ∀ z : ℤ, z ≤ Int.log 4 (4 * x) ↔ z ≤ Int.log 4 x + 1 := fun z => by
          rw [← Int.zpow_le_iff_le_log (by norm_num) h4, show z ≤ Int.log 4 x + 1 ↔ z - 1 ≤ Int.log 4 x by omega,
            ← Int.zpow_le_iff_le_log (by norm_num) h, zpow_sub_one₀ (by norm_num)]
          push_cast
          constructor <;> intro h' <;> linarith
        exact le_antisymm ((e _).1 le_rfl) ((e _).2 le_rfl)
      rw [key, zpow_add_one₀ (by norm_num)]; ring
    · rw [if_neg h, if_neg (by linarith)]; ring
  · rw [coarseRoot, if_pos hx]; exact zpow_pos (by norm_num) _

/-- The sheared pyramid: the volumes of its ten children add up to 10, a third of the volume of the parallelepiped. -/
example : ((List.range 10).map fun i => volume coarseRoot reference sheared (.pyramid (Pyramid.child Pyramid.root i))).sum = 10 := by
  have hr : (treeOf reference .pyramid).Tiles Pyramid.root ((List.range 10).flatMap fun i => [Pyramid.child Pyramid.root i]) :=
    RTree.Tiles.node (T := treeOf reference .pyramid) Pyramid.root (fun i => [Pyramid.child Pyramid.root i]) (by decide) (fun i _ => .leaf _)
  have h := C62_leaves_dim3 coarseRoot reference
    ⟨Cube.Cls.quad.reference_documented, (Cube.Cls.hex 19 (by decide)).reference_documented⟩ .pyramid rfl sheared
    ![1, 2, 3] ![2, 0, 0] ![1, 3, 0] ![0, 1, 5] (fun _ _ _ => rfl) _ hr
  have hd : refVolume .pyramid * |det ![2, 0, 0] ![1, 3, 0] ![0, 1, 5]| = 10 := by decide +kernel
  rw [hd] at h
  exact h

/-- A triangle in space of level 1 has a quarter of the area of the tree. -/
example : volume coarseRoot reference (fun v k => unit .triangle v 0 * (![0, 2, 0] : Point) k + unit .triangle v 1 * (![0, 0, 2] : Point) k)
    (.triangle (Simplex.child .tri (Simplex.root .tri) 2)) = 1 / 2 := by
  have hv : Element.Valid reference (.triangle (Simplex.child .tri (Simplex.root .tri) 2)) :=
    (Simplex.tree .tri).valid_child _ 2 (Simplex.tree .tri).valid_root (by decide) (by decide)
  rw [C62_volume coarseRoot_root.1 reference
    ⟨Cube.Cls.quad.reference_documented, (Cube.Cls.hex 19 (by decide)).reference_documented⟩ _ _ hv (fun _ => 0) ![0, 2, 0] ![0, 0, 2] (fun _ => 0)
    (fun v _ k => by show _ = 0 + (unit .triangle v 0 : ℚ) * _ + (unit .triangle v 1 : ℚ) * _ + _ * 0; ring)]
  show 1 / 2 * coarseRoot (inner ![0, 2, 0] ![0, 2, 0] * inner ![0, 0, 2] ![0, 0, 2] - inner ![0, 2, 0] ![0, 0, 2] * inner ![0, 2, 0] ![0, 0, 2]) / (2 ^ 2) ^ 1 = _
  have : inner ![0, 2, 0] ![0, 2, 0] * inner ![0, 0, 2] ![0, 0, 2] - inner ![0, 2, 0] ![0, 0, 2] * inner ![0, 2, 0] ![0, 0, 2] = (((4 : Nat) : ℚ) ^ (2 : ℤ)) := by
    decide +kernel
  rw [this, coarseRoot, if_pos (by positivity), Int.log_zpow (by norm_num)]
  norm_num

/-- The sheared pyramid and its tetrahedra meet the hypotheses of the theorems about faces. -/
example : ∀ k, ((List.range 4).map fun f => faceArea coarseRoot reference sheared (.pyramid (Pyramid.child Pyramid.root 1)) f *
    faceNormal coarseRoot reference sheared (.pyramid (Pyramid.child Pyramid.root 1)) f k).sum = 0 :=
  fun k => C62_closed coarseRoot_root.2 reference ⟨Cube.Cls.quad.reference_documented, (Cube.Cls.hex 19 (by decide)).reference_documented⟩ sheared
    (.pyramid (Pyramid.child Pyramid.root 1)) (.child _ _ .root (by decide) (by decide)) sheared_flat k

/-- Two unit cubes, the second next to the first: the hypotheses on the vertices of `C62_across`. -/
example (S : P4ests) : Conforming 3 [.hex, .hex] [⟨0, 1, 1, 0, 0⟩] ∧
    AllMatched S [.hex, .hex] [⟨0, 1, 1, 0, 0⟩] (fun t v k => (unit .hex v k.val : ℚ) + if k = 0 ∧ t = 1 then 1 else 0) ∧
    ∀ t : Int, Flat .hex (fun v k => (unit .hex v k.val : ℚ) + if k = 0 ∧ t = 1 then 1 else 0) := by
  refine ⟨⟨by decide, by decide, fun j hj => ?_, by decide⟩, ?_, fun t => ⟨rfl, ![if t = 1 then 1 else 0, 0, 0], ![1, 0, 0], ![0, 1, 0], ![0, 0, 1], fun v _ k => ?_, by decide +kernel⟩⟩
  · simp only [List.mem_singleton] at hj
    subst hj
    exact ⟨.hex, .hex, .quad, by decide⟩
  · intro t t' F F' o c c' b ⟨j, hj, ho, h⟩ hc hc' hb
    simp only [List.mem_singleton] at hj
    subst hj
    have e1 : o = 0 := by simp only at ho; omega
    have key : (F = 1 ∧ F' = 0 ∧ t = 0 ∧ t' = 1) ∨ (F = 0 ∧ F' = 1 ∧ t = 1 ∧ t' = 0) := by simp only at h; omega
    subst e1
    have hcc : c = .hex ∧ c' = .hex := by rcases key with ⟨-, -, rfl, rfl⟩ | ⟨-, -, rfl, rfl⟩ <;> simp at hc hc' <;> exact ⟨hc.symm, hc'.symm⟩
    obtain ⟨rfl, rfl⟩ := hcc
    have hb' : b = .quad := by rcases key with ⟨rfl, -⟩ | ⟨rfl, -⟩ <;> exact (Option.some.inj hb).symm
    subst hb'
    intro i j hi hj hg
    have hp : (2 : Int) ^ (30 - S.M) * 2 ^ S.M ≠ 0 := by positivity
    rcases key with ⟨rfl, rfl, rfl, rfl⟩ | ⟨rfl, rfl, rfl, rfl⟩
    · have hg1 : Main .hex 1 .hex 0 → _ := hg.1
      have hg2 : ¬ Main .hex 1 .hex 0 → _ := hg.2
      have hm : ¬ Main .hex 1 .hex 0 := by simp [Main]
      have hfl : Neighbor.flip .hex 1 .hex 0 = false := by decide
      have hg := congrArg id (hg2 hm)
      simp only [Eclass.numVertices] at hi hj
      interval_cases i <;> interval_cases j <;>
        simp [faceCoord, rootFaceCorner, rootLength, faceVertices, unit, unitCorner, symmetry, Standalone.squareSymmetry, Standalone.corner, hfl, hp, hp.symm] at hg <;>
        funext k <;> fin_cases k <;> simp [faceVertices, unit, unitCorner]
    · have hfl : Neighbor.flip .hex 0 .hex 1 = false := by decide
      have hg := congrArg id (hg.1 (by simp [Main]))
      simp only [Eclass.numVertices] at hi hj
      interval_cases i <;> interval_cases j <;>
        simp [faceCoord, rootFaceCorner, rootLength, faceVertices, unit, unitCorner, symmetry, Standalone.squareSymmetry, Standalone.corner, hfl, hp, hp.symm] at hg <;>
        funext k <;> fin_cases k <;> simp [faceVertices, unit, unitCorner]
  · fin_cases k <;> simp [add_comm]

end T8.Geometry
