/-
C59: the coordinates of the corners and points of the elements, and their continuity across the faces of the trees.
-/
import Verif.Lemmas.GeometryLift
import Verif.Lemmas.GeometryCentroid
import Verif.Lemmas.FaceParent
import Verif.Props.FaceNeighbor

namespace T8.Geometry
open Neighbor

/-- C59. `element_get_vertex_reference_coords` gives the corners of the element in the reference tree of length 1, and
`element_get_reference_coords` sends the corners of the reference element (`t8_element_corner_ref_coords`) to the same
points. -/
theorem C59_reference_corners (S : P4ests) (e : Element) (he : e.Valid S) (v : Nat) (hv : v < (shape e).numVertices) :
    vertexRefCoords S e v = toRef S e.eclass (cornerPoint S e v) ∧
    refCoords S e (cornerRefCoords (shape e) v) = vertexRefCoords S e v :=
  ⟨vertexRefCoords_eq he hv, by rw [vertexRefCoords_eq he hv, refCoords_corner he hv]⟩

/-- C59. The geometry sends the corners of the tree to its vertices. -/
theorem C59_tree_corners (c : Eclass) (V : Nat → Point) (v : Nat) (hv : v < c.numVertices) :
    linearGeometry c V (fun k => (unit c v k.val : ℚ)) = V v := by
  funext k
  cases c <;> simp only [Eclass.numVertices] at hv <;> interval_cases v <;>
    simp [linearGeometry, linearInterpolation, triangularInterpolation, unit, unitCorner] <;> ring

/-- C59. The linear geometry is continuous across the faces of the trees: if the vertices of two joined trees fit together,
then any two points in the faces that are the same point of the mesh have the same coordinates. -/
theorem C59_continuous (S : P4ests) (b c : Eclass) (F : Nat) (c' : Eclass) (F' o : Nat) (hF : F < c.numFaces) (hF' : F' < c'.numFaces)
    (hb : faceType c F = some b) (hb' : faceType c' F' = some b) (ho : o < b.numVertices) (V V' : Nat → Point)
    (hV : Matched S b c F c' F' o V V') (p p' : Fin 3 → Nat) (hp : (rootOf c).InFace S F p) (hp' : (rootOf c').InFace S F' p')
    (hg : Glued S b c F c' F' o p p') :
    linearGeometry c V (toRef S c p) = linearGeometry c' V' (toRef S c' p') := by
  have hd : b.dim ≤ 2 := by
    have h1 : c.dim ≤ 3 := by cases c <;> decide
    have := (faceType_vertices hb).2
    omega
  rw [restrict hF hb hp V, restrict hF' hb' hp' V']
  have hc : ∀ i, i < b.numVertices → (((faceCoord S c F (rootFaceCorner S c F i)).1 : Int),
      ((faceCoord S c F (rootFaceCorner S c F i)).2 : Int)) = symCorner S b i := fun i hi => by
    rw [(C53_face_corners S c b F i hF hb hi (rootFaceCorner S c F i) (fun _ => rfl)).2]; rfl
  have hc' : ∀ i, i < b.numVertices → (((faceCoord S c' F' (rootFaceCorner S c' F' i)).1 : Int),
      ((faceCoord S c' F' (rootFaceCorner S c' F' i)).2 : Int)) = symCorner S b i := fun i hi => by
    rw [(C53_face_corners S c' b F' i hF' hb' hi (rootFaceCorner S c' F' i) (fun _ => rfl)).2]; rfl
  by_cases hm : Main c F c' F'
  · refine symm_geometry hd ho (flip c F c' F') (fun i j hi hj h => hV i j hi hj ⟨fun _ => ?_, fun h' => absurd hm h'⟩) (hg.1 hm)
    show (_, _) = _
    rw [hc' j hj, hc i hi, h]
  · refine (symm_geometry hd ho (flip c F c' F') (fun i j hi hj h => (hV j i hj hi ⟨fun h' => absurd h' hm, fun _ => ?_⟩).symm)
      (hg.2 hm)).symm
    show (_, _) = _
    rw [hc' i hi, hc j hj, h]

/-! ### The corners of face neighbors -/

theorem inRootFace {S : P4ests} {e : Element} {f F : Nat} (h : e.InRootFace S f F) {p : Fin 3 → Nat} (hp : e.InFace S f p) :
    (rootOf e.eclass).InFace S F p := by
  cases e with
  | vertex v => exact h.elim
  | _ => exact h hp

/-- The vertices of all joined trees fit together. -/
def AllMatched (S : P4ests) (classes : List Eclass) (joins : List Stash.JoinFace) (V : Int → Nat → Point) : Prop :=
  ∀ (t t' : Int) (F F' o : Nat) (c c' b : Eclass), Joined joins t F t' F' o → classes[t.toNat]? = some c → classes[t'.toNat]? = some c' →
    faceType c F = some b → Matched S b c F c' F' o (V t) (V t')

variable {dim : Nat} {classes : List Eclass} {joins : List Stash.JoinFace}

theorem corners_meet (S : P4ests) (D : S.Documented) (hC : Conforming dim classes joins) (V : Int → Nat → Point)
    (hV : AllMatched S classes joins V) (t : Int) (e : Element) (ht : 0 ≤ t) (hc : classes[t.toNat]? = some e.eclass)
    (he : e.Valid S) (f : Nat) (hf : f < e.numFaces) (nc : Eclass) (hl : e.level ≤ maxLevel nc)
    (hnc : neighborEclass S (Cmesh.commit dim classes joins) t e f = some (some nc)) (t' : Int) (n : Element) (g : Nat)
    (hn : faceNeighbor S (Cmesh.commit dim classes joins) t e nc f = some (some (t', n, g))) (i : Nat) (hi : i ∈ faceCorners S e f) :
    ∃ j ∈ faceCorners S n g, elementCoordinate S (V t) e i = elementCoordinate S (V t') n j := by
  rcases C52_face_neighbor_mutual S D hC t e ht hc he f hf with ⟨h, _⟩ | ⟨nc', h1, h2⟩
  · rw [hnc] at h; cases h
  rw [hnc] at h1
  cases h1
  obtain ⟨t1, n1, g1, k1, k2, k3, k4, k5, k6, k7, _⟩ := h2 hl
  rw [hn] at k1
  cases k1
  have hla := corner_lattice he i
  have hin := (corner_iff D he hf hla).2 ⟨i, hi, rfl⟩
  have hco : elementCoordinate S (V t) e i = linearGeometry e.eclass (V t) (toRef S e.eclass (cornerPoint S e i)) := by
    rw [elementCoordinate, vertexRefCoords_eq he (faceCorners_lt D he hf hi)]
  have hco' : ∀ j ∈ faceCorners S n g, elementCoordinate S (V t') n j = linearGeometry n.eclass (V t') (toRef S n.eclass (cornerPoint S n j)) :=
    fun j hj => by rw [elementCoordinate, vertexRefCoords_eq k5 (faceCorners_lt D k5 k7 hj)]
  rcases C53_face_neighbor_glued S D hC t e ht hc he f hf nc hl hnc t' n g hn with ⟨rfl, h1, _, h3⟩ | ⟨F, F', o, b, hj, hb, hb', hr, hr', h⟩
  · have hla' : Lattice S n.eclass n.level (cornerPoint S e i) := by rw [h1, k6]; exact hla
    obtain ⟨j, hj, hj2⟩ := (corner_iff D k5 k7 hla').1 ((h3 _).2 hin)
    exact ⟨j, hj, by rw [hco, hco' j hj, hj2, h1]⟩
  · obtain ⟨c, c', b', a1, a2, a3, a4, a5, a6, a7, a8, a9, a10, a11, a12⟩ := hC.joined hj
    cases hc.symm.trans a2
    cases k3.symm.trans a4
    simp only [Int.toNat_natCast] at a9 a10
    cases hb.symm.trans a9
    have hp := inRootFace hr hin
    obtain ⟨p', m1, m2, m3⟩ := partner (S := S) (by exact_mod_cast a6) (by exact_mod_cast a8) hb hb' (by exact_mod_cast a12)
      (level_le he) hl hp hla
    have hin' := (h _ p' hp m1 m3).1 hin
    obtain ⟨j, hj1, hj2⟩ := (corner_iff D k5 k7 (by rw [k4, k6]; exact m2)).1 hin'
    refine ⟨j, hj1, ?_⟩
    rw [hco, hco' j hj1, hj2, k4]
    exact C59_continuous S b e.eclass F nc F' o (by exact_mod_cast a6) (by exact_mod_cast a8) hb hb' (by exact_mod_cast a12) (V t) (V t')
      (hV t t' F F' o e.eclass nc b hj hc k3 hb) _ p' hp m1 m3

/-- C59. The corners of the common face of two face neighbors have the same coordinates: each corner of the face of one element is
a corner of the face of the other. The two elements can be in different trees, of different classes, with any orientation of the
face connection. -/
theorem C59_face_corners_meet (S : P4ests) (D : S.Documented) (hC : Conforming dim classes joins) (V : Int → Nat → Point)
    (hV : AllMatched S classes joins V) (t : Int) (e : Element) (ht : 0 ≤ t) (hc : classes[t.toNat]? = some e.eclass)
    (he : e.Valid S) (f : Nat) (hf : f < e.numFaces) (nc : Eclass) (hl : e.level ≤ maxLevel nc)
    (hnc : neighborEclass S (Cmesh.commit dim classes joins) t e f = some (some nc)) (t' : Int) (n : Element) (g : Nat)
    (hn : faceNeighbor S (Cmesh.commit dim classes joins) t e nc f = some (some (t', n, g))) :
    (∀ i ∈ faceCorners S e f, ∃ j ∈ faceCorners S n g, elementCoordinate S (V t) e i = elementCoordinate S (V t') n j) ∧
    ∀ j ∈ faceCorners S n g, ∃ i ∈ faceCorners S e f, elementCoordinate S (V t) e i = elementCoordinate S (V t') n j := by
  refine ⟨corners_meet S D hC V hV t e ht hc he f hf nc hl hnc t' n g hn, fun j hj => ?_⟩
  rcases C52_face_neighbor_mutual S D hC t e ht hc he f hf with ⟨h, _⟩ | ⟨nc', h1, h2⟩
  · rw [hnc] at h; cases h
  rw [hnc] at h1
  cases h1
  obtain ⟨t1, n1, g1, k1, k2, k3, rfl, k5, k6, k7, _, k9, k10⟩ := h2 hl
  rw [hn] at k1
  cases k1
  obtain ⟨i, hi, h⟩ := corners_meet S D hC V hV t' n k2 k3 k5 g k7 e.eclass (by rw [k6]; exact level_le he) k9 t e f k10 j hj
  exact ⟨i, hi, h.symm⟩

/-- The corners of a face: `element_get_face_corner` lists exactly the corners of the element that lie in the face. -/
theorem C59_face_corners (S : P4ests) (D : S.Documented) (e : Element) (he : e.Valid S) (f : Nat) (hf : f < e.numFaces) (i : Nat) :
    (i ∈ faceCorners S e f → i < (shape e).numVertices ∧ e.InFace S f (cornerPoint S e i)) ∧
    (e.InFace S f (cornerPoint S e i) → ∃ j ∈ faceCorners S e f, cornerPoint S e j = cornerPoint S e i) :=
  ⟨fun h => ⟨faceCorners_lt D he hf h, (corner_iff D he hf (corner_lattice he i)).2 ⟨i, h, rfl⟩⟩,
    (corner_iff D he hf (corner_lattice he i)).1⟩

/-- The hypothesis on the vertices holds for two unit squares side by side, with the second one rotated by half a turn. -/
example (S : P4ests) : AllMatched S [.quad, .quad] [⟨0, 1, 1, 1, 1⟩] fun t v =>
    if t = 0 then ![(unit .quad v 0 : ℚ), unit .quad v 1, 0] else ![2 - (unit .quad v 0 : ℚ), 1 - unit .quad v 1, 0] := by
  intro t t' F F' o c c' b ⟨j, hj, ho, h⟩ hc hc' hb
  simp only [List.mem_singleton] at hj
  subst hj
  have e1 : o = 1 := by simp only at ho; omega
  have key : F = 1 ∧ F' = 1 ∧ ((t = 0 ∧ t' = 1) ∨ (t = 1 ∧ t' = 0)) := by simp only at h; omega
  obtain ⟨rfl, rfl, ht⟩ := key
  subst e1
  have hcc : c = .quad ∧ c' = .quad := by rcases ht with ⟨rfl, rfl⟩ | ⟨rfl, rfl⟩ <;> simp at hc hc' <;> exact ⟨hc.symm, hc'.symm⟩
  obtain ⟨rfl, rfl⟩ := hcc
  cases hb
  intro i j hi hj hg
  have hg := congrArg Prod.fst (hg.1 (Or.inr ⟨rfl, le_refl _⟩))
  simp only [Eclass.numVertices] at hi hj
  rcases ht with ⟨rfl, rfl⟩ | ⟨rfl, rfl⟩ <;> interval_cases i <;> interval_cases j <;>
    simp [faceCoord, rootFaceCorner, rootLength, faceVertices, unit, unitCorner, symmetry] at hg <;>
    funext k <;> fin_cases k <;> simp [faceVertices, unit, unitCorner] <;> norm_num

/-! ### Centroids -/

/-- C59. `t8_element_centroid_ref_coords` is the centroid: in the tree it is the mean of the corners of the element. -/
theorem C59_reference_centroid (S : P4ests) (e : Element) (he : e.Valid S) (k : Fin 3) :
    refCoords S e (centroidRefCoords (shape e)) k * ((shape e).numVertices : ℚ) =
      ((List.range (shape e).numVertices).map fun v => vertexRefCoords S e v k).sum := by
  rw [ref_centroid]
  congr 1
  exact List.map_congr_left fun v hv => by rw [(C59_reference_corners S e he v (List.mem_range.1 hv)).2]

/-- C59. `t8_forest_element_centroid` and `t8_forest_element_linear_centroid` agree, for all vertices of the tree, except for trees
that are pyramids; these need a parallelogram as base. -/
theorem C59_centroid (S : P4ests) (V : Nat → Point) (e : Element) (he : e.Valid S)
    (hV : e.eclass = .pyramid → ∀ k, V 3 k = V 1 k + V 2 k - V 0 k) : centroid S V e = linearCentroid S V e := by
  funext k
  have hn : ((shape e).numVertices : ℚ) ≠ 0 := by cases shape e <;> norm_num [Eclass.numVertices]
  have key : centroid S V e k * ((shape e).numVertices : ℚ) =
      ((List.range (shape e).numVertices).map fun v => elementCoordinate S V e v k).sum := by
    by_cases hp : e.eclass = .pyramid
    · cases e with
      | pyramid p => exact pyramid_centroid S V (hV rfl) he k
      | _ => cases hp
    · rw [centroid, elementPoint, geom_centroid S V hp k]
      congr 1
      exact List.map_congr_left fun v hv => by
        rw [elementCoordinate, (C59_reference_corners S e he v (List.mem_range.1 hv)).2]
  rw [linearCentroid, ← key]
  field_simp

/-- The exception is needed: the two functions differ for a pyramid with another base. -/
theorem C59_centroid_pyramid (S : P4ests) : ∃ (V : Nat → Point) (e : Element), e.Valid S ∧ centroid S V e ≠ linearCentroid S V e := by
  have hv : (Element.pyramid (Pyramid.child Pyramid.root 0)).Valid S := Pyramid.Valid.child _ _ Pyramid.Valid.root (by decide) (by decide)
  refine ⟨fun v => if v = 3 then ![1, 0, 0] else 0, .pyramid (Pyramid.child Pyramid.root 0), hv, fun h => ?_⟩
  have hs : shape (.pyramid (Pyramid.child Pyramid.root 0)) = .pyramid := rfl
  have hr : ∀ r k, refCoords S (.pyramid (Pyramid.child Pyramid.root 0)) r k = r k / 2 := fun r k => by
    have hl : real (Pyramid.len 1) = 1048576 := by norm_num [real, show (Pyramid.len 1).toInt = 1048576 by decide +kernel]
    have hx : ∀ k, real ((Pyramid.child Pyramid.root 0).tet.x k) = 0 := fun k => by
      rw [show (Pyramid.child Pyramid.root 0).tet.x k = 0 by revert k; decide +kernel]; rfl
    rw [refCoords, if_pos (by decide +kernel)]
    simp only [if_neg (show (Pyramid.child Pyramid.root 0).type ≠ 7 by decide +kernel), show (Pyramid.child Pyramid.root 0).level = 1 from rfl, hl, hx]
    ring
  have h0 := congrFun h 0
  rw [centroid, linearCentroid, elementPoint, hs] at h0
  have hc : ∀ v < 5, ∀ V, elementCoordinate S V (.pyramid (Pyramid.child Pyramid.root 0)) v =
      linearGeometry .pyramid V (fun k => cornerRefCoords .pyramid v k / 2) := fun v h5 V => by
    rw [elementCoordinate, ← (C59_reference_corners S _ hv v (by rw [hs]; exact h5)).2, hs]
    congr 1
    funext k; rw [hr]
  simp only [Eclass.numVertices] at h0
  rw [sum_range] at h0
  simp only [hc 0 (by decide), hc 1 (by decide), hc 2 (by decide), hc 3 (by decide), hc 4 (by decide), Element.eclass] at h0
  rw [show refCoords S (.pyramid (Pyramid.child Pyramid.root 0)) (centroidRefCoords .pyramid) = fun k => centroidRefCoords .pyramid k / 2 from
    funext fun k => hr _ k] at h0
  have e2 : ∀ a b c : ℚ, (![a, b, c] : Fin 3 → ℚ) 2 = c := fun _ _ _ => rfl
  norm_num [linearGeometry, linearInterpolation, cornerRefCoords, cornerRefTable, centroidRefCoords, e2] at h0

/-! ### Stretching -/

/-- C59, finding. With stretch factors, the points after the first one are wrong in trees of dimension one or two: the array of
the stretched coordinates is written with a stride of the dimension, and read with a stride of three. The second point of two
points in a quad is read from the y coordinate of the second point and from memory that was never written. -/
theorem C59_stretch_false (ref stretch : Nat → ℚ) :
    readPoint (stretched 2 2 ref stretch) 1 0 = some (1 / 2 + (ref 3 - 1 / 2) * stretch 1) ∧
    readPoint (stretched 2 2 ref stretch) 1 1 = none := by
  constructor <;> simp [readPoint, stretched]

/-- For one point, and in trees of dimension three, the coordinates that are read are the stretched ones. -/
theorem C59_stretch_partial (dim num : Nat) (ref stretch : Nat → ℚ) (h : num = 1 ∨ dim = 3) (i k : Nat) (hi : i < num) (hk : k < dim)
    (hd : dim ≤ 3) : readPoint (stretched dim num ref stretch) i k = some (1 / 2 + (ref (3 * i + k) - 1 / 2) * stretch k) := by
  rcases h with rfl | rfl
  · have : i = 0 := by omega
    subst this
    rw [readPoint, stretched, if_pos (by omega), show (3 * 0 + k) % dim = k by rw [Nat.mul_zero, Nat.zero_add, Nat.mod_eq_of_lt hk]]
  · rw [readPoint, stretched, if_pos (by omega), show (3 * i + k) % 3 = k by omega]

end T8.Geometry
