/-
C10, C11, C13 and C14 for the elements of the refinement of a pyramid in the default scheme. There is no transformation of
pyramids at faces (C12); their faces are triangles (`C12_tri`) and quads.
-/
import Verif.Lemmas.PyramidExtrude
import Verif.Props.Pyramid
import Verif.Spec.Prism
import Verif.Spec.Face

namespace T8.Pyramid
open T8.RTree T8.Bits
open T8.Simplex (look Cls)

/-- The number of faces is that of the shape: five for pyramids, four for tetrahedra. -/
theorem numFaces_spec (e : Elem) : numFaces e = if 6 ≤ e.type then 5 else 4 := numFaces_eq e

/-! ### Corners of faces -/

def facesCorners (b f : Nat) : List Nat :=
  if 6 ≤ b then (faceCornerTable.getD (b - 6) []).getD f [] else (Simplex.faceCorner .tet).getD f []

theorem faceCorners_eq (e : Elem) (f : Nat) : faceCorners e f = facesCorners e.type f := by
  rw [faceCorners, facesCorners]; simp only [isPyra_iff]

set_option synthInstance.maxHeartbeats 200000 in
set_option synthInstance.maxSize 1000 in
theorem facesCorners_table : ∀ b < 8, ∀ f < nf b, (facesCorners b f).Pairwise (· < ·) ∧
    (facesCorners b f).length = (if 6 ≤ b ∧ f = 4 then 4 else 3) ∧ (∀ k ∈ facesCorners b f, k < nf b) ∧
    ∀ k < nf b, k ∈ facesCorners b f ↔ (plane b f).form (uc b k) = (plane b f).o := by decide +kernel

/-- C10, C11. `element_get_face_corner` lists the corners of the element that lie in the face, in ascending order, and the
face is a quadrilateral exactly if there are four of them. -/
theorem C10_pyramid_corners (e : Elem) (he : Valid e) (f : Nat) (hf : f < numFaces e) :
    (faceCorners e f).Pairwise (· < ·) ∧ (∀ k, k ∈ faceCorners e f ↔ k < (if 6 ≤ e.type then 5 else 4) ∧ corner e k ∈ Face e f) ∧
    (faceCorners e f).length = if faceIsQuad e f then 4 else 3 := by
  rw [numFaces_eq] at hf
  obtain ⟨t1, t2, t3, t4⟩ := facesCorners_table _ (type_lt he.good) f hf
  rw [faceCorners_eq]
  refine ⟨t1, fun k => ⟨fun hk => ?_, fun hk => ?_⟩, ?_⟩
  · exact ⟨t3 k hk, (corner_face e (type_lt he.good) (t3 k hk) hf).2 ((t4 k (t3 k hk)).1 hk)⟩
  · exact (t4 k hk.1).2 ((corner_face e (type_lt he.good) hk.1 hf).1 hk.2)
  · rw [t2]
    congr 1
    simp only [faceIsQuad, Bool.and_eq_true, beq_iff_eq, isPyra_iff]

/-! ### C10 -/

/-- C10. The neighbor function does not fail. If the neighbor across face `f` is inside of the tree, it is another element of
the same level with the same face, and the neighbor relation is mutual. -/
theorem C10_pyramid_mutual (e : Elem) (he : Valid e) (f : Nat) (hf : f < numFaces e) :
    ∃ r, faceNeighborInside e f = some r ∧ ∀ n g, r = some (n, g) →
      Valid n ∧ n.level = e.level ∧ n ≠ e ∧ g < numFaces n ∧ Face n g = Face e f ∧
      faceNeighborInside n g = some (some (e, f)) := by
  rw [numFaces_eq] at hf
  by_cases ha : AtRoot e f
  · refine ⟨none, (neighbour_spec he hf).1 (fun h => (adj_inside he hf).1 h ha), fun n g h => by simp at h⟩
  · obtain ⟨m, g, m1, m2, m3, m4, m5, m6, m7, _⟩ := neighbour_full he hf ha
    refine ⟨some (m, g), m1, fun n g' h => ?_⟩
    simp only [Option.some.injEq, Prod.mk.injEq] at h
    obtain ⟨rfl, rfl⟩ := h
    exact ⟨m2, m3, m4, by rw [numFaces_eq]; exact m5, m6, m7⟩

/-- C10. There is a neighbor inside of the tree exactly if the face is not part of a face of the root, which is what
`element_is_root_boundary` tests, and `element_get_tree_face` is the number of this face of the root. -/
theorem C10_pyramid_inside (e : Elem) (he : Valid e) (f : Nat) (hf : f < numFaces e) :
    (faceNeighborInside e f = some none ↔ ∃ g, g < 5 ∧ Face e f ⊆ Face root g) ∧
    (isRootBoundary e f = true ↔ ∃ g, g < 5 ∧ Face e f ⊆ Face root g) ∧
    ∀ g, g < 5 → (Face e f ⊆ Face root g ↔ treeFace e f = some g) := by
  rw [numFaces_eq] at hf
  have hg : rootFaceOf e.type f < 5 := by
    have hb := type_lt he.good
    have : ∀ b < 8, ∀ f < nf b, rootFaceOf b f < 5 := by decide +kernel
    exact this _ hb f hf
  have h1 : (∃ g, g < 5 ∧ Face e f ⊆ Face root g) ↔ AtRoot e f := by
    constructor
    · rintro ⟨g, g1, g2⟩; exact ((root_face_iff he hf g1).1 g2).1
    · intro h; exact ⟨_, hg, (root_face_iff he hf hg).2 ⟨h, rfl⟩⟩
  rw [h1]
  refine ⟨⟨fun h => ?_, fun h => ?_⟩, rootBoundary_iff he hf, fun g g1 => ?_⟩
  · by_contra ha
    obtain ⟨m, g, m1, _⟩ := neighbour_full he hf ha
    rw [h] at m1
    simp at m1
  · exact (neighbour_spec he hf).1 (fun h' => (adj_inside he hf).1 h' h)
  · rw [root_face_iff he hf g1]
    constructor
    · rintro ⟨h, rfl⟩; exact treeFace_eq he hf h
    · intro h
      have ha : AtRoot e f := by
        rw [← rootBoundary_iff he hf]
        by_contra hc
        rw [treeFace, if_neg hc] at h
        simp at h
      rw [treeFace_eq he hf ha] at h
      exact ⟨ha, (Option.some.inj h).symm⟩

/-- C10. The neighbor is the only other element of the level that contains the face. -/
theorem C10_pyramid_unique (e y : Elem) (he : Valid e) (hy : Valid y) (f : Nat) (hf : f < numFaces e) (hl : y.level = e.level)
    (hne : y ≠ e) (hsub : Face e f ⊆ Points y) : ∃ g, faceNeighborInside e f = some (some (y, g)) :=
  neighbour_unique he hy (by rw [numFaces_eq] at hf; exact hf) hl hne hsub

theorem sampleTet_parent_valid : Valid (parent sampleTet) := by
  obtain ⟨p, i, p1, p2, p3, h⟩ := valid_cases sampleTet_valid (by decide +kernel)
  rw [h, parent_child p1.good p2 p3]; exact p1

/-- All kinds of neighbors occur: pyramids and tetrahedra with neighbors of both shapes, and faces without. -/
example : Valid sample ∧ Valid sampleTet ∧ Valid (parent sampleTet) ∧
    (List.range 5).map (fun f => (faceNeighborInside sample f).map fun r => r.map fun n => (isPyra n.1, n.2)) =
      [some (some (false, 2)), some (some (false, 3)), some (some (false, 2)), some (some (false, 3)), some none] ∧
    (faceNeighborInside (child sample 8) 4).map (fun r => r.map fun n => (isPyra n.1, n.2)) = some (some (true, 4)) ∧
    (faceNeighborInside sampleTet 0).map (fun r => r.map fun n => (isPyra n.1, n.2)) = some (some (false, 3)) ∧
    (faceNeighborInside (parent sampleTet) 3).map (fun r => r.map fun n => (isPyra n.1, n.2)) = some (some (true, 3)) :=
  ⟨sample_valid, sampleTet_valid, sampleTet_parent_valid, by decide +kernel⟩

/-! ### C11 -/

/-- C11 for the triangular faces of the root. The triangle at a face in the boundary consists of the points of the face;
extruding it gives back the element and the face number. -/
theorem C11_pyramid_tri_extrude_boundary (e : Elem) (he : Valid e) (f g : Nat) (hf : f < numFaces e) (hg : g < 4)
    (hb : Face e f ⊆ Face root g) : ∃ t, boundaryFace e f = .tri t ∧ Simplex.Valid .tri t ∧ t.level = e.level ∧
    extrudeFace (.tri t) g = some (e, f) ∧ ∀ p ∈ Face root g, (p ∈ Face e f ↔ faceMapTri g p ∈ Simplex.Points .tri t) := by
  rw [numFaces_eq] at hf
  obtain ⟨_, a2, a3⟩ := at_root_cases he hf hg hb
  refine ⟨btri e g, ?_, (tri_of_root he hf hg hb).1, rfl, ?_, fun p hp => btri_points he hf hg hb p hp⟩
  · rw [boundaryFace_tri a3, a2]
  · rw [extrudeFace]
    simp only [if_pos hg]
    exact extrude_btri he hf hg hb

/-- C11 for the triangular faces of the root. Extruding a triangle gives an element at the face of the root, whose face is the
triangle. Triangles of a level greater than 21 have no element. -/
theorem C11_pyramid_tri_boundary_extrude (t : Simplex.Elem 2) (ht : Simplex.Valid .tri t) (hl : t.level ≤ maxLevel) (g : Nat)
    (hg : g < 4) : ∃ e f, extrudeFace (.tri t) g = some (e, f) ∧ f < numFaces e ∧ Valid e ∧ e.level = t.level ∧
      Face e f ⊆ Face root g ∧ boundaryFace e f = .tri t := by
  obtain ⟨e, f, e1, e2, e3, e4, e5⟩ := exists_btri ht hl hg
  obtain ⟨_, a2, a3⟩ := at_root_cases e1 e2 hg e4
  refine ⟨e, f, ?_, by rw [numFaces_eq]; exact e2, e1, e3, e4, ?_⟩
  · rw [extrudeFace]
    simp only [if_pos hg]
    rw [← e5]; exact extrude_btri e1 e2 hg e4
  · rw [boundaryFace_tri a3, ← a2, e5]

/-- C11 for the square face of the root. -/
theorem C11_pyramid_quad_extrude_boundary (e : Elem) (he : Valid e) (f : Nat) (hf : f < numFaces e)
    (hb : Face e f ⊆ Face root 4) : ∃ q, boundaryFace e f = .quad q ∧ q.Valid ∧ q.level = e.level ∧
    extrudeFace (.quad q) 4 = some (e, f) ∧ ∀ p ∈ Face root 4, (p ∈ Face e f ↔ faceMapQuad p ∈ q.Points) := by
  rw [numFaces_eq] at hf
  obtain ⟨rfl, h6, hz⟩ := at_quad he hf hb
  have hl : e.level ≤ 21 := he.good.cube.1
  have hx : ∀ k, (e.tet.x k).toNat < 2 ^ 21 := fun k => (he.good.cube.2 k).1
  have hdv : ∀ k, 2 ^ (21 - e.level) ∣ (e.tet.x k).toNat := fun k => (he.good.cube.2 k).2
  have hq : ∀ k, (Simplex.rescale Prism.quadRootLevel maxLevel (e.tet.x k)).toNat = 2 ^ 9 * (e.tet.x k).toNat :=
    fun k => rescale_quad (hx k)
  have hsz : 2 ^ (30 - e.level) = 2 ^ 9 * 2 ^ (21 - e.level) := by
    rw [← Nat.pow_add]; congr 1; omega
  have hback : ∀ k, Simplex.rescale maxLevel Prism.quadRootLevel (Simplex.rescale Prism.quadRootLevel maxLevel (e.tet.x k)) =
      e.tet.x k := fun k => by
    apply BitVec.eq_of_toNat_eq
    have := hx k
    rw [rescale_down (by rw [hq]; omega), hq]
    omega
  refine ⟨⟨Simplex.rescale Prism.quadRootLevel maxLevel (e.tet.x 0), Simplex.rescale Prism.quadRootLevel maxLevel (e.tet.x 1),
    e.level⟩, by rw [boundaryFace]; simp only [if_true], ⟨?_, ⟨?_, ?_⟩, ?_, ?_⟩, rfl, ?_, fun p hp => ?_⟩
  · show e.level ≤ 30; omega
  · show (Simplex.rescale _ _ (e.tet.x 0)).toNat < 2 ^ 30
    rw [hq]; have := hx 0; omega
  · show 2 ^ (30 - e.level) ∣ (Simplex.rescale _ _ (e.tet.x 0)).toNat
    rw [hq, hsz]; exact Nat.mul_dvd_mul_left _ (hdv 0)
  · show (Simplex.rescale _ _ (e.tet.x 1)).toNat < 2 ^ 30
    rw [hq]; have := hx 1; omega
  · show 2 ^ (30 - e.level) ∣ (Simplex.rescale _ _ (e.tet.x 1)).toNat
    rw [hq, hsz]; exact Nat.mul_dvd_mul_left _ (hdv 1)
  · rw [extrudeFace]
    simp only [if_true]
    rw [hback 0, hback 1]
    have hs := (he.good.pyra (by omega)).2
    have hz' : e.tet.x 2 = 0 := BitVec.eq_of_toNat_eq hz
    have hfun : (fun i : Fin 3 => if i.val = 0 then e.tet.x 0 else if i.val = 1 then e.tet.x 1 else (0 : BitVec 32)) = e.tet.x := by
      funext i
      fin_cases i
      · rfl
      · rfl
      · exact hz'.symm
    rw [hfun]
    obtain ⟨⟨x, l, b⟩, s⟩ := e
    have e1 : b = 6 := h6
    have e2 : s = -1 := hs
    subst e1 e2
    rfl
  · have hp2 := (face_iff root (by decide) (show 4 < nf root.type by decide) p).1 hp
    have hp3 : (plane 6 4).form (rel root.tet.x p) = (plane 6 4).o * 2 ^ 21 := hp2.2
    have hrel : rel root.tet.x p = fun i => (p i : Int) := by
      funext i; show (p i : Int) - (((0 : BitVec 32)).toNat : Int) = _; simp
    rw [hrel] at hp3
    show _ ↔ ((Simplex.rescale _ _ (e.tet.x 0)).toNat ≤ 2 ^ 9 * p 0 ∧ 2 ^ 9 * p 0 ≤ (Simplex.rescale _ _ (e.tet.x 0)).toNat + 2 ^ (30 - e.level)) ∧
      ((Simplex.rescale _ _ (e.tet.x 1)).toNat ≤ 2 ^ 9 * p 1 ∧ 2 ^ 9 * p 1 ≤ (Simplex.rescale _ _ (e.tet.x 1)).toNat + 2 ^ (30 - e.level))
    rw [face_iff e (type_lt he.good) hf, points_iff e (type_lt he.good), hq, hq, hsz, h6]
    have hc : ((2 : Int) ^ (21 - e.level)) = ((2 ^ (21 - e.level) : Nat) : Int) := by push_cast; rfl
    rw [hc]
    have hpos := Nat.two_pow_pos (21 - e.level)
    clear hsz hc hrel hp2 hp hback hq
    generalize 2 ^ (21 - e.level) = H at *
    simp only [Fin.forall_fin_succ, Plane.form, rel] at *
    simp [plane, planes, nf, Nat.forall_lt_succ_right] at hp3 ⊢
    omega

/-- C11 for the square face of the root. Quads of a level greater than 21 have no pyramid. -/
theorem C11_pyramid_quad_boundary_extrude (q : Prism.Quad) (hq : q.Valid) (hl : q.level ≤ maxLevel) :
    ∃ e, extrudeFace (.quad q) 4 = some (e, 4) ∧ Valid e ∧ e.level = q.level ∧ 6 ≤ e.type ∧
      Face e 4 ⊆ Face root 4 ∧ boundaryFace e 4 = .quad q := by
  obtain ⟨x, y, l⟩ := q
  obtain ⟨_, ⟨x1, x2⟩, y1, y2⟩ := hq
  replace hl : l ≤ 21 := hl
  replace x1 : x.toNat < 2 ^ 30 := x1
  replace x2 : 2 ^ (30 - l) ∣ x.toNat := x2
  replace y1 : y.toNat < 2 ^ 30 := y1
  replace y2 : 2 ^ (30 - l) ∣ y.toNat := y2
  have hsz : 2 ^ (30 - l) = 2 ^ 9 * 2 ^ (21 - l) := by
    rw [← Nat.pow_add]; congr 1; omega
  rw [hsz] at x2 y2
  have key : ∀ {z : BitVec 32}, z.toNat < 2 ^ 30 → 2 ^ 9 * 2 ^ (21 - l) ∣ z.toNat →
      (Simplex.rescale maxLevel Prism.quadRootLevel z).toNat < 2 ^ 21 ∧
      2 ^ (21 - l) ∣ (Simplex.rescale maxLevel Prism.quadRootLevel z).toNat ∧
      Simplex.rescale Prism.quadRootLevel maxLevel (Simplex.rescale maxLevel Prism.quadRootLevel z) = z := by
    intro z h1 h2
    have h3 := rescale_down h1
    obtain ⟨k, hk⟩ := h2
    have h4 : z.toNat / 2 ^ 9 = 2 ^ (21 - l) * k := by
      rw [hk, Nat.mul_assoc, Nat.mul_div_cancel_left _ (by omega)]
    refine ⟨by omega, by rw [h3, h4]; exact Nat.dvd_mul_right _ _, ?_⟩
    apply BitVec.eq_of_toNat_eq
    rw [rescale_quad (by omega), h3, h4, hk, Nat.mul_assoc]
  obtain ⟨k1, k2, k3⟩ := key x1 x2
  obtain ⟨l1, l2, l3⟩ := key y1 y2
  have hv : Valid ⟨⟨fun i => if i.val = 0 then Simplex.rescale maxLevel Prism.quadRootLevel x
        else if i.val = 1 then Simplex.rescale maxLevel Prism.quadRootLevel y else 0, l, 6⟩, -1⟩ := by
    refine exists_quad hl (fun i => ?_) rfl
    fin_cases i
    · exact ⟨k1, k2⟩
    · exact ⟨l1, l2⟩
    · exact ⟨Nat.two_pow_pos 21, Nat.dvd_zero _⟩
  refine ⟨_, by rw [extrudeFace]; simp only [if_true], hv, rfl, Nat.le_refl 6, ?_, ?_⟩
  · refine (root_face_iff hv (by show 4 < nf 6; decide) (by omega)).2 ⟨?_, rfl⟩
    rw [AtRoot, tb]
    simp [faceSlot, Elem.type]
  · rw [boundaryFace]
    simp only [if_true, Fin.val_zero, Fin.val_one, one_ne_zero, if_false]
    rw [k3, l3]

/-- The face maps send the corners of the faces of the root to the corners of the roots of triangles and quads, in their
order. -/
example : (∀ g < 4, ∀ k < 3, faceMapTri g (corner root ((faceCorners root g).getD k 0)) =
      Simplex.corner .tri (Simplex.root .tri) k) ∧
    (∀ k < 4, faceMapQuad (corner root ((faceCorners root 4).getD k 0)) = (k % 2 * 2 ^ 30, k / 2 * 2 ^ 30)) := by
  decide +kernel

/-- Triangles of type 0 from pyramids and from tetrahedra. -/
example : (extrudeFace (.tri (Simplex.child .tri (Simplex.root .tri) 1)) 0).map (fun r => (r.1.type, r.2)) = some (6, 0) ∧
    (extrudeFace (.tri (Simplex.child .tri (Simplex.child .tri (Simplex.root .tri) 2) 1)) 0).map
      (fun r => (r.1.type, r.2)) = some (2, 2) ∧
    (Simplex.child .tri (Simplex.child .tri (Simplex.root .tri) 2) 1).type = 0 := by decide +kernel

/-! ### C13 -/

/-- C13. The child indices at a face, in ascending order without duplicates, are exactly those of the children that have a
face inside of the face of the element; `element_face_get_child_face` gives the number of this face. -/
theorem C13_pyramid_children (e : Elem) (he : Valid e) (hl : e.level < maxLevel) (f : Nat) (hf : f < numFaces e) :
    (childIdsAtFace e f).Pairwise (· < ·) ∧ (childIdsAtFace e f).length = 4 ∧
    (∀ i, i ∈ childIdsAtFace e f ↔ i < numChildren e ∧ ∃ g, g < numFaces (child e i) ∧ Face (child e i) g ⊆ Face e f) ∧
    childrenAtFace e f = (childIdsAtFace e f).map (child e) ∧
    (∀ k i, (childIdsAtFace e f)[k]? = some i → ∀ g, g < numFaces (child e i) →
      (Face (child e i) g ⊆ Face e f ↔ g = faceChildFace e f k)) := by
  rw [numFaces_eq] at hf
  obtain ⟨t1, t2, _, _⟩ := ids_table _ (type_lt he.good) f hf
  refine ⟨by rw [idsOf_eq]; exact t1, by rw [idsOf_eq]; exact t2, fun i => ?_, childrenAtFace_eq he hl f,
    fun k i hk g hg => ?_⟩
  · rw [ids_mem he hl hf]
    refine and_congr_right fun _ => exists_congr fun g => ?_
    rw [numFaces_eq]
    constructor
    · rintro ⟨h1, _, h3⟩; exact ⟨h1, h3⟩
    · rintro ⟨h1, h3⟩; exact ⟨h1, hf, h3⟩
  · rw [numFaces_eq] at hg
    rw [← childFace_iff he hl hf hk]
    constructor
    · intro h; exact ⟨hg, hf, h⟩
    · rintro ⟨_, _, h⟩; exact h

/-- C13. `element_face_get_parent_face` returns the number of the face of the parent that contains the face, no number
if there is none, and for the root the face itself. -/
theorem C13_pyramid_parent_face (e : Elem) (he : Valid e) (f : Nat) (hf : f < numFaces e) (g : Nat) :
    (0 < e.level → (faceParentFace e f = some g ↔ g < numFaces (parent e) ∧ Face e f ⊆ Face (parent e) g)) ∧
    (e.level = 0 → faceParentFace e f = some f) := by
  rw [numFaces_eq] at hf
  refine ⟨fun hl => ?_, fun hl => ?_⟩
  · rw [numFaces_eq]; exact parentFace_iff he hl hf g
  · rw [faceParentFace, if_pos hl]

example : sample.level < maxLevel ∧ 0 < sample.level ∧ childIdsAtFace sample 1 = [2, 5, 7, 9] ∧
    (List.range 5).map (faceParentFace sample) = [some 0, none, none, some 3, some 4] := by decide +kernel

/-! ### C14 -/

/-- C14 for pyramids and tetrahedra, at levels deeper than the element, and for pyramids also at the level of the element.
First and last descendant at a face: descendants of the level with a face in the face, and all others of this kind lie behind
and before. Missing: tetrahedra at their own level, where it does not hold (`C14_pyramid_wrong`). -/
theorem C14_pyramid_partial (e : Elem) (he : Valid e) (f : Nat) (hf : f < numFaces e) (L : Nat) (hL : e.level ≤ L)
    (hLM : L ≤ maxLevel) (hx : L = e.level → 6 ≤ e.type ∨ (f ≠ 0 ∧ f ≠ 3)) :
    ∃ a b, firstDescendantFace e f L = some a ∧ lastDescendantFace e f L = some b ∧
    (tree.Desc e a ∧ a.level = L ∧ ∃ g, g < numFaces a ∧ Face a g ⊆ Face e f) ∧
    (tree.Desc e b ∧ b.level = L ∧ ∃ g, g < numFaces b ∧ Face b g ⊆ Face e f) ∧
    ∀ x g, tree.Desc e x → x.level = L → g < numFaces x → Face x g ⊆ Face e f →
      (x = a ∨ tree.Before a x) ∧ (x = b ∨ tree.Before x b) := by
  rw [numFaces_eq] at hf
  obtain ⟨a2, a3, ⟨g, a4⟩, a5⟩ := first_spec he hf hL hLM
  obtain ⟨b2, b3, ⟨g', b4⟩, b5⟩ := last_spec he hf hL hLM
  have hab : firstDescendantFace e f L = some (rep (firstId e.type f) (L - e.level) e) ∧
      lastDescendantFace e f L = some (rep (lastId e.type f) (L - e.level) e) := by
    by_cases h6 : 6 ≤ e.type
    · rw [nf, if_pos h6] at hf
      exact ⟨first_pyra he h6 hf hL hLM, last_pyra he h6 hf hL hLM⟩
    · rw [nf, if_neg h6] at hf
      exact ⟨first_tet he h6 hf hL hLM (fun h => ((hx h).resolve_left h6).1),
        last_tet he h6 hf hL hLM (fun h => ((hx h).resolve_left h6).2)⟩
  exact ⟨_, _, hab.1, hab.2, ⟨a2, a3, g, by rw [numFaces_eq]; exact a4.1, a4.2.2⟩,
    ⟨b2, b3, g', by rw [numFaces_eq]; exact b4.1, b4.2.2⟩, fun x g hd hxL hg h => by
      rw [numFaces_eq] at hg
      exact ⟨a5 x g hd hxL ⟨hg, hf, h⟩, b5 x g hd hxL ⟨hg, hf, h⟩⟩⟩

/-- C14, finding. For every tetrahedron in the refinement of a pyramid and its own level, the function for the first descendant
at face 0 and that for the last descendant at face 3 do not write to their output. -/
theorem C14_pyramid_wrong (e : Elem) (h : ¬ 6 ≤ e.type) :
    firstDescendantFace e 0 e.level = none ∧ lastDescendantFace e 3 e.level = none := by
  have hp : isPyra e = false := by rw [Bool.eq_false_iff, ne_eq, isPyra_iff]; exact h
  have h1 : Simplex.firstFaceCorner .tet 0 = 1 := by decide +kernel
  have h2 : Simplex.lastFaceCorner .tet 3 = 2 := by decide +kernel
  simp [firstDescendantFace, lastDescendantFace, hp, h1, h2, cornerDescendant, Nat.sub_self, cornerLoop]

example : Valid sampleTet ∧ ¬ 6 ≤ sampleTet.type ∧ firstDescendantFace sampleTet 0 4 ≠ lastDescendantFace sampleTet 0 4 ∧
    firstDescendantFace sample 4 3 = some sample ∧
    firstDescendantFace sample 1 5 ≠ lastDescendantFace sample 1 5 := ⟨sampleTet_valid, by decide +kernel⟩

/-! ### The face functions as the forest algorithms use them -/

/-- The face functions of the default scheme for pyramids. An output that is not written (`C14_pyramid_wrong`) is taken to be
the element itself; the law about descendants at faces holds for the functions of the code only with this repair. -/
def faceSchemeRepaired : FaceScheme tree where
  numFaces := numFaces
  numFaceChildren _ _ := 4
  childrenAtFace := childrenAtFace
  childIdsAtFace := childIdsAtFace
  childFace := faceChildFace
  firstDescendantFace e f L := (firstDescendantFace e f L).getD e
  lastDescendantFace e f L := (lastDescendantFace e f L).getD e

theorem first_repaired {e : Elem} (he : Valid e) {f : Nat} (hf : f < nf e.type) {L : Nat} (hl : e.level ≤ L) (hL : L ≤ 21) :
    (firstDescendantFace e f L).getD e = rep (firstId e.type f) (L - e.level) e := by
  by_cases h6 : 6 ≤ e.type
  · rw [nf, if_pos h6] at hf
    rw [first_pyra he h6 hf hl hL]; rfl
  · rw [nf, if_neg h6] at hf
    by_cases h : L = e.level ∧ f = 0
    · obtain ⟨rfl, rfl⟩ := h
      rw [(C14_pyramid_wrong e h6).1, Nat.sub_self]; rfl
    · rw [first_tet he h6 hf hl hL (fun h' h'' => h ⟨h', h''⟩)]; rfl

theorem last_repaired {e : Elem} (he : Valid e) {f : Nat} (hf : f < nf e.type) {L : Nat} (hl : e.level ≤ L) (hL : L ≤ 21) :
    (lastDescendantFace e f L).getD e = rep (lastId e.type f) (L - e.level) e := by
  by_cases h6 : 6 ≤ e.type
  · rw [nf, if_pos h6] at hf
    rw [last_pyra he h6 hf hl hL]; rfl
  · rw [nf, if_neg h6] at hf
    by_cases h : L = e.level ∧ f = 3
    · obtain ⟨rfl, rfl⟩ := h
      rw [(C14_pyramid_wrong e h6).2, Nat.sub_self]; rfl
    · rw [last_tet he h6 hf hl hL (fun h' h'' => h ⟨h', h''⟩)]; rfl

theorem faceSchemeRepaired_lawful : faceSchemeRepaired.Lawful InFace where
  bounds x _ e _ h := by
    show _ < numFaces x ∧ _ < numFaces e
    rw [numFaces_eq, numFaces_eq]; exact ⟨h.1, h.2.1⟩
  refl e _ _ hf := by
    replace hf : _ < numFaces e := hf
    rw [numFaces_eq] at hf
    exact ⟨hf, hf, fun _ h => h⟩
  trans _ _ _ _ _ _ h1 h2 := h1.trans h2
  unique _ _ _ _ _ he hd h1 h2 := inFace_unique he hd h1 h2
  between _ _ _ _ _ he hdy hdx h := between he hdy hdx h
  childIds_sorted e f he hl hf := (C13_pyramid_children e he hl f hf).1
  childIds_length e f he hl hf := (C13_pyramid_children e he hl f hf).2.1
  childIds_mem e f he hl hf i := ids_mem he hl (by rw [← numFaces_eq]; exact hf) i
  children e f he hl hf := (C13_pyramid_children e he hl f hf).2.2.2.1
  childFace e f k i he hl hf hk := (childFace_iff he hl (by rw [← numFaces_eq]; exact hf) hk _).2 rfl
  firstDescendantFace e f L he hf hL hLM := by
    replace hf : f < nf e.type := by rw [← numFaces_eq]; exact hf
    rw [show faceSchemeRepaired.firstDescendantFace e f L = _ from first_repaired he hf hL hLM]
    exact first_spec he hf hL hLM
  lastDescendantFace e f L he hf hL hLM := by
    replace hf : f < nf e.type := by rw [← numFaces_eq]; exact hf
    rw [show faceSchemeRepaired.lastDescendantFace e f L = _ from last_repaired he hf hL hLM]
    exact last_spec he hf hL hLM

end T8.Pyramid
