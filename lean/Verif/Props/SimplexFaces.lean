/-
C10–C14 for triangles and tetrahedra of the default scheme.
-/
import Verif.Lemmas.SimplexTransform
import Verif.Props.Simplex
import Verif.Spec.Face

namespace T8.Simplex
open T8.RTree T8.Bits

variable (c : Cls)

/-! ### C10 -/

/-- C10. If the neighbor across face `f` is inside of the tree, it is another element of the same level with the same
face, and the neighbor relation is mutual. -/
theorem C10_simplex_mutual (e : Elem c.dim) (he : Valid c e) (f : Nat) (hf : f < c.numFaces) (n : Elem c.dim) (g : Nat)
    (hn : faceNeighborInside c e f = some (n, g)) :
    Valid c n ∧ n.level = e.level ∧ n ≠ e ∧ g < c.numFaces ∧ Face c n g = Face c e f ∧
      faceNeighborInside c n g = some (e, f) := by
  have ht := he.aligned.2
  obtain ⟨h1, h2, h3⟩ := neighbour_rest ht hf
  obtain ⟨t1, t2, t3, _⟩ := nb_table c _ ht f hf
  unfold faceNeighborInside at hn
  by_cases hi : isInsideRoot c (faceNeighbour c e f).1 = true
  · rw [if_pos hi] at hn
    simp only [Option.some.injEq] at hn
    have hv := (inside_neighbour_iff he.aligned hf).1 hi
    have hnn := neighbour_neighbour ht hf
    have hfa := neighbour_face he.aligned hf hv.aligned
    rw [hn] at h1 h2 h3 hv hnn hfa
    refine ⟨hv, h1, ?_, ?_, hfa, ?_⟩
    · intro h
      apply t2
      rw [← h2, h]
    · rw [show g = nbFace c f from h3]; exact t3
    · unfold faceNeighborInside
      have hfst : (faceNeighbour c n g).1 = e := by rw [hnn]
      show (if isInsideRoot c (faceNeighbour c n g).1 = true then some (faceNeighbour c n g) else none) = _
      rw [hfst, if_pos]
      · exact congrArg some hnn
      have hg : g < c.numFaces := by rw [show g = nbFace c f from h3]; exact t3
      have := inside_neighbour_iff hv.aligned hg
      rw [hfst] at this
      exact this.2 he
  · rw [if_neg hi] at hn; cases hn

/-- C10. There is a neighbor inside of the tree exactly if the face is not part of a face of the root, which is what
`element_is_root_boundary` tests, and `element_get_tree_face` is the number of this face of the root. -/
theorem C10_simplex_inside (e : Elem c.dim) (he : Valid c e) (f : Nat) (hf : f < c.numFaces) :
    (faceNeighborInside c e f = none ↔ ∃ g, g < c.numFaces ∧ Face c e f ⊆ Face c (root c) g) ∧
    (isRootBoundary c e f = true ↔ ∃ g, g < c.numFaces ∧ Face c e f ⊆ Face c (root c) g) ∧
    ∀ g, g < c.numFaces → Face c e f ⊆ Face c (root c) g → treeFace c e f = g := by
  have h1 : faceNeighborInside c e f = none ↔ ∃ g, g < c.numFaces ∧ Face c e f ⊆ Face c (root c) g := by
    have hv := valid_neighbour_iff he hf
    rw [← inside_neighbour_iff he.aligned hf] at hv
    unfold faceNeighborInside
    by_cases hi : isInsideRoot c (faceNeighbour c e f).1 = true
    · rw [if_pos hi]
      simp only [reduceCtorEq, false_iff, not_exists, not_and]
      exact hv.1 hi
    · rw [if_neg hi]
      simp only [true_iff]
      by_contra hn
      push Not at hn
      exact hi (hv.2 hn)
  refine ⟨h1, ⟨fun hb => ?_, ?_⟩, fun g hg h => ((face_root_iff he hf hg).1 h).2.symm⟩
  · rw [← h1]
    by_contra hn
    obtain ⟨⟨n, g⟩, hng⟩ := Option.ne_none_iff_exists'.1 hn
    -- there is a neighbor, so the face is not at the boundary
    have hv : Valid c (faceNeighbour c e f).1 := by
      unfold faceNeighborInside at hng
      by_cases hi : isInsideRoot c (faceNeighbour c e f).1 = true
      · exact (inside_neighbour_iff he.aligned hf).1 hi
      · rw [if_neg hi] at hng; cases hng
    obtain ⟨g', hg', hgt⟩ := treeFace_of_boundary he hf hb
    exact not_boundary_of_neighbour he hf hv hg' ((face_root_iff he hf hg').2 ⟨hb, hgt⟩)
  · rintro ⟨g, hg, h⟩
    exact ((face_root_iff he hf hg).1 h).1

/-- C10. The neighbor is the only other element of the level that contains the face. -/
theorem C10_simplex_unique (e y : Elem c.dim) (he : Valid c e) (hy : Valid c y) (f : Nat) (hf : f < c.numFaces)
    (hl : y.level = e.level) (hne : y ≠ e) (hsub : Face c e f ⊆ Points c y) :
    ∃ g, faceNeighborInside c e f = some (y, g) := by
  rcases face_points_unique he.aligned hy.aligned hl hf hsub with h | h
  · exact absurd h hne
  · refine ⟨(faceNeighbour c e f).2, ?_⟩
    unfold faceNeighborInside
    rw [if_pos ((inside_neighbour_iff he.aligned hf).2 (h ▸ hy)), h]

example : Valid c (sample c) ∧ 0 < c.numFaces ∧ (faceNeighborInside c (sample c) 1).isSome ∧
    faceNeighborInside c (child c (root c) 0) c.dim = none := by
  refine ⟨sample_valid c, ?_⟩
  cases c <;> decide +kernel

/-! ### C11 -/

/-- C11 for triangles. The line at a face at the boundary of the root consists of the points of the face; extruding it
gives back the element and the face number. -/
theorem C11_tri_extrude_boundary (e : Elem 2) (he : Valid .tri e) (f g : Nat) (hf : f < Cls.tri.numFaces)
    (hg : g < Cls.tri.numFaces) (hb : Face .tri e f ⊆ Face .tri (root .tri) g) :
    Dline.Valid (boundaryFaceTri e f) ∧ (boundaryFaceTri e f).level = e.level ∧
    extrudeFaceTri (boundaryFaceTri e f) g = (e, some f) ∧
    ∀ p ∈ Face .tri (root .tri) g, (p ∈ Face .tri e f ↔ faceMapTri g p ∈ Dline.Points (boundaryFaceTri e f)) :=
  tri_extrude_boundary he hf hg hb

/-- C11 for triangles. Extruding a line gives a triangle at the face of the root, whose face is the line. Lines of
level 30 have no triangle, since the deepest level of triangles is 29. -/
theorem C11_tri_boundary_extrude (b : Dline.Line) (hb : Dline.Valid b) (hl : b.level ≤ Cls.tri.maxLevel) (g : Nat)
    (hg : g < Cls.tri.numFaces) :
    ∃ e, extrudeFaceTri b g = (e, some g) ∧ Valid .tri e ∧ e.level = b.level ∧
      Face .tri e g ⊆ Face .tri (root .tri) g ∧ boundaryFaceTri e g = b := tri_boundary_extrude hb hl hg

/-- C11 for tetrahedra. The triangle at a face at the boundary of the root consists of the points of the face; extruding
it gives back the element and the face number. -/
theorem C11_tet_extrude_boundary (e : Elem 3) (he : Valid .tet e) (f g : Nat) (hf : f < Cls.tet.numFaces)
    (hg : g < Cls.tet.numFaces) (hb : Face .tet e f ⊆ Face .tet (root .tet) g) :
    ∃ b, boundaryFaceTet e f = some b ∧ Valid .tri b ∧ b.level = e.level ∧ extrudeFaceTet b g = (e, some f) ∧
    ∀ p ∈ Face .tet (root .tet) g, (p ∈ Face .tet e f ↔ faceMapTet g p ∈ Points .tri b) := tet_extrude_boundary he hf hg hb

/-- C11 for tetrahedra. Extruding a triangle gives a tetrahedron at the face of the root, whose face is the triangle. -/
theorem C11_tet_boundary_extrude (b : Elem 2) (hb : Valid .tri b) (hl : b.level ≤ Cls.tet.maxLevel) (g : Nat)
    (hg : g < Cls.tet.numFaces) :
    ∃ e f, extrudeFaceTet b g = (e, some f) ∧ f < Cls.tet.numFaces ∧ Valid .tet e ∧ e.level = b.level ∧
      Face .tet e f ⊆ Face .tet (root .tet) g ∧ boundaryFaceTet e f = some b := tet_boundary_extrude hb hl hg

/-- The face maps send the corners of the faces of the root to the corners of the roots of the lower dimension, in
their order. -/
example : (∀ g < 3, ∀ k < 2, faceMapTri g (corner .tri (root .tri) (look (faceCorner .tri) g k)) = k * 2 ^ Dline.maxLevel) ∧
    (∀ g < 4, ∀ k < 3, faceMapTet g (corner .tet (root .tet) (look (faceCorner .tet) g k)) = corner .tri (root .tri) k) := by
  decide +kernel

example : (extrudeFaceTri (Dline.child (Dline.child Dline.root 1) 0) 0).2 = some 0 ∧
    (extrudeFaceTet (sample .tri) 2).2.isSome ∧ (extrudeFaceTet (sample .tri) 2).1.level = (sample .tri).level := by
  decide +kernel

/-! ### C12 -/

/-- C12 for triangles (faces of tetrahedra): the transformation with exchanged roles is the inverse, it gives valid
elements of the same level and type and maps parents to parents. -/
theorem C12_tri (e : Elem 2) (he : Valid .tri e) (o : Nat) (ho : o ≤ 2) (sign isSmaller : Bool) :
    Valid .tri (transformFace e o sign isSmaller) ∧ (transformFace e o sign isSmaller).level = e.level ∧
    (transformFace e o sign isSmaller).type = e.type ∧
    transformFace (transformFace e o sign isSmaller) o sign (!isSmaller) = e ∧
    (0 < e.level → transformFace (parent .tri e) o sign isSmaller = parent .tri (transformFace e o sign isSmaller)) := by
  have hk := effOr_le ho sign isSmaller
  refine ⟨transK_valid he hk sign, transform_level e o sign isSmaller, transform_type e o sign isSmaller, ?_, fun hl => ?_⟩
  · rw [transK_eq, transK_eq, effOr_not ho]
    exact transK_inv he hk sign
  · exact transK_parent he hl hk sign

/-- C12 for triangles: seen from the smaller face the transformation is the symmetry of the triangle that sends corner 0
to the corner given by the orientation and keeps (`sign = false`) or changes (`sign = true`) the sense of rotation. -/
theorem C12_tri_symmetry (e : Elem 2) (he : Valid .tri e) (o : Nat) (ho : o ≤ 2) (sign : Bool) (p q : Fin 2 → Nat)
    (hp : p ∈ Points .tri (root .tri))
    (hq : ((q 0 : Int), (q 1 : Int)) = triSymmetry (2 ^ Cls.tri.maxLevel : Nat) o sign ((p 0 : Int), (p 1 : Int))) :
    p ∈ Points .tri e ↔ q ∈ Points .tri (transformFace e o sign true) := by
  have hk : effOr o sign true = o := by simp [effOr]
  have := transK_points he (effOr_le ho sign true) sign hp (by rw [hk]; exact hq)
  rw [transK_eq]
  exact this

example : (∀ o < 3, ∀ i < 3, triSymmetry 8 o false ([(0, 0), (8, 0), (8, 8)].getD i (0, 0)) =
      [(0, 0), (8, 0), (8, 8)].getD ((i + o) % 3) (0, 0) ∧
    triSymmetry 8 o true ([(0, 0), (8, 0), (8, 8)].getD i (0, 0)) =
      [(0, 0), (8, 0), (8, 8)].getD ((o + 3 - i) % 3) (0, 0)) ∧
    transformFace (sample .tri) 1 false true ≠ sample .tri := by decide +kernel

/-! ### C13 -/

/-- C13. The child indices at a face, in ascending order without duplicates, are exactly those of the children that
have a face inside of the face of the element, and `element_face_get_child_face` gives the number of this face. -/
theorem C13_simplex_children (e : Elem c.dim) (he : Valid c e) (hl : e.level < c.maxLevel) (f : Nat)
    (hf : f < c.numFaces) :
    (childIdsAtFace c e f).Pairwise (· < ·) ∧ (childIdsAtFace c e f).length = c.numFaceChildren ∧
    (∀ i, i ∈ childIdsAtFace c e f ↔ i < c.numChildren ∧ ∃ g, g < c.numFaces ∧ Face c (child c e i) g ⊆ Face c e f) ∧
    childrenAtFace c e f = (childIdsAtFace c e f).map (child c e) ∧
    (∀ k i, (childIdsAtFace c e f)[k]? = some i → ∀ g, g < c.numFaces →
      (Face c (child c e i) g ⊆ Face c e f ↔ g = faceChildFace c e f k)) := by
  have hn := numFaces_eq c
  obtain ⟨t1, t2, _, _⟩ := ids_table c e.type he.aligned.2 f (by omega)
  refine ⟨by rw [idsOf_eq]; exact t1, by rw [idsOf_eq]; exact t2, fun i => ?_, rfl,
    fun k i hk g hg => childFace_iff he hl hf hk hg⟩
  rw [ids_mem he hl hf]
  refine and_congr_right fun _ => exists_congr fun g => ?_
  constructor
  · rintro ⟨h1, _, h3⟩; exact ⟨h1, h3⟩
  · rintro ⟨h1, h3⟩; exact ⟨h1, hf, h3⟩

/-- C13. `element_face_get_parent_face` returns the number of the face of the parent that contains the face, no number
if there is none, and for the root the face itself. -/
theorem C13_simplex_parent_face (e : Elem c.dim) (he : Valid c e) (f : Nat) (hf : f < c.numFaces) (g : Nat) :
    (0 < e.level → (faceParentFace c e f = some g ↔ g < c.numFaces ∧ Face c e f ⊆ Face c (parent c e) g)) ∧
    (e.level = 0 → faceParentFace c e f = some f) := by
  refine ⟨fun hl => parentFace_iff he hl hf g, fun hl => ?_⟩
  cases c <;> simp [faceParentFace, hl]

example : (sample c).level < c.maxLevel ∧ 0 < (sample c).level ∧ (childIdsAtFace c (sample c) 0).length = c.numFaceChildren ∧
    ∃ f < c.numFaces, (faceParentFace c (sample c) f).isSome := by cases c <;> decide +kernel

/-! ### C14 -/

/-- C14. First and last descendant at a face: descendants of the level with a face in the face, and all others of this
kind lie behind and before. -/
theorem C14_simplex (e : Elem c.dim) (he : Valid c e) (f : Nat) (hf : f < c.numFaces) (L : Nat) (hL : e.level ≤ L)
    (hLM : L ≤ c.maxLevel) : ∃ a b, firstDescendantFace c e f L = some a ∧ lastDescendantFace c e f L = some b ∧
    ((tree c).Desc e a ∧ a.level = L ∧ ∃ g, g < c.numFaces ∧ Face c a g ⊆ Face c e f) ∧
    ((tree c).Desc e b ∧ b.level = L ∧ ∃ g, g < c.numFaces ∧ Face c b g ⊆ Face c e f) ∧
    ∀ x g, (tree c).Desc e x → x.level = L → g < c.numFaces → Face c x g ⊆ Face c e f →
      (x = a ∨ (tree c).Before a x) ∧ (x = b ∨ (tree c).Before x b) := by
  obtain ⟨a, a1, a2, a3, ⟨g, a4⟩, a5⟩ := firstDescendantFace_spec he hf hL hLM
  obtain ⟨b, b1, b2, b3, ⟨g', b4⟩, b5⟩ := lastDescendantFace_spec he hf hL hLM
  exact ⟨a, b, a1, b1, ⟨a2, a3, g, a4.1, a4.2.2⟩, ⟨b2, b3, g', b4.1, b4.2.2⟩,
    fun x g hd hx hg h => ⟨a5 x g hd hx ⟨hg, hf, h⟩, b5 x g hd hx ⟨hg, hf, h⟩⟩⟩

example : firstDescendantFace c (sample c) 0 5 ≠ lastDescendantFace c (sample c) 0 5 ∧ (sample c).level ≤ 5 := by
  cases c <;> decide +kernel

/-! ### The face functions as the forest algorithms use them -/

/-- The face functions of the default schemes for triangles and tetrahedra. -/
def faceScheme : FaceScheme (tree c) where
  numFaces _ := c.numFaces
  numFaceChildren _ _ := c.numFaceChildren
  childrenAtFace e f := childrenAtFace c e f
  childIdsAtFace e f := childIdsAtFace c e f
  childFace e f k := faceChildFace c e f k
  firstDescendantFace e f L := (firstDescendantFace c e f L).getD e
  lastDescendantFace e f L := (lastDescendantFace c e f L).getD e

theorem faceScheme_lawful : (faceScheme c).Lawful (InFace c) where
  bounds _ _ _ _ h := ⟨h.1, h.2.1⟩
  refl _ _ _ hf := ⟨hf, hf, fun _ h => h⟩
  trans _ _ _ _ _ _ h1 h2 := h1.trans h2
  unique _ _ _ _ _ he hd h1 h2 := h1.unique he hd h2
  between _ _ _ _ _ he hdy hdx h := between he hdy hdx h
  childIds_sorted e f he hl hf := (C13_simplex_children c e he hl f hf).1
  childIds_length e f he hl hf := (C13_simplex_children c e he hl f hf).2.1
  childIds_mem e f he hl hf i := ids_mem he hl hf i
  children e f he hl hf := rfl
  childFace e f k i he hl hf hk := by
    have hn := numFaces_eq c
    replace hf : f < c.numFaces := hf
    have hlen := (C13_simplex_children c e he hl f hf).2.1
    have hk' : k < c.numFaceChildren := by
      obtain ⟨h, _⟩ := List.getElem?_eq_some_iff.1 hk
      rw [← hlen]; exact h
    have hlt : faceChildFace c e f k < c.numFaces := by
      rw [hn]
      exact Nat.lt_succ_of_le (by rw [childFaceOf_eq]; exact childFace_lt c _ he.aligned.2 f (by omega) k hk')
    exact ⟨hlt, hf, (childFace_iff he hl hf hk hlt).2 rfl⟩
  firstDescendantFace e f L he hf hL hLM := by
    obtain ⟨a, a1, a2, a3, a4, a5⟩ := firstDescendantFace_spec he hf hL hLM
    show (tree c).Desc e ((firstDescendantFace c e f L).getD e) ∧ _
    rw [show (faceScheme c).firstDescendantFace e f L = a by show (firstDescendantFace c e f L).getD e = a; rw [a1]; rfl, a1]
    exact ⟨a2, a3, a4, a5⟩
  lastDescendantFace e f L he hf hL hLM := by
    obtain ⟨a, a1, a2, a3, a4, a5⟩ := lastDescendantFace_spec he hf hL hLM
    show (tree c).Desc e ((lastDescendantFace c e f L).getD e) ∧ _
    rw [show (faceScheme c).lastDescendantFace e f L = a by show (lastDescendantFace c e f L).getD e = a; rw [a1]; rfl, a1]
    exact ⟨a2, a3, a4, a5⟩

end T8.Simplex
