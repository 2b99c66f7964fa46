/-
Specification: faces of elements, as the forest algorithms use them.

`FaceScheme T` collects the functions of `t8_scheme` (src/t8_schemes/t8_scheme.hxx) about faces of an element and of its descendants.
`FaceScheme.Lawful F In` states what they have to compute, in terms of the geometric relation `In`: `In x g e f` means that face `g`
of the element `x` lies in face `f` of the element `e`.
-/
import Verif.Spec.Element

namespace T8

/-- The functions of `t8_scheme` about the faces of the elements of one class. -/
structure FaceScheme (T : RTree) where
  /-- `element_get_num_faces` -/
  numFaces : T.E → Nat
  /-- `element_get_num_face_children` -/
  numFaceChildren : T.E → Nat → Nat
  /-- `element_get_children_at_face`: the children -/
  childrenAtFace : T.E → Nat → List T.E
  /-- `element_get_children_at_face`: the child indices -/
  childIdsAtFace : T.E → Nat → List Nat
  /-- `element_face_get_child_face` -/
  childFace : T.E → Nat → Nat → Nat
  /-- `element_get_first_descendant_face` -/
  firstDescendantFace : T.E → Nat → Nat → T.E
  /-- `element_get_last_descendant_face` -/
  lastDescendantFace : T.E → Nat → Nat → T.E

/-- The laws of the face functions. -/
structure FaceScheme.Lawful {T : RTree} (F : FaceScheme T) (In : T.E → Nat → T.E → Nat → Prop) : Prop where
  /-- Face numbers are in range. -/
  bounds : ∀ x g e f, In x g e f → g < F.numFaces x ∧ f < F.numFaces e
  refl : ∀ e f, T.Valid e → f < F.numFaces e → In e f e f
  trans : ∀ x g y h e f, In x g y h → In y h e f → In x g e f
  /-- A descendant has at most one face in a face of the element. -/
  unique : ∀ x g g' e f, T.Valid e → T.Desc e x → In x g e f → In x g' e f → g = g'
  /-- If a descendant has a face in a face of the element, then so do the elements in between. -/
  between : ∀ x g y e f, T.Valid e → T.Desc e y → T.Desc y x → In x g e f → ∃ h, In y h e f ∧ In x g y h
  /-- The child indices at a face are those of the children that have a face in it, in ascending order. -/
  childIds_sorted : ∀ e f, T.Valid e → T.level e < T.maxLevel → f < F.numFaces e → (F.childIdsAtFace e f).Pairwise (· < ·)
  childIds_length : ∀ e f, T.Valid e → T.level e < T.maxLevel → f < F.numFaces e →
    (F.childIdsAtFace e f).length = F.numFaceChildren e f
  childIds_mem : ∀ e f, T.Valid e → T.level e < T.maxLevel → f < F.numFaces e → ∀ i, i ∈ F.childIdsAtFace e f ↔
    i < T.nc e ∧ ∃ g, In (T.child e i) g e f
  children : ∀ e f, T.Valid e → T.level e < T.maxLevel → f < F.numFaces e →
    F.childrenAtFace e f = (F.childIdsAtFace e f).map (T.child e)
  childFace : ∀ e f (k i : Nat), T.Valid e → T.level e < T.maxLevel → f < F.numFaces e → (F.childIdsAtFace e f)[k]? = some i →
    In (T.child e i) (F.childFace e f k) e f
  /-- The first and the last descendant at a face. -/
  firstDescendantFace : ∀ e f L, T.Valid e → f < F.numFaces e → T.level e ≤ L → L ≤ T.maxLevel →
    T.Desc e (F.firstDescendantFace e f L) ∧ T.level (F.firstDescendantFace e f L) = L ∧
    (∃ g, In (F.firstDescendantFace e f L) g e f) ∧
    ∀ x g, T.Desc e x → T.level x = L → In x g e f → x = F.firstDescendantFace e f L ∨ T.Before (F.firstDescendantFace e f L) x
  lastDescendantFace : ∀ e f L, T.Valid e → f < F.numFaces e → T.level e ≤ L → L ≤ T.maxLevel →
    T.Desc e (F.lastDescendantFace e f L) ∧ T.level (F.lastDescendantFace e f L) = L ∧
    (∃ g, In (F.lastDescendantFace e f L) g e f) ∧
    ∀ x g, T.Desc e x → T.level x = L → In x g e f → x = F.lastDescendantFace e f L ∨ T.Before x (F.lastDescendantFace e f L)

end T8
