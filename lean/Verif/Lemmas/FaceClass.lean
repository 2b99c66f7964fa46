/-
Lemmas for C54: the classes of the default scheme with all that the search for the neighbors of a leaf needs.
-/
import Verif.Lemmas.CubeLift
import Verif.Lemmas.PyramidLift
import Verif.Lemmas.LeafNeighbors
import Verif.Props.StandaloneFaceScheme

namespace T8.LeafNeighbor
open T8.RTree

/-- The functions of a class on the elements, their faces, the face of the parent and the neighbor inside of the tree fit together. -/
structure FaceClass {T : RTree} (S : Scheme T) (F : FaceScheme T) (In : T.E → Nat → T.E → Nat → Prop)
    (parentFace : T.E → Nat → Option Nat) (neighbor : T.E → Nat → Option (T.E × Nat)) : Prop where
  scheme : S.Lawful
  faces : F.Lawful In
  parentFace : ∀ e f, T.Valid e → 0 < T.level e → f < F.numFaces e → ∀ g, parentFace e f = some g ↔ In e f (T.parent e) g
  lifts : Lifts F In neighbor
  back : ∀ e f n g, T.Valid e → f < F.numFaces e → neighbor e f = some (n, g) →
    T.Valid n ∧ T.level n = T.level e ∧ n ≠ e ∧ g < F.numFaces n ∧ neighbor n g = some (e, f)

variable {T : RTree} {S : Scheme T} {F : FaceScheme T} {In : T.E → Nat → T.E → Nat → Prop}
  {parentFace : T.E → Nat → Option Nat} {neighbor : T.E → Nat → Option (T.E × Nat)}

/-- A leaf that contains the neighbor of a leaf of the same tree has a face that contains the common face. -/
theorem FaceClass.up_inside (C : FaceClass S F In parentFace neighbor) {e n : T.E} {f g : Nat} (he : T.Valid e) (hf : f < F.numFaces e)
    (h : neighbor e f = some (n, g)) {x : T.E} (hx : T.Valid x) (hne : T.Desc x e → x = e) (hd : T.Desc x n) : ∃ k, In n g x k := by
  obtain ⟨hn, hl, hne', hg, hm⟩ := C.back e f n g he hf h
  refine C.lifts.up C.faces (fun e f m g a b c => ?_) hx hn hg hd hm ?_
  · obtain ⟨h1, h2, _⟩ := C.back e f m g a b c
    exact ⟨h1, h2⟩
  · intro hc
    have := hne hc
    subst this
    exact hne' (hd.eq_of_level hx hl.le)

/-- An element that contains an element at the boundary of the tree has a face that contains the face of it. -/
theorem FaceClass.up_across (C : FaceClass S F In parentFace neighbor) {n : T.E} {g r : Nat} (hr : In n g T.root r) {x : T.E}
    (hx : T.Valid x) (hd : T.Desc x n) : ∃ k, In n g x k := by
  obtain ⟨k, _, h2⟩ := C.faces.between n g x T.root r T.valid_root (desc_root hx) hd hr
  exact ⟨k, h2⟩

end T8.LeafNeighbor

namespace T8
open T8.LeafNeighbor T8.RTree

theorem Dline.faceClass : FaceClass Dline.scheme Dline.faceScheme Dline.InFace Dline.faceParentFace Dline.faceNeighborInside where
  scheme := Dline.scheme_lawful
  faces := Dline.faceScheme_lawful
  parentFace e f he hl hf g := ((Dline.C13_line_parent_face e he f hf g).1 hl).trans ⟨fun h => ⟨hf, h⟩, fun h => h.2⟩
  lifts := Dline.lifts
  back e f n g he hf h := by
    obtain ⟨h1, h2, h3, h4, _, h5⟩ := Dline.C10_line_mutual e he f hf n g h
    exact ⟨h1, h2, h3, h4, h5⟩

theorem Simplex.faceClass (c : Simplex.Cls) : FaceClass (Simplex.scheme c) (Simplex.faceScheme c) (Simplex.InFace c)
    (Simplex.faceParentFace c) (Simplex.faceNeighborInside c) where
  scheme := Simplex.scheme_lawful c
  faces := Simplex.faceScheme_lawful c
  parentFace e f he hl hf g := ((Simplex.C13_simplex_parent_face c e he f hf g).1 hl).trans ⟨fun h => ⟨hf, h⟩, fun h => h.2⟩
  lifts := Simplex.lifts c
  back e f n g he hf h := by
    obtain ⟨h1, h2, h3, h4, _, h5⟩ := Simplex.C10_simplex_mutual c e he f hf n g h
    exact ⟨h1, h2, h3, h4, h5⟩

theorem Prism.faceClass : FaceClass Prism.scheme Prism.faceScheme Prism.InFace Prism.faceParentFace Prism.faceNeighborInside where
  scheme := Prism.scheme_lawful
  faces := Prism.faceScheme_lawful
  parentFace e f he hl hf g := ((Prism.C13_prism_parent_face e he f hf g).1 hl).trans ⟨fun h => ⟨hf, h⟩, fun h => h.2⟩
  lifts := Prism.lifts
  back e f n g he hf h := by
    obtain ⟨h1, h2, h3, h4, _, h5⟩ := Prism.C10_prism_mutual e he f hf n g h
    exact ⟨h1, h2, h3, h4, h5⟩

theorem Pyramid.faceClass : FaceClass Pyramid.scheme Pyramid.faceSchemeRepaired Pyramid.InFace Pyramid.faceParentFace
    Pyramid.inside where
  scheme := Pyramid.scheme_lawful
  faces := Pyramid.faceSchemeRepaired_lawful
  parentFace e f he hl hf g := by
    have h := (Pyramid.C13_pyramid_parent_face e he f hf g).1 hl
    rw [Pyramid.numFaces_eq] at h
    have hf' : f < Pyramid.numFaces e := hf
    rw [Pyramid.numFaces_eq] at hf'
    exact h.trans ⟨fun h => ⟨hf', h⟩, fun h => h.2⟩
  lifts := Pyramid.lifts
  back e f n g he hf h := by
    obtain ⟨r, hr, hr'⟩ := Pyramid.C10_pyramid_mutual e he f hf
    have hi := Pyramid.inside_eq.1 h
    rw [hr] at hi
    obtain ⟨h1, h2, h3, h4, _, h5⟩ := hr' n g (Option.some.inj hi)
    exact ⟨h1, h2, h3, h4, Pyramid.inside_eq.2 h5⟩

theorem Cube.faceClass (c : Cube.Cls) (P : Cube.P4est c.dim) (D : P.Documented c) :
    FaceClass (c.scheme P) (c.faceScheme P) c.InFace (fun e f => Cube.faceParentFace c P e f) (fun e f => Cube.faceNeighborInside P e f) where
  scheme := c.scheme_lawful P D
  faces := c.faceScheme_lawful P D
  parentFace e f he hl hf g := by
    have h := (Cube.C13_cube_parent_face c P D e he f hf).1 hl g
    rw [D.parent_eq he hl] at h
    exact h.trans ⟨fun h => ⟨hf, h⟩, fun h => h.2⟩
  lifts := Cube.lifts D
  back e f n g he hf h := by
    obtain ⟨h1, h2, h3, h4, _, h5⟩ := Cube.C10_cube_mutual c P D e he f hf n g h
    exact ⟨h1, h2, h3, h4, h5⟩

/-- `element_face_get_parent_face` of the standalone implementation. -/
def Standalone.Cls.parentFace (c : Standalone.Cls) (e : c.tree.E) (f : Nat) : Option Nat :=
  if h : f / 2 < c.dim then Standalone.faceParentFace (d := c.dim) c.maxLevel e f h else none

theorem Standalone.faceClass (c : Standalone.Cls) :
    FaceClass c.scheme c.faceScheme c.InFace c.parentFace (fun e f => Standalone.faceNeighborInside (d := c.dim) c.maxLevel e f) where
  scheme := c.scheme_lawful
  faces := c.faceScheme_lawful
  parentFace e f he hl hf g := by
    have hf' : f / 2 < c.dim := by
      have : f < 2 * c.dim := hf
      omega
    rw [Standalone.Cls.parentFace, dif_pos hf']
    exact (Standalone.C13_standalone_parent_face_partial c e he hl f hf' g).trans ⟨fun h => ⟨hf, h⟩, fun h => h.2⟩
  lifts := by
    intro e f m g he hf hl h
    rcases Standalone.neighbor_lift c.small he hf hl h with h1 | ⟨h1, h2⟩
    · exact Or.inl h1
    · exact Or.inr ⟨f, f ^^^ 1, ⟨hf, hf, h1⟩, h2⟩
  back e f n g he hf h := by
    obtain ⟨h1, h2, h3, h4, _, h5⟩ := Standalone.C10_standalone_mutual c e he f hf n g h
    exact ⟨h1, h2, h3, h4, h5⟩

end T8
