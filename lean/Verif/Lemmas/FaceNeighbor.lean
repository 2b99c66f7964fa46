/-
The laws of the face functions of the default scheme for all classes at once, and the face connections of the coarse mesh.
-/
import Verif.Spec.FaceGluing

namespace T8.Neighbor
open Element

theorem inside_vertex (e : Element) (f : Nat) (hf : f < e.numFaces) : e.eclass ≠ .vertex := by
  intro h
  cases e <;> simp only [Element.eclass, reduceCtorEq] at h
  simp [Element.numFaces, Element.eclass, Eclass.numFaces] at hf

/-- The result of `element_get_face_neighbor_inside` and the tests for the boundary of the tree. -/
theorem inside_spec {S : P4ests} (D : S.Documented) {e : Element} (he : e.Valid S) {f : Nat} (hf : f < e.numFaces) :
    ∃ r, e.neighborInside S f = some r ∧ (r = none ↔ ∃ F, F < e.eclass.numFaces ∧ e.InRootFace S f F) ∧
      (e.isRootBoundary S f = true ↔ ∃ F, F < e.eclass.numFaces ∧ e.InRootFace S f F) ∧
      (∀ F, F < e.eclass.numFaces → e.InRootFace S f F → e.treeFace f = F) ∧
      ∀ n g, r = some (n, g) → n.Valid S ∧ n.eclass = e.eclass ∧ n.level = e.level ∧ g < n.numFaces ∧
        n.neighborInside S g = some (some (e, f)) ∧ n ≠ e ∧ ∀ p, n.InFace S g p ↔ e.InFace S f p := by
  cases e with
  | vertex v => simp [Element.numFaces, Element.eclass, Eclass.numFaces] at hf
  | line l =>
    have hf' : f < Dline.numFaces := hf
    obtain ⟨h1, h2, h3⟩ := Dline.C10_line_inside l he f hf'
    have key : (∃ F, F < Eclass.line.numFaces ∧ Element.InRootFace S (.line l) f F) ↔ Dline.Face l f ⊆ Dline.Face Dline.root f := by
      constructor
      · rintro ⟨F, hF, h⟩
        have := h3 F hF h
        rw [Dline.treeFace] at this
        subst this
        exact h
      · intro h; exact ⟨f, hf', h⟩
    refine ⟨_, rfl, ?_, ?_, fun F hF h => ?_, fun n g hr => ?_⟩
    · exact (Option.map_eq_none_iff.trans h1).trans key.symm
    · exact h2.trans key.symm
    · exact congrArg Int.ofNat (h3 F hF h)
    · obtain ⟨⟨n', g'⟩, hn, hr'⟩ := Option.map_eq_some_iff.1 hr
      cases hr'
      obtain ⟨a1, a2, a3, a4, a5, a6⟩ := Dline.C10_line_mutual l he f hf' n' g' hn
      refine ⟨a1, rfl, a2, a4, ?_, fun h => a3 (by injection h), fun x => ?_⟩
      · show some ((Dline.faceNeighborInside n' g').map _) = _
        rw [a6]; rfl
      · show x 0 ∈ Dline.Face n' g' ↔ x 0 ∈ Dline.Face l f
        rw [a5]
  | quad q =>
    have hf' : f < Cube.numFaces 2 := hf
    obtain ⟨h1, h2, h3⟩ := Cube.C10_cube_inside .quad S.quad D.1 q he f hf'
    have key : (∃ F, F < Eclass.quad.numFaces ∧ Element.InRootFace S (.quad q) f F) ↔
        Standalone.Face 30 q f ⊆ Standalone.Face 30 (Standalone.root 2) f := by
      constructor
      · rintro ⟨F, hF, h⟩
        have := h3 F hF h
        rw [Cube.treeFace] at this
        subst this
        exact h
      · intro h; exact ⟨f, hf', h⟩
    refine ⟨_, rfl, ?_, ?_, fun F hF h => ?_, fun n g hr => ?_⟩
    · exact (Option.map_eq_none_iff.trans h1).trans key.symm
    · exact h2.trans key.symm
    · exact congrArg Int.ofNat (h3 F hF h)
    · obtain ⟨⟨n', g'⟩, hn, hr'⟩ := Option.map_eq_some_iff.1 hr
      cases hr'
      obtain ⟨a1, a2, a3, a4, a5, a6⟩ := Cube.C10_cube_mutual .quad S.quad D.1 q he f hf' n' g' hn
      refine ⟨a1, rfl, a2, a4, ?_, fun h => a3 (by injection h), fun x => ?_⟩
      · show some ((Cube.faceNeighborInside S.quad n' g').map _) = _
        rw [a6]; rfl
      · show to2 x ∈ Standalone.Face 30 n' g' ↔ to2 x ∈ Standalone.Face 30 q f
        exact Set.ext_iff.1 a5 _
  | triangle t =>
    have hf' : f < Simplex.Cls.tri.numFaces := hf
    obtain ⟨h1, h2, h3⟩ := Simplex.C10_simplex_inside .tri t he f hf'
    refine ⟨_, rfl, Option.map_eq_none_iff.trans h1, h2, fun F hF h => h3 F hF h, fun n g hr => ?_⟩
    obtain ⟨⟨n', g'⟩, hn, hr'⟩ := Option.map_eq_some_iff.1 hr
    cases hr'
    obtain ⟨a1, a2, a3, a4, a5, a6⟩ := Simplex.C10_simplex_mutual .tri t he f hf' n' g' hn
    refine ⟨a1, rfl, a2, a4, ?_, fun h => a3 (by injection h), fun x => ?_⟩
    · show some ((Simplex.faceNeighborInside .tri n' g').map _) = _
      rw [a6]; rfl
    · show to2 x ∈ Simplex.Face .tri n' g' ↔ to2 x ∈ Simplex.Face .tri t f
      rw [a5]
  | hex h =>
    have hf' : f < Cube.numFaces 3 := hf
    obtain ⟨h1, h2, h3⟩ := Cube.C10_cube_inside (.hex S.M S.hM) S.hex D.2 h he f hf'
    have key : (∃ F, F < Eclass.hex.numFaces ∧ Element.InRootFace S (.hex h) f F) ↔
        Standalone.Face S.M h f ⊆ Standalone.Face S.M (Standalone.root 3) f := by
      constructor
      · rintro ⟨F, hF, h⟩
        have := h3 F hF h
        rw [Cube.treeFace] at this
        subst this
        exact h
      · intro h; exact ⟨f, hf', h⟩
    refine ⟨_, rfl, ?_, ?_, fun F hF h => ?_, fun n g hr => ?_⟩
    · exact (Option.map_eq_none_iff.trans h1).trans key.symm
    · exact h2.trans key.symm
    · exact congrArg Int.ofNat (h3 F hF h)
    · obtain ⟨⟨n', g'⟩, hn, hr'⟩ := Option.map_eq_some_iff.1 hr
      cases hr'
      obtain ⟨a1, a2, a3, a4, a5, a6⟩ := Cube.C10_cube_mutual (.hex S.M S.hM) S.hex D.2 h he f hf' n' g' hn
      refine ⟨a1, rfl, a2, a4, ?_, fun h => a3 (by injection h), fun x => ?_⟩
      · show some ((Cube.faceNeighborInside S.hex n' g').map _) = _
        rw [a6]; rfl
      · show x ∈ Standalone.Face S.M n' g' ↔ x ∈ Standalone.Face S.M h f
        exact Set.ext_iff.1 a5 _
  | tet t =>
    have hf' : f < Simplex.Cls.tet.numFaces := hf
    obtain ⟨h1, h2, h3⟩ := Simplex.C10_simplex_inside .tet t he f hf'
    refine ⟨_, rfl, Option.map_eq_none_iff.trans h1, h2, fun F hF h => h3 F hF h, fun n g hr => ?_⟩
    obtain ⟨⟨n', g'⟩, hn, hr'⟩ := Option.map_eq_some_iff.1 hr
    cases hr'
    obtain ⟨a1, a2, a3, a4, a5, a6⟩ := Simplex.C10_simplex_mutual .tet t he f hf' n' g' hn
    refine ⟨a1, rfl, a2, a4, ?_, fun h => a3 (by injection h), fun x => ?_⟩
    · show some ((Simplex.faceNeighborInside .tet n' g').map _) = _
      rw [a6]; rfl
    · show x ∈ Simplex.Face .tet n' g' ↔ x ∈ Simplex.Face .tet t f
      rw [a5]
  | prism p =>
    have hf' : f < Prism.numFaces := hf
    obtain ⟨h1, h2, h3⟩ := Prism.C10_prism_inside p he f hf'
    refine ⟨_, rfl, Option.map_eq_none_iff.trans h1, h2, fun F hF h => congrArg Int.ofNat (h3 F hF h), fun n g hr => ?_⟩
    obtain ⟨⟨n', g'⟩, hn, hr'⟩ := Option.map_eq_some_iff.1 hr
    cases hr'
    obtain ⟨a1, a2, a3, a4, a5, a6⟩ := Prism.C10_prism_mutual p he f hf' n' g' hn
    refine ⟨a1, rfl, a2, a4, ?_, fun h => a3 (by injection h), fun x => ?_⟩
    · show some ((Prism.faceNeighborInside n' g').map _) = _
      rw [a6]; rfl
    · show (to2 x, x 2) ∈ Prism.Face n' g' ↔ (to2 x, x 2) ∈ Prism.Face p f
      rw [a5]
  | pyramid p =>
    have hf' : f < Pyramid.numFaces p := hf
    obtain ⟨h1, h2, h3⟩ := Pyramid.C10_pyramid_inside p he f hf'
    obtain ⟨r, hr, hm⟩ := Pyramid.C10_pyramid_mutual p he f hf'
    rw [hr] at h1
    simp only [Option.some.injEq] at h1
    refine ⟨r.map fun r => (.pyramid r.1, r.2), ?_, Option.map_eq_none_iff.trans h1, h2, fun F hF h => ?_, fun n g hr' => ?_⟩
    · show (Pyramid.faceNeighborInside p f).map _ = _
      rw [hr]; rfl
    · have := (h3 F hF).1 h
      simp only [Element.treeFace, this]
    · obtain ⟨⟨n', g'⟩, hn, hr''⟩ := Option.map_eq_some_iff.1 hr'
      cases hr''
      obtain ⟨a1, a2, a3, a4, a5, a6⟩ := hm n' g' hn
      refine ⟨a1, rfl, a2, a4, ?_, fun h => a3 (by injection h), fun x => ?_⟩
      · show (Pyramid.faceNeighborInside n' g').map _ = _
        rw [a6]; rfl
      · show x ∈ Pyramid.Face n' g' ↔ x ∈ Pyramid.Face p f
        rw [a5]

theorem quad_valid_of {q : Prism.Quad} (h : q.Valid) (hl : q.level ≤ 29) :
    Cube.Valid .quad (⟨fun i => if i.val = 0 then q.x else q.y, q.level⟩ : Standalone.Elem 2) := by
  obtain ⟨h1, h2, h3⟩ := h
  refine ⟨⟨h1, fun i => ?_⟩, hl⟩
  fin_cases i
  · exact h2
  · exact h3

theorem quad_valid_to {q : Standalone.Elem 2} (h : Cube.Valid .quad q) : (⟨q.coords 0, q.coords 1, q.level⟩ : Prism.Quad).Valid :=
  ⟨h.1.1, h.1.2 0, h.1.2 1⟩

theorem quad_eta (q : Standalone.Elem 2) :
    (⟨fun i => if i.val = 0 then q.coords 0 else q.coords 1, q.level⟩ : Standalone.Elem 2) = q := by
  refine Standalone.Elem.ext' (fun i => ?_) rfl
  fin_cases i <;> rfl

theorem extrude_pyramid_quad (S : P4ests) (q : Standalone.Elem 2) (F : Nat) : extrudeFace S .pyramid (.quad q) F =
    (Pyramid.extrudeFace (.quad ⟨q.coords 0, q.coords 1, q.level⟩) F).map fun r => (.pyramid r.1, r.2) := rfl

/-- Taking the boundary face and extruding it. -/
theorem extrude_boundary {S : P4ests} {e : Element} (he : e.Valid S) {f F : Nat} (hf : f < e.numFaces)
    (hF : F < e.eclass.numFaces) (hb : e.InRootFace S f F) :
    ∃ b, e.boundaryFace S f = some b ∧ faceType e.eclass F = some b.eclass ∧ b.Valid S ∧ b.level = e.level ∧
      extrudeFace S e.eclass b F = some (e, f) := by
  cases e with
  | vertex v => exact absurd hF (by simp [Element.eclass, Eclass.numFaces])
  | line l =>
    have hfF : f = F := (Dline.C10_line_inside l he f hf).2.2 F hF hb
    subst hfF
    obtain ⟨b, h1, h2, h3, h4⟩ := Dline.C11_line_extrude_boundary l he f hf hb
    refine ⟨.vertex b, ?_, ?_, h3, h2, ?_⟩
    · show (Dline.boundaryFace l f).map _ = _
      rw [h1]; rfl
    · show faceType .line f = _
      rw [faceType, if_pos (show f < 2 from hF)]; rfl
    · show some (Element.line (Dline.extrudeFace b f).1, (Dline.extrudeFace b f).2) = _
      rw [h4]
  | quad q =>
    have hfF : f = F := by
      have h := Standalone.face_number (M := 30) (f := F) (g := f) (Cube.Cls.quad.face_dim hF)
        (fun i => Cube.Cls.quad.desc_box Cube.Cls.quad.tree.valid_root (RTree.desc_root (T := Cube.Cls.quad.tree) he) i) hb
      exact h
    subst hfF
    obtain ⟨h1, h2, h3, _⟩ := Cube.C11_quad_extrude_boundary q he f hf hb
    refine ⟨.line (Cube.boundaryFaceQuad q f), rfl, ?_, h1, h2, ?_⟩
    · show faceType .quad f = _
      rw [faceType, if_pos (show f < 4 from hF)]; rfl
    · show (Cube.extrudeFaceQuad (Cube.boundaryFaceQuad q f) f).map _ = _
      rw [h3]; rfl
  | triangle t =>
    obtain ⟨h1, h2, h3, _⟩ := Simplex.C11_tri_extrude_boundary t he f F hf hF hb
    refine ⟨.line (Simplex.boundaryFaceTri t f), rfl, ?_, h1, h2, ?_⟩
    · show faceType .triangle F = _
      rw [faceType, if_pos (show F < 3 from hF)]; rfl
    · show (Simplex.extrudeFaceTri (Simplex.boundaryFaceTri t f) F).2.map _ = _
      rw [h3]; rfl
  | hex h =>
    have hfF : f = F := by
      have h := Standalone.face_number (M := S.M) (f := F) (g := f) ((Cube.Cls.hex S.M S.hM).face_dim hF)
        (fun i => (Cube.Cls.hex S.M S.hM).desc_box (Cube.Cls.hex S.M S.hM).tree.valid_root
          (RTree.desc_root (T := (Cube.Cls.hex S.M S.hM).tree) he) i) hb
      exact h
    subst hfF
    obtain ⟨h1, h2, h3, _⟩ := Cube.C11_hex_extrude_boundary S.M S.hM h he f hf hb
    refine ⟨.quad (Cube.boundaryFaceHex S.M h f), rfl, ?_, h1, h2, ?_⟩
    · show faceType .hex f = _
      rw [faceType, if_pos (show f < 6 from hF)]; rfl
    · show (Cube.extrudeFaceHex S.M (Cube.boundaryFaceHex S.M h f) f).map _ = _
      rw [h3]; rfl
  | tet t =>
    obtain ⟨b, h1, h2, h3, h4, _⟩ := Simplex.C11_tet_extrude_boundary t he f F hf hF hb
    refine ⟨.triangle b, ?_, ?_, h2, h3, ?_⟩
    · show (Simplex.boundaryFaceTet t f).map _ = _
      rw [h1]; rfl
    · show faceType .tet F = _
      rw [faceType, if_pos (show F < 4 from hF)]; rfl
    · show (Simplex.extrudeFaceTet b F).2.map _ = _
      rw [h4]; rfl
  | prism p =>
    have hf5 : f < 5 := hf
    have hfF : f = F := (Prism.C10_prism_inside p he f hf).2.2 F hF hb
    subst hfF
    by_cases h3 : f < 3
    · obtain ⟨q, h1, h2, h4, h5, _⟩ := Prism.C11_prism_quad_extrude_boundary p he f f h3 hF hb
      have hl : Prism.level p ≤ 21 := he.2.2.2
      refine ⟨ofBoundary (.quad q), ?_, ?_, quad_valid_of h2 (by omega), h4, ?_⟩
      · show some (ofBoundary (Prism.boundaryFace p f)) = _
        rw [h1]
      · show faceType .prism f = _
        rw [faceType, if_pos h3]; rfl
      · show (Prism.extrudeFace (.quad q) f).map _ = _
        rw [h5]; rfl
    · obtain ⟨t, h1, h2, h4, h5, _⟩ := Prism.C11_prism_tri_extrude_boundary p he f f hf (by omega) hF hb
      refine ⟨ofBoundary (.tri t), ?_, ?_, h2, h4, ?_⟩
      · show some (ofBoundary (Prism.boundaryFace p f)) = _
        rw [h1]
      · show faceType .prism f = _
        rw [faceType, if_neg h3, if_pos hf5]; rfl
      · show (Prism.extrudeFace (.tri t) f).map _ = _
        rw [h5]; rfl
  | pyramid p =>
    have hF5 : F < 5 := hF
    by_cases h4 : F < 4
    · obtain ⟨t, h1, h2, h3, h5, _⟩ := Pyramid.C11_pyramid_tri_extrude_boundary p he f F hf h4 hb
      refine ⟨ofBoundary (.tri t), ?_, ?_, h2, h3, ?_⟩
      · show some (ofBoundary (Pyramid.boundaryFace p f)) = _
        rw [h1]
      · show faceType .pyramid F = _
        rw [faceType, if_pos h4]; rfl
      · show (Pyramid.extrudeFace (.tri t) F).map _ = _
        rw [h5]; rfl
    · have : F = 4 := by omega
      subst this
      obtain ⟨q, h1, h2, h3, h5, _⟩ := Pyramid.C11_pyramid_quad_extrude_boundary p he f hf hb
      have hl : p.level ≤ 21 := he.good.cube.1
      refine ⟨ofBoundary (.quad q), ?_, ?_, quad_valid_of h2 (by omega), h3, ?_⟩
      · show some (ofBoundary (Pyramid.boundaryFace p f)) = _
        rw [h1]
      · rfl
      · refine (extrude_pyramid_quad S _ 4).trans ?_
        refine (congrArg (Option.map _) h5).trans rfl

/-- Extruding a face element. -/
theorem boundary_extrude {S : P4ests} {c : Eclass} {b : Element} (hb : b.Valid S) {F : Nat} (hF : F < c.numFaces)
    (ht : faceType c F = some b.eclass) (hl : b.level ≤ maxLevel c) :
    ∃ e f, extrudeFace S c b F = some (e, f) ∧ e.eclass = c ∧ e.Valid S ∧ e.level = b.level ∧ f < e.numFaces ∧
      e.InRootFace S f F ∧ e.boundaryFace S f = some b := by
  cases c with
  | vertex => exact absurd hF (by simp [Eclass.numFaces])
  | line =>
    rw [faceType, if_pos (show F < 2 from hF)] at ht
    cases b <;> simp only [Element.eclass, Option.some.injEq, reduceCtorEq] at ht
    rename_i v
    obtain ⟨h1, h2, h3, h4, h5⟩ := Dline.C11_line_boundary_extrude v hl F hF
    refine ⟨.line (Dline.extrudeFace v F).1, F, rfl, rfl, h1, h2, hF, h4, ?_⟩
    show (Dline.boundaryFace _ _).map _ = _
    rw [h5]; rfl
  | quad =>
    rw [faceType, if_pos (show F < 4 from hF)] at ht
    cases b <;> simp only [Element.eclass, Option.some.injEq, reduceCtorEq] at ht
    rename_i l
    obtain ⟨e, h1, h2, h3, h4, h5⟩ := Cube.C11_quad_boundary_extrude l hb hl F hF
    refine ⟨.quad e, F, ?_, rfl, h2, h3, hF, h4, ?_⟩
    · show (Cube.extrudeFaceQuad l F).map _ = _
      rw [h1]; rfl
    · show some (Element.line (Cube.boundaryFaceQuad e F)) = _
      rw [h5]
  | triangle =>
    rw [faceType, if_pos (show F < 3 from hF)] at ht
    cases b <;> simp only [Element.eclass, Option.some.injEq, reduceCtorEq] at ht
    rename_i l
    obtain ⟨e, h1, h2, h3, h4, h5⟩ := Simplex.C11_tri_boundary_extrude l hb hl F hF
    refine ⟨.triangle e, F, ?_, rfl, h2, h3, hF, h4, ?_⟩
    · show (Simplex.extrudeFaceTri l F).2.map _ = _
      rw [h1]; rfl
    · show some (Element.line (Simplex.boundaryFaceTri e F)) = _
      rw [h5]
  | hex =>
    rw [faceType, if_pos (show F < 6 from hF)] at ht
    cases b <;> simp only [Element.eclass, Option.some.injEq, reduceCtorEq] at ht
    rename_i q
    obtain ⟨e, h1, h2, h3, h4, h5⟩ := Cube.C11_hex_boundary_extrude S.M S.hM q hb hl F hF
    refine ⟨.hex e, F, ?_, rfl, h2, h3, hF, h4, ?_⟩
    · show (Cube.extrudeFaceHex S.M q F).map _ = _
      rw [h1]; rfl
    · show some (Element.quad (Cube.boundaryFaceHex S.M e F)) = _
      rw [h5]
  | tet =>
    rw [faceType, if_pos (show F < 4 from hF)] at ht
    cases b <;> simp only [Element.eclass, Option.some.injEq, reduceCtorEq] at ht
    rename_i t
    obtain ⟨e, f, h1, h2, h3, h4, h5, h6⟩ := Simplex.C11_tet_boundary_extrude t hb hl F hF
    refine ⟨.tet e, f, ?_, rfl, h3, h4, h2, h5, ?_⟩
    · show (Simplex.extrudeFaceTet t F).2.map _ = _
      rw [h1]; rfl
    · show (Simplex.boundaryFaceTet e f).map _ = _
      rw [h6]; rfl
  | prism =>
    have hF5 : F < 5 := hF
    by_cases h3 : F < 3
    · rw [faceType, if_pos h3] at ht
      cases b <;> simp only [Element.eclass, Option.some.injEq, reduceCtorEq] at ht
      rename_i q
      obtain ⟨e, h1, h2, h4, h5, h6⟩ := Prism.C11_prism_quad_boundary_extrude _ (quad_valid_to hb) hl F h3
      refine ⟨.prism e, F, ?_, rfl, h2, h4, hF, h5, ?_⟩
      · show (Prism.extrudeFace _ F).map _ = _
        rw [h1]; rfl
      · show some (ofBoundary (Prism.boundaryFace e F)) = _
        rw [h6]
        exact congrArg (fun q => some (Element.quad q)) (quad_eta q)
    · rw [faceType, if_neg h3, if_pos hF5] at ht
      cases b <;> simp only [Element.eclass, Option.some.injEq, reduceCtorEq] at ht
      rename_i t
      obtain ⟨e, h1, h2, h4, h5, h6⟩ := Prism.C11_prism_tri_boundary_extrude t hb hl F hF (by omega)
      refine ⟨.prism e, F, ?_, rfl, h2, h4, hF, h5, ?_⟩
      · show (Prism.extrudeFace _ F).map _ = _
        rw [h1]; rfl
      · show some (ofBoundary (Prism.boundaryFace e F)) = _
        rw [h6]; rfl
  | pyramid =>
    have hF5 : F < 5 := hF
    by_cases h3 : F < 4
    · rw [faceType, if_pos h3] at ht
      cases b <;> simp only [Element.eclass, Option.some.injEq, reduceCtorEq] at ht
      rename_i t
      obtain ⟨e, f, h1, h2, h4, h5, h6, h7⟩ := Pyramid.C11_pyramid_tri_boundary_extrude t hb hl F h3
      refine ⟨.pyramid e, f, ?_, rfl, h4, h5, h2, h6, ?_⟩
      · show (Pyramid.extrudeFace _ F).map _ = _
        rw [h1]; rfl
      · show some (ofBoundary (Pyramid.boundaryFace e f)) = _
        rw [h7]; rfl
    · rw [faceType, if_neg h3, if_pos hF5] at ht
      have : F = 4 := by omega
      subst this
      cases b <;> simp only [Element.eclass, Option.some.injEq, reduceCtorEq] at ht
      rename_i q
      obtain ⟨e, h1, h2, h4, h5, h6, h7⟩ := Pyramid.C11_pyramid_quad_boundary_extrude _ (quad_valid_to hb) hl
      refine ⟨.pyramid e, 4, ?_, rfl, h2, h4, ?_, h6, ?_⟩
      · rw [extrude_pyramid_quad, h1]; rfl
      · show 4 < Pyramid.numFaces e
        rw [Pyramid.numFaces, if_pos ((Pyramid.isPyra_iff _).2 h5)]; omega
      · show some (ofBoundary (Pyramid.boundaryFace e 4)) = _
        rw [h7]
        exact congrArg (fun q => some (Element.quad q)) (quad_eta q)

/-- The transformation of face elements. -/
theorem transform_spec {S : P4ests} (D : S.Documented) {b : Element} (hb : b.Valid S) (hd : b.eclass.dim ≤ 2) {o : Nat}
    (ho : o < b.eclass.numVertices) (sign sm : Bool) :
    ∃ b', b.transformFace o sign sm = some b' ∧ b'.Valid S ∧ b'.eclass = b.eclass ∧ b'.level = b.level ∧
      b'.transformFace o sign (!sm) = some b ∧ (sign = true → b'.transformFace o sign sm = some b) := by
  cases b with
  | vertex v => exact ⟨.vertex v, rfl, hb, rfl, rfl, rfl, fun _ => rfl⟩
  | line l =>
    obtain ⟨h1, h2, h3, _⟩ := Dline.C12_line l hb o
    refine ⟨.line (Dline.transformFace l o), rfl, h1, rfl, h2, ?_, fun _ => ?_⟩
    all_goals
      show some (Element.line (Dline.transformFace (Dline.transformFace l o) o)) = _
      rw [h3]
  | quad q =>
    obtain ⟨q', h1, h2, h3, h4, _⟩ := Cube.C12_quad_partial S.quad D.1 true sign sm (Or.inl rfl) q q hb o ho
    have hm : ∀ (x y : Standalone.Elem 2) (s : Bool), Cube.transformFace true x y o sign s = Cube.transformFace true x x o sign s := by
      intro x y s
      rw [Cube.transformFace_eq, Cube.transformFace_eq]
      simp
    refine ⟨.quad q', ?_, h2, rfl, h3, ?_, fun hs => ?_⟩
    · show (Cube.transformFace true q q o sign sm).map _ = _
      rw [h1]; rfl
    · show (Cube.transformFace true q' q' o sign (!sm)).map _ = _
      rw [← hm q' q, h4]; rfl
    · show (Cube.transformFace true q' q' o sign sm).map _ = _
      have : ∀ s, Cube.transformFace true q' q' o true s = Cube.transformFace true q' q' o true (!s) := by
        intro s
        rw [Cube.transformFace_eq, Cube.transformFace_eq]
        simp [Standalone.transformFaceQuad]
      subst hs
      rw [this, ← hm q' q, h4]; rfl
  | triangle t =>
    have ho' : o < 3 := ho
    obtain ⟨h1, h2, _, h3, _⟩ := Simplex.C12_tri t hb o (by omega) sign sm
    refine ⟨.triangle (Simplex.transformFace t o sign sm), rfl, h1, rfl, h2, ?_, fun hs => ?_⟩
    · show some (Element.triangle _) = _
      rw [h3]
    · show some (Element.triangle _) = _
      subst hs
      have : ∀ x s, Simplex.transformFace x o true s = Simplex.transformFace x o true (!s) := by
        intro x s
        simp [Simplex.transformFace]
      rw [this, h3]
  | hex _ => exact absurd hd (by simp [Element.eclass, Eclass.dim])
  | tet _ => exact absurd hd (by simp [Element.eclass, Eclass.dim])
  | prism _ => exact absurd hd (by simp [Element.eclass, Eclass.dim])
  | pyramid _ => exact absurd hd (by simp [Element.eclass, Eclass.dim])

end T8.Neighbor
