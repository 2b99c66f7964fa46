/-
The points of the face elements, for all classes.
-/
import Verif.Spec.FaceGluing
import Verif.Lemmas.FaceNeighbor
import Verif.Lemmas.CmeshJoin
import Mathlib.Tactic.IntervalCases

namespace T8.Neighbor
open Element

/-- The function with the two coordinates. -/
def pair (x : Nat × Nat) : Fin 2 → Nat := fun i => if i.val = 0 then x.1 else x.2

/-- The points of the face elements. -/
def Element.Has : Element → Nat × Nat → Prop
  | .line l, x => x.1 ∈ Dline.Points l
  | .quad q, x => pair x ∈ Standalone.Box 30 q
  | .triangle t, x => pair x ∈ Simplex.Points .tri t
  | _, _ => True

theorem pair_to2 (p : Fin 3 → Nat) : pair (p 0, p 1) = to2 p := by
  funext i; fin_cases i <;> rfl

theorem quad_box (q : Prism.Quad) (x : Nat × Nat) :
    (pair x ∈ Standalone.Box 30 (⟨fun i => if i.val = 0 then q.x else q.y, q.level⟩ : Standalone.Elem 2)) ↔ x ∈ q.Points := by
  constructor
  · intro h; exact ⟨h 0, h 1⟩
  · intro h i
    fin_cases i
    · exact h.1
    · exact h.2

/-- The points of the boundary face of an element are the points of its face in the coordinates of the face of the tree. -/
theorem boundary_points {S : P4ests} {e : Element} (he : e.Valid S) {f F : Nat} (hf : f < e.numFaces)
    (hF : F < e.eclass.numFaces) (hb : e.InRootFace S f F) {b : Element} (hbb : e.boundaryFace S f = some b) (p : Fin 3 → Nat)
    (hp : (rootOf e.eclass).InFace S F p) : e.InFace S f p ↔ b.Has (faceCoord S e.eclass F p) := by
  cases e with
  | vertex v => exact absurd hF (by simp [Element.eclass, Eclass.numFaces])
  | line l =>
    have hfF : f = F := (Dline.C10_line_inside l he f hf).2.2 F hF hb
    subst hfF
    obtain ⟨v, h1, rfl⟩ := Option.map_eq_some_iff.1 hbb
    have hx : l.x.toNat + f * 2 ^ (Dline.maxLevel - l.level) = Dline.root.x.toNat + f * 2 ^ (Dline.maxLevel - Dline.root.level) := by
      have : l.x.toNat + f * 2 ^ (Dline.maxLevel - l.level) ∈ Dline.Face l f := rfl
      exact hb this
    have hp' : p 0 = Dline.root.x.toNat + f * 2 ^ (Dline.maxLevel - Dline.root.level) := hp
    exact iff_of_true (show p 0 = _ by rw [hp', hx]) trivial
  | quad q =>
    have hfF : f = F := by
      have h := Standalone.face_number (M := 30) (f := F) (g := f) (Cube.Cls.quad.face_dim hF)
        (fun i => Cube.Cls.quad.desc_box Cube.Cls.quad.tree.valid_root (RTree.desc_root (T := Cube.Cls.quad.tree) he) i) hb
      exact h
    subst hfF
    obtain ⟨_, _, _, h4⟩ := Cube.C11_quad_extrude_boundary q he f hf hb
    cases hbb
    refine (h4 (to2 p) hp).trans ?_
    show (to2 p (if f / 2 = 0 then 1 else 0)) ∈ _ ↔ (if f / 2 = 0 then p 1 else p 0) ∈ _
    split <;> exact Iff.rfl
  | triangle t =>
    obtain ⟨_, _, _, h4⟩ := Simplex.C11_tri_extrude_boundary t he f F hf hF hb
    cases hbb
    exact h4 (to2 p) hp
  | hex h =>
    have hfF : f = F := by
      have h := Standalone.face_number (M := S.M) (f := F) (g := f) ((Cube.Cls.hex S.M S.hM).face_dim hF)
        (fun i => (Cube.Cls.hex S.M S.hM).desc_box (Cube.Cls.hex S.M S.hM).tree.valid_root
          (RTree.desc_root (T := (Cube.Cls.hex S.M S.hM).tree) he) i) hb
      exact h
    subst hfF
    obtain ⟨_, _, _, h4⟩ := Cube.C11_hex_extrude_boundary S.M S.hM h he f hf hb
    cases hbb
    refine (h4 p hp).trans ?_
    have : (fun k : Fin 2 => p (if k.val < f / 2 then k.castSucc else k.succ) * 2 ^ (30 - S.M)) =
        pair (faceCoord S .hex f p) := by
      have hf6 : f < 6 := hf
      funext k
      fin_cases k <;> simp only [pair, faceCoord] <;> interval_cases f <;> simp [Nat.mul_comm] <;> rfl
    rw [this]
    exact Iff.rfl
  | tet t =>
    obtain ⟨b', h1, _, _, _, h4⟩ := Simplex.C11_tet_extrude_boundary t he f F hf hF hb
    have : b = .triangle b' := by
      have : (Simplex.boundaryFaceTet t f).map Element.triangle = some b := hbb
      rw [h1] at this
      exact (Option.some.inj this).symm
    subst this
    refine (h4 p hp).trans ?_
    have : Simplex.faceMapTet F p = pair (faceCoord S .tet F p) := by
      funext k
      fin_cases k <;> rfl
    rw [this]
    exact Iff.rfl
  | prism x =>
    have hf5 : f < 5 := hf
    have hfF : f = F := (Prism.C10_prism_inside x he f hf).2.2 F hF hb
    subst hfF
    cases hbb
    by_cases h3 : f < 3
    · obtain ⟨q, h1, _, _, _, h4⟩ := Prism.C11_prism_quad_extrude_boundary x he f f h3 hF hb
      rw [h1]
      refine (h4 (to2 p, p 2) hp).trans ?_
      refine Iff.trans ?_ (quad_box q _).symm
      have : Prism.faceMap f (to2 p, p 2) = faceCoord S .prism f p := by
        simp only [Prism.faceMap, faceCoord, if_pos h3]
        rfl
      rw [this]; rfl
    · obtain ⟨t, h1, _, _, _, h4⟩ := Prism.C11_prism_tri_extrude_boundary x he f f hf (by omega) hF hb
      rw [h1]
      refine (h4 (to2 p, p 2) hp).trans ?_
      show _ ↔ pair (faceCoord S .prism f p) ∈ _
      rw [faceCoord, if_neg h3, pair_to2]
  | pyramid x =>
    have hF5 : F < 5 := hF
    cases hbb
    by_cases h3 : F < 4
    · obtain ⟨t, h1, _, _, _, h4⟩ := Pyramid.C11_pyramid_tri_extrude_boundary x he f F hf h3 hb
      rw [h1]
      refine (h4 p hp).trans ?_
      have : Pyramid.faceMapTri F p = pair (faceCoord S .pyramid F p) := by
        rw [faceCoord, if_pos h3]
        funext k
        fin_cases k <;> rfl
      rw [this]; rfl
    · have : F = 4 := by omega
      subst this
      obtain ⟨q, h1, _, _, _, h4⟩ := Pyramid.C11_pyramid_quad_extrude_boundary x he f hf hb
      rw [h1]
      refine (h4 p hp).trans ?_
      refine Iff.trans ?_ (quad_box q _).symm
      rfl

theorem root_valid (S : P4ests) (c : Eclass) : (rootOf c).Valid S ∧ (rootOf c).eclass = c ∧ (rootOf c).numFaces = c.numFaces ∧
    (c ≠ .vertex → ∀ F, (rootOf c).InRootFace S F F) := by
  cases c with
  | vertex => exact ⟨Nat.zero_le _, rfl, rfl, fun h => absurd rfl h⟩
  | line => exact ⟨Dline.tree.valid_root, rfl, rfl, fun _ _ => le_refl _⟩
  | quad => exact ⟨Cube.Cls.quad.tree.valid_root, rfl, rfl, fun _ _ => le_refl _⟩
  | triangle => exact ⟨(Simplex.tree .tri).valid_root, rfl, rfl, fun _ _ => le_refl _⟩
  | hex => exact ⟨(Cube.Cls.hex S.M S.hM).tree.valid_root, rfl, rfl, fun _ _ => le_refl _⟩
  | tet => exact ⟨(Simplex.tree .tet).valid_root, rfl, rfl, fun _ _ => le_refl _⟩
  | prism => exact ⟨Prism.tree.valid_root, rfl, rfl, fun _ _ => le_refl _⟩
  | pyramid => exact ⟨Pyramid.tree.valid_root, rfl, rfl, fun _ _ => le_refl _⟩

/-- The coordinates of points of a face of the tree are inside of the root of the class of the face. -/
theorem face_has {S : P4ests} {c b : Eclass} {F : Nat} (hF : F < c.numFaces) (ht : faceType c F = some b) {p : Fin 3 → Nat}
    (hp : (rootOf c).InFace S F p) : (rootOf b).Has (faceCoord S c F p) := by
  have hcv : c ≠ .vertex := by rintro rfl; exact absurd hF (by simp [Eclass.numFaces])
  obtain ⟨h1, h2, h3, h4⟩ := root_valid S c
  obtain ⟨b', k1, k2, k3, _⟩ := extrude_boundary h1 (f := F) (F := F) (by rw [h3]; exact hF) (by rw [h2]; exact hF) (h4 hcv F)
  rw [h2, ht] at k2
  have hb : b = b'.eclass := Option.some.inj k2
  have hh := (boundary_points h1 (f := F) (F := F) (by rw [h3]; exact hF) (by rw [h2]; exact hF) (h4 hcv F) k1 p
    (by rw [h2]; exact hp)).1 hp
  rw [h2] at hh
  subst hb
  cases b' with
  | line l =>
    have hv : Dline.Valid l := k3
    have hs := Dline.side_le hv
    obtain ⟨a1, a2⟩ := hh
    exact ⟨Nat.zero_le _, by show _ ≤ 0 + 2 ^ (30 - 0); have hm : Dline.maxLevel = 30 := rfl; rw [hm] at hs a2; omega⟩
  | quad q =>
    intro i
    have hs := Dline.side_le (e := ⟨q.coords i, q.level⟩) ⟨k3.1.1, k3.1.2 i⟩
    refine ⟨Nat.zero_le _, (hh i).2.trans (hs.trans (le_of_eq (by simp [Standalone.root, Standalone.side, Dline.maxLevel])))⟩
  | triangle t =>
    exact k3.2.2 hh
  | _ => trivial

/-- The transformation of the face elements moves the points by the symmetry. -/
theorem transform_points {S : P4ests} {b b' : Element} (hb : b.Valid S) {o : Nat} (ho : o < b.eclass.numVertices) {sign : Bool}
    (ht : b.transformFace o sign true = some b') {x x' : Nat × Nat} (hx : (rootOf b.eclass).Has x)
    (hxx : ((x'.1 : Int), (x'.2 : Int)) = symmetry b.eclass o sign ((x.1 : Int), (x.2 : Int))) : b.Has x ↔ b'.Has x' := by
  cases b with
  | vertex v => cases ht; exact Iff.rfl
  | line l =>
    cases ht
    have h := (Dline.C12_line l hb o).2.2.2.2 x.1 (hx.2.trans (le_of_eq (by decide)))
    refine h.trans ?_
    have hx2 : x.1 ≤ 2 ^ 30 := hx.2.trans (le_of_eq (by decide))
    have : x'.1 = if o = 0 then x.1 else 2 ^ Dline.maxLevel - x.1 := by
      have h1 : ((x'.1 : Nat) : Int) = if o = 0 then (x.1 : Int) else 2 ^ 30 - (x.1 : Int) := congrArg Prod.fst hxx
      have hm : Dline.maxLevel = 30 := rfl
      rw [hm]
      split_ifs at h1 ⊢ <;> omega
    rw [← this]; rfl
  | quad q =>
    obtain ⟨q', h1, h2⟩ := Option.map_eq_some_iff.1 ht
    subst h2
    exact Cube.C12_quad_symmetry true sign (Or.inl rfl) q q hb o ho q' h1 (pair x) (fun i => (hx i).2.trans (le_of_eq (by simp [Standalone.root, Standalone.side])))
      (pair x') hxx
  | triangle t =>
    cases ht
    exact Simplex.C12_tri_symmetry t hb o (by have : o < 3 := ho; omega) sign (pair x) (pair x') hx hxx
  | _ => cases ht

/-- The table of the face orientations contains the senses of rotation of the faces. -/
theorem orientation_sense {c : Eclass} (hc : c.dim = 3) {F : Nat} (hF : F < c.numFaces) :
    (faceOrientation c)[F]? = some (if 0 < sense c F then 0 else 1) := by
  have key : ∀ c ∈ [Eclass.hex, .tet, .prism, .pyramid], ∀ F ∈ List.range c.numFaces,
      (faceOrientation c)[F]? = some (if 0 < sense c F then 0 else 1) := by decide +kernel
  refine key c ?_ F (List.mem_range.2 hF)
  cases c <;> first | exact absurd hc (by decide) | decide

theorem symmetry_flip {c nc b : Eclass} {F F' : Nat} (hd : c.dim = nc.dim) (hF : F < c.numFaces) (hF' : F' < nc.numFaces)
    (ht : faceType c F = some b) {v1 v2 : Nat} (h1 : (faceOrientation c)[F]? = some v1) (h2 : (faceOrientation nc)[F']? = some v2)
    (o : Nat) : symmetry b o (v1 == v2) = symmetry b o (flip c F nc F') := by
  by_cases h3 : c.dim = 3
  · rw [orientation_sense h3 hF] at h1
    rw [orientation_sense (hd.symm.trans h3) hF'] at h2
    have e1 := Option.some.inj h1
    have e2 := Option.some.inj h2
    have : (v1 == v2) = flip c F nc F' := by
      rw [flip, ← e1, ← e2]
      by_cases a : 0 < sense c F <;> by_cases a' : 0 < sense nc F' <;> simp [a, a']
    rw [this]
  · have hb : b.dim ≤ 1 := by
      have := (faceType_vertices ht).2
      have : c.dim ≤ 3 := by cases c <;> decide
      omega
    cases b <;> first | rfl | exact absurd hb (by decide)

theorem isSmaller_main {c nc : Eclass} (hd : c.dim = nc.dim) {F F' : Nat} {s : Bool} (h : isSmaller c nc F F' = some s) :
    s = true ↔ Main c F nc F' := by
  by_cases hcc : c = nc
  · subst hcc
    have h0 : eclassCompare c c = some 0 := by cases c <;> rfl
    have : isSmaller c c F F' = some (decide ((F : Int) ≤ F')) := by rw [isSmaller, h0]; rfl
    rw [this] at h
    cases h
    simp [Main]
  · have : isSmaller c nc F F' = some (decide (rankOf c < rankOf nc)) := by
      revert hcc hd
      cases c <;> cases nc <;> intro hd hcc <;>
        first
        | exact absurd hd (by decide)
        | exact absurd rfl hcc
        | rfl
    rw [this] at h
    cases h
    simp [Main, hcc]

end T8.Neighbor
