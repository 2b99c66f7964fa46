/-
C10, C11, C13 and C14 for the prisms of the default scheme. There is no transformation of prisms at faces (C12); the
faces of prisms are triangles (`C12_tri`) and quads.
-/
import Verif.Props.Prism
import Verif.Props.SimplexFaces
import Verif.Spec.Face

namespace T8.Prism
open T8.RTree T8.Bits
open T8.Simplex (Cls)

/-! ### C10 -/

theorem tri_inside {e : Simplex.Elem 2} (he : Simplex.Valid .tri e) : Simplex.isInsideRoot .tri e = true :=
  (Simplex.isInsideRoot_iff (c := .tri) he.aligned.1.1 (fun i => (he.aligned.1.2 i).2) he.aligned.2).2 he

theorem line_in_root {e : Dline.Line} (he : Dline.Valid e) : Dline.isInsideRoot e = true := by
  have hx : e.x.toNat < 2 ^ 30 := he.2.1
  have h1 : e.x.toInt = e.x.toNat := by rw [BitVec.toInt_eq_toNat_of_lt]; omega
  have h2 : Dline.rootLen.toInt = 2 ^ 30 := by decide
  rw [Dline.isInsideRoot, decide_eq_true_iff, h1, h2]
  constructor
  · omega
  · exact_mod_cast hx

/-- The neighbor of a prism comes from the neighbor of the triangle or of the line. -/
theorem neighbor_eq {e : Prism} (he : Valid e) {f : Nat} (hf : f < 5) : faceNeighborInside e f =
    if f < 3 then (Simplex.faceNeighborInside .tri e.1 f).map (fun r => ((r.1, e.2), r.2))
    else (Dline.faceNeighborInside e.2 (f - 3)).map (fun r => ((e.1, r.1), r.2 + 3)) := by
  have h1 := tri_inside he.1
  have h2 := line_in_root he.2.1
  by_cases h3 : f < 3
  · rw [if_pos h3]
    have hn : faceNeighbour e f = (((Simplex.faceNeighbour .tri e.1 f).1, e.2), 2 - f) := by rw [faceNeighbour, if_pos h3]
    rw [faceNeighborInside, hn, isInsideRoot]
    show (if (Simplex.isInsideRoot .tri (Simplex.faceNeighbour .tri e.1 f).1 && Dline.isInsideRoot e.2) = true then _ else _) = _
    rw [h2, Bool.and_true, Simplex.faceNeighborInside]
    by_cases hi : Simplex.isInsideRoot .tri (Simplex.faceNeighbour .tri e.1 f).1 = true
    · rw [if_pos hi, if_pos hi]; rfl
    · rw [if_neg hi, if_neg hi]; rfl
  · rw [if_neg h3]
    have hn : faceNeighbour e f = ((e.1, (Dline.faceNeighbour e.2 (f - 3)).1), (Dline.faceNeighbour e.2 (f - 3)).2 + 3) := by
      have : f = 3 ∨ f = 4 := by omega
      rcases this with rfl | rfl <;> rfl
    rw [faceNeighborInside, hn, isInsideRoot]
    show (if (Simplex.isInsideRoot .tri e.1 && Dline.isInsideRoot (Dline.faceNeighbour e.2 (f - 3)).1) = true then _ else _) = _
    rw [h1, Bool.true_and, Dline.faceNeighborInside]
    by_cases hi : Dline.isInsideRoot (Dline.faceNeighbour e.2 (f - 3)).1 = true
    · rw [if_pos hi, if_pos hi]; rfl
    · rw [if_neg hi, if_neg hi]; rfl

/-- C10. If the neighbor across face `f` is inside of the tree, it is another element of the same level with the same
face, and the neighbor relation is mutual. -/
theorem C10_prism_mutual (e : Prism) (he : Valid e) (f : Nat) (hf : f < numFaces) (n : Prism) (g : Nat)
    (hn : faceNeighborInside e f = some (n, g)) :
    Valid n ∧ level n = level e ∧ n ≠ e ∧ g < numFaces ∧ Face n g = Face e f ∧ faceNeighborInside n g = some (e, f) := by
  have hf' : f < 5 := hf
  rw [neighbor_eq he hf] at hn
  by_cases h3 : f < 3
  · rw [if_pos h3, Option.map_eq_some_iff] at hn
    obtain ⟨⟨m, g'⟩, hm, hmn⟩ := hn
    simp only [Prod.mk.injEq] at hmn
    obtain ⟨rfl, rfl⟩ := hmn
    obtain ⟨a1, a2, a3, a4, a5, a6⟩ := Simplex.C10_simplex_mutual .tri e.1 he.1 f h3 m g' hm
    have a4' : g' < 3 := a4
    have vn : Valid (m, e.2) := ⟨a1, he.2.1, a2.trans he.2.2.1, he.2.2.2⟩
    refine ⟨vn, rfl, fun h => a3 (congrArg Prod.fst h), by show g' < 5; omega, ?_, ?_⟩
    · rw [face_lt a4', face_lt h3, a5]
    · rw [neighbor_eq vn (by omega), if_pos a4', a6]; rfl
  · rw [if_neg h3, Option.map_eq_some_iff] at hn
    obtain ⟨⟨m, g'⟩, hm, hmn⟩ := hn
    simp only [Prod.mk.injEq] at hmn
    obtain ⟨rfl, rfl⟩ := hmn
    obtain ⟨a1, a2, a3, a4, a5, a6⟩ := Dline.C10_line_mutual e.2 he.2.1 (f - 3) (by show _ < 2; omega) m g' hm
    have a4' : g' < 2 := a4
    have vn : Valid (e.1, m) := ⟨he.1, a1, he.2.2.1.trans a2.symm, by show m.level ≤ _; rw [a2]; exact he.2.2.2⟩
    refine ⟨vn, a2, fun h => a3 (congrArg Prod.snd h), by show g' + 3 < 5; omega, ?_, ?_⟩
    · rw [face_ge (by omega), face_ge (by omega), Nat.add_sub_cancel, a5]
    · rw [neighbor_eq vn (by omega), if_neg (by omega), Nat.add_sub_cancel, a6]
      show some ((e.1, e.2), f - 3 + 3) = _
      rw [Nat.sub_add_cancel (by omega)]

/-- Faces in the faces of the root. -/
theorem root_face_iff {e : Prism} (he : Valid e) {f g : Nat} (hf : f < 5) (hg : g < 5) : Face e f ⊆ Face root g ↔
    (f < 3 ∧ g < 3 ∧ Simplex.Face .tri e.1 f ⊆ Simplex.Face .tri (Simplex.root .tri) g) ∨
    (3 ≤ f ∧ 3 ≤ g ∧ Dline.Face e.2 (f - 3) ⊆ Dline.Face Dline.root (g - 3)) := by
  have h := inFace_iff (f := g) (g := f) valid_root (desc_root (T := tree) he)
  constructor
  · intro hs
    rcases h.1 ⟨hf, hg, hs⟩ with ⟨a1, a2, a3⟩ | ⟨a1, a2, a3⟩
    · exact Or.inl ⟨a1, a2, a3.2.2⟩
    · exact Or.inr ⟨a1, a2, a3.2.2⟩
  · rintro (⟨a1, a2, a3⟩ | ⟨a1, a2, a3⟩)
    · exact (h.2 (Or.inl ⟨a1, a2, a1, a2, a3⟩)).2.2
    · exact (h.2 (Or.inr ⟨a1, a2, by show _ < 2; omega, by show _ < 2; omega, a3⟩)).2.2

/-- C10. There is a neighbor inside of the tree exactly if the face is not part of a face of the root, which is what
`element_is_root_boundary` tests, and `element_get_tree_face` is the number of this face of the root. -/
theorem C10_prism_inside (e : Prism) (he : Valid e) (f : Nat) (hf : f < numFaces) :
    (faceNeighborInside e f = none ↔ ∃ g, g < numFaces ∧ Face e f ⊆ Face root g) ∧
    (isRootBoundary e f = true ↔ ∃ g, g < numFaces ∧ Face e f ⊆ Face root g) ∧
    ∀ g, g < numFaces → Face e f ⊆ Face root g → treeFace f = g := by
  have hf' : f < 5 := hf
  by_cases h3 : f < 3
  · have h := Simplex.C10_simplex_inside .tri e.1 he.1 f h3
    have key : (∃ g, g < numFaces ∧ Face e f ⊆ Face root g) ↔
        ∃ g, g < Cls.tri.numFaces ∧ Simplex.Face .tri e.1 f ⊆ Simplex.Face .tri (Simplex.root .tri) g := by
      constructor
      · rintro ⟨g, hg, hs⟩
        rcases (root_face_iff he hf' hg).1 hs with ⟨_, a2, a3⟩ | ⟨a1, _, _⟩
        · exact ⟨g, a2, a3⟩
        · omega
      · rintro ⟨g, hg, hs⟩
        have hg' : g < 3 := hg
        exact ⟨g, by show g < 5; omega, (root_face_iff he hf' (by omega)).2 (Or.inl ⟨h3, hg, hs⟩)⟩
    rw [key, neighbor_eq he hf', if_pos h3, Option.map_eq_none_iff]
    refine ⟨h.1, ?_, ?_⟩
    · rw [isRootBoundary, if_pos h3]; exact h.2.1
    · intro g hg hs
      rcases (root_face_iff he hf' hg).1 hs with ⟨_, a2, a3⟩ | ⟨a1, _, _⟩
      · have : ((f : Nat) : Int) = g := h.2.2 g a2 a3
        show f = g
        omega
      · omega
  · have h := Dline.C10_line_inside e.2 he.2.1 (f - 3) (by show _ < 2; omega)
    have key : (∃ g, g < numFaces ∧ Face e f ⊆ Face root g) ↔ Dline.Face e.2 (f - 3) ⊆ Dline.Face Dline.root (f - 3) := by
      constructor
      · rintro ⟨g, hg, hs⟩
        have hg' : g < 5 := hg
        rcases (root_face_iff he hf' hg).1 hs with ⟨a1, _, _⟩ | ⟨_, a2, a3⟩
        · omega
        · have : f - 3 = g - 3 := h.2.2 (g - 3) (by show _ < 2; omega) a3
          rw [← this] at a3
          exact a3
      · intro hs
        exact ⟨f, hf, (root_face_iff he hf' hf').2 (Or.inr ⟨by omega, by omega, hs⟩)⟩
    rw [key, neighbor_eq he hf', if_neg h3, Option.map_eq_none_iff]
    refine ⟨h.1, ?_, ?_⟩
    · rw [isRootBoundary, if_neg h3, show (if f ≠ 3 then 1 else 0) = f - 3 by split <;> omega]; exact h.2.1
    · intro g hg hs
      have hg' : g < 5 := hg
      rcases (root_face_iff he hf' hg).1 hs with ⟨a1, _, _⟩ | ⟨_, a2, a3⟩
      · omega
      · have : f - 3 = g - 3 := h.2.2 (g - 3) (by show _ < 2; omega) a3
        show f = g
        omega

theorem tri_eq_of_points {e y : Simplex.Elem 2} (he : Simplex.Valid .tri e) (hy : Simplex.Valid .tri y)
    (hl : y.level = e.level) (h : Simplex.Points .tri e ⊆ Simplex.Points .tri y) : y = e := by
  have hu := fun f (hf : f < 3) => Simplex.face_points_unique (c := .tri) he.aligned hy.aligned hl (f := f) hf
    ((Simplex.face_sub_points (c := .tri) e f).trans h)
  rcases hu 0 (by omega) with h0 | h0
  · exact h0
  rcases hu 1 (by omega) with h1 | h1
  · exact h1
  exfalso
  rw [h0] at h1
  have h2 := congrArg (fun z : Simplex.Elem 2 => z.x (if e.type = 0 then 0 else 1)) h1
  have ht : e.type = 0 ∨ e.type = 1 := by have : e.type < 2 := he.aligned.2; omega
  have hlen : (Simplex.len .tri e.level).toNat = Simplex.size .tri e.level := Simplex.len_toNat (c := .tri) e.level
  have hp : 0 < Simplex.size .tri e.level := Simplex.size_pos .tri e.level
  have hx : ∀ i : Fin 2, e.x i + Simplex.len .tri e.level ≠ e.x i := by
    intro i hi
    have : Simplex.len .tri e.level = 0 := by simpa using hi
    rw [this] at hlen
    simp at hlen
    omega
  rcases ht with ht | ht
  · apply hx 0
    simpa [Simplex.faceNeighbour, Simplex.addAt, Simplex.subAt, ht] using h2
  · apply hx 1
    simpa [Simplex.faceNeighbour, Simplex.addAt, Simplex.subAt, ht] using h2

theorem line_eq_of_points {e y : Dline.Line} (hl : y.level = e.level) (h : Dline.Points e ⊆ Dline.Points y) : y = e := by
  have h1 := (@h e.x.toNat ⟨le_refl _, Nat.le_add_right _ _⟩).1
  have h2 := (@h (e.x.toNat + 2 ^ (30 - e.level)) ⟨Nat.le_add_right _ _, le_refl _⟩).2
  rw [hl] at h2
  have h2' : e.x.toNat + 2 ^ (30 - e.level) ≤ y.x.toNat + 2 ^ (30 - e.level) := h2
  have hx : y.x = e.x := BitVec.eq_of_toNat_eq (by omega)
  cases y; cases e
  simp_all

/-- C10. The neighbor is the only other element of the level that contains the face. -/
theorem C10_prism_unique (e y : Prism) (he : Valid e) (hy : Valid y) (f : Nat) (hf : f < numFaces)
    (hl : level y = level e) (hne : y ≠ e) (hsub : Face e f ⊆ Points y) : ∃ g, faceNeighborInside e f = some (y, g) := by
  have hf' : f < 5 := hf
  have hl1 : y.1.level = e.1.level := (tri_level hy).trans (hl.trans (tri_level he).symm)
  rw [neighbor_eq he hf']
  by_cases h3 : f < 3
  · rw [face_lt h3, Points, prod_subset (tri_face_nonempty he.1 h3) (line_points_nonempty _)] at hsub
    have h2 := line_eq_of_points (e := e.2) (y := y.2) hl hsub.2
    obtain ⟨g, hg⟩ := Simplex.C10_simplex_unique .tri e.1 y.1 he.1 hy.1 f h3 hl1
      (fun h => hne (Prod.ext h h2)) hsub.1
    exact ⟨g, by rw [if_pos h3, hg, ← h2]; rfl⟩
  · rw [face_ge (by omega), Points, prod_subset (tri_points_nonempty he.1) (line_face_nonempty _ _)] at hsub
    have h1 := tri_eq_of_points he.1 hy.1 hl1 hsub.1
    have hg := Dline.C10_line_unique e.2 y.2 he.2.1 hy.2.1 (f - 3) (by show _ < 2; omega) hl
      (fun h => hne (Prod.ext h1 h)) hsub.2
    exact ⟨1 - (f - 3) + 3, by rw [if_neg h3, hg, ← h1]; rfl⟩

example : Valid sample ∧ (faceNeighborInside sample 1).isSome ∧ (faceNeighborInside sample 4).isSome ∧
    faceNeighborInside (child root 0) 3 = none ∧ faceNeighborInside (child root 0) 2 = none := ⟨sample_valid, by decide +kernel⟩

/-! ### C11 -/

theorem rescale_up {x : BitVec 32} (hx : x.toNat < 2 ^ 29) : Simplex.rescale 30 29 x = x * BitVec.twoPow 32 1 := by
  have h1 : (BitVec.twoPow 64 30).toNat = 2 ^ 30 := by decide
  have h2 : (BitVec.twoPow 64 29).toNat = 2 ^ 29 := by decide
  apply BitVec.eq_of_toNat_eq
  rw [Simplex.mul_ratio (by decide) (by omega), Simplex.rescale, BitVec.toNat_setWidth, BitVec.toNat_udiv, BitVec.toNat_mul,
    BitVec.toNat_setWidth, h1, h2, Nat.mod_eq_of_lt (by omega : x.toNat < 2 ^ 64)]
  clear * - hx
  omega

theorem rescale_self {x : BitVec 32} (hx : x.toNat < 2 ^ 31) : Simplex.rescale 30 30 x = x := by
  apply BitVec.eq_of_toNat_eq
  rw [Simplex.rescale_toNat (le_refl _) (le_refl _) hx, Nat.sub_self, Nat.pow_zero, Nat.div_one]

/-- Extruding a quad is extruding a line for the triangle. -/
theorem extrudeQuad_eq {q : Quad} (hy : q.y.toNat < 2 ^ 31) (g : Nat) :
    extrudeQuad q g = ((Simplex.extrudeFaceTri ⟨q.x, q.level⟩ g).1, ⟨q.y, q.level⟩) := by
  unfold extrudeQuad Simplex.extrudeFaceTri
  have := rescale_self hy
  rw [show Simplex.rescale Dline.maxLevel quadRootLevel q.y = q.y from this]
  by_cases h0 : g = 0
  · simp only [if_pos h0]
  · by_cases h1 : g = 1
    · simp only [if_neg h0, if_pos h1]
    · simp only [if_neg h0, if_neg h1]

theorem extrudeTri_type (b : Dline.Line) (g : Nat) : (Simplex.extrudeFaceTri b g).1.type = 0 ∧
    (Simplex.extrudeFaceTri b g).2 = some g := by
  have h : (Simplex.extrudeFaceTri b g).1.type = 0 := by
    simp only [Simplex.extrudeFaceTri]; split_ifs <;> rfl
  exact ⟨h, by
    show Simplex.rootFaceToFace .tri (Simplex.extrudeFaceTri b g).1 g = _
    rw [Simplex.rootFaceToFace, if_pos h]⟩

/-- The quad at a face comes from the line at the face of the triangle. -/
theorem boundaryQuad_eq {e : Prism} (he : Valid e) {f : Nat} (hf : f < 3) (ht : e.1.type = 0) :
    boundaryFace e f = .quad ⟨(Simplex.boundaryFaceTri e.1 f).x, e.2.x, e.1.level⟩ := by
  have hx : ∀ i, (e.1.x i).toNat < 2 ^ 29 := fun i => (he.1.1.2 i).1
  have hy : e.2.x.toNat < 2 ^ 30 := he.2.1.2.1
  unfold boundaryFace
  simp only
  rw [show Simplex.rescale quadRootLevel Dline.maxLevel e.2.x = e.2.x from rescale_self (by omega), if_neg (by omega)]
  unfold Simplex.boundaryFaceTri
  by_cases h0 : f = 0
  · rw [if_pos h0, if_pos (Or.inl ⟨h0, ht⟩), show Simplex.rescale quadRootLevel Cls.tri.maxLevel (e.1.x 1) = _ from rescale_up (hx 1)]
    rfl
  · rw [if_neg h0, if_neg (by rw [ht]; omega), show Simplex.rescale quadRootLevel Cls.tri.maxLevel (e.1.x 0) = _ from rescale_up (hx 0)]
    rfl

/-- C11 for the faces 0 to 2. The quad at a face at the boundary of the root consists of the points of the face;
extruding it gives back the element and the face number. -/
theorem C11_prism_quad_extrude_boundary (e : Prism) (he : Valid e) (f g : Nat) (hf : f < 3) (hg : g < numFaces)
    (hb : Face e f ⊆ Face root g) : ∃ q, boundaryFace e f = .quad q ∧ q.Valid ∧ q.level = level e ∧
    extrudeFace (.quad q) g = some (e, f) ∧ ∀ p ∈ Face root g, (p ∈ Face e f ↔ faceMap g p ∈ q.Points) := by
  rcases (root_face_iff he (by omega) hg).1 hb with ⟨_, hg3, hs⟩ | ⟨h, _, _⟩
  swap
  · omega
  obtain ⟨a1, a2, a3, a4⟩ := Simplex.C11_tri_extrude_boundary e.1 he.1 f g hf hg3 hs
  have htype := extrudeTri_type (Simplex.boundaryFaceTri e.1 f) g
  rw [a3] at htype
  obtain ⟨ht, hfg⟩ := htype
  have hy : e.2.x.toNat < 2 ^ 30 := he.2.1.2.1
  have hle : e.1.level = e.2.level := he.2.2.1
  have hfg' : f = g := Option.some.inj hfg
  have hline : (⟨(Simplex.boundaryFaceTri e.1 f).x, e.1.level⟩ : Dline.Line) = Simplex.boundaryFaceTri e.1 f := by rw [← a2]
  refine ⟨_, boundaryQuad_eq he hf ht, ⟨?_, ?_, ?_⟩, hle, ?_, ?_⟩
  · show e.1.level ≤ 30
    have : e.2.level ≤ 21 := he.2.2.2
    omega
  · have h1 := a1.2
    rw [a2] at h1
    exact h1
  · show _ ∧ 2 ^ (30 - e.1.level) ∣ _
    rw [hle]
    exact he.2.1.2
  · rw [extrudeFace, if_pos hg3, extrudeQuad_eq (by show e.2.x.toNat < 2 ^ 31; omega)]
    show some (((Simplex.extrudeFaceTri ⟨(Simplex.boundaryFaceTri e.1 f).x, e.1.level⟩ g).1,
      (⟨e.2.x, e.1.level⟩ : Dline.Line)), g) = _
    rw [hline, a3, hle, ← hfg']
  · intro p hp
    rw [face_lt hg3] at hp
    have h1 := a4 p.1 hp.1
    rw [face_lt hf]
    show p.1 ∈ _ ∧ p.2 ∈ _ ↔ _
    rw [h1]
    show (_ ∧ _) ∧ (_ ∧ _) ↔ (_ ∧ _) ∧ (_ ∧ _)
    rw [a2, hle]
    rfl

/-- C11 for the faces 0 to 2. Extruding a quad gives a prism at the face of the root, whose face is the quad. Quads of a
level greater than 21 have no prism. -/
theorem C11_prism_quad_boundary_extrude (q : Quad) (hq : q.Valid) (hl : q.level ≤ maxLevel) (g : Nat) (hg : g < 3) :
    ∃ e, extrudeFace (.quad q) g = some (e, g) ∧ Valid e ∧ level e = q.level ∧ Face e g ⊆ Face root g ∧
      boundaryFace e g = .quad q := by
  have hl' : q.level ≤ 21 := hl
  have hy : q.y.toNat < 2 ^ 30 := hq.2.2.1
  obtain ⟨t, b1, b2, b3, b4, b5⟩ := Simplex.C11_tri_boundary_extrude ⟨q.x, q.level⟩ ⟨hq.1, hq.2.1⟩
    (by show q.level ≤ 29; omega) g hg
  have ht : t.type = 0 := by have := (extrudeTri_type ⟨q.x, q.level⟩ g).1; rw [b1] at this; exact this
  have b3' : t.level = q.level := b3
  have ve : Valid (t, (⟨q.y, q.level⟩ : Dline.Line)) := ⟨b2, ⟨hq.1, hq.2.2⟩, b3', hl⟩
  refine ⟨(t, ⟨q.y, q.level⟩), ?_, ve, rfl, ?_, ?_⟩
  · rw [extrudeFace, if_pos hg, extrudeQuad_eq (by omega), b1]
  · exact (root_face_iff ve (by omega) (by omega)).2 (Or.inl ⟨hg, hg, b4⟩)
  · rw [boundaryQuad_eq ve hg ht, b5, b3']

/-- C11 for the faces 3 and 4. The triangle at a face at the boundary of the root consists of the points of the face;
extruding it gives back the element and the face number. -/
theorem C11_prism_tri_extrude_boundary (e : Prism) (he : Valid e) (f g : Nat) (hf : f < numFaces) (h3 : 3 ≤ f)
    (hg : g < numFaces) (hb : Face e f ⊆ Face root g) : ∃ t, boundaryFace e f = .tri t ∧ Simplex.Valid .tri t ∧
    t.level = level e ∧ extrudeFace (.tri t) g = some (e, f) ∧
    ∀ p ∈ Face root g, (p ∈ Face e f ↔ p.1 ∈ Simplex.Points .tri t) := by
  have hf' : f < 5 := hf
  have hg' : g < 5 := hg
  rcases (root_face_iff he hf hg).1 hb with ⟨h, _, _⟩ | ⟨_, hg3, hs⟩
  · omega
  have hin := Dline.C10_line_inside e.2 he.2.1 (f - 3) (by show _ < 2; omega)
  have hfg : f = g := by
    have : f - 3 = g - 3 := hin.2.2 (g - 3) (by show _ < 2; omega) hs
    omega
  subst hfg
  refine ⟨e.1, by unfold boundaryFace; rw [if_pos h3], he.1, tri_level he, ?_, ?_⟩
  · rw [extrudeFace, if_pos h3, extrudeTri]
    have hbd : Dline.isRootBoundary e.2 (f - 3) = true := hin.2.1.2 hs
    have hle : e.1.level = e.2.level := he.2.2.1
    congr 2
    refine Prod.ext rfl ?_
    rw [hle]
    unfold Dline.isRootBoundary at hbd
    have : f = 3 ∨ f = 4 := by omega
    rcases this with rfl | rfl
    · rw [if_pos rfl, beq_iff_eq] at hbd
      rw [if_pos rfl, ← hbd]
    · rw [if_neg (by omega), beq_iff_eq] at hbd
      rw [if_neg (by omega), ← hbd]
  · intro p hp
    rw [face_ge h3] at hp ⊢
    constructor
    · rintro ⟨h1, _⟩; exact h1
    · intro h1
      refine ⟨h1, ?_⟩
      obtain ⟨r, hr⟩ := line_face_nonempty e.2 (f - 3)
      have hr' := hs hr
      have h2 : p.2 = r := (show p.2 = _ from hp.2).trans (show r = _ from hr').symm
      rw [h2]
      exact hr

/-- C11 for the faces 3 and 4. Extruding a triangle gives a prism at the face of the root, whose face is the triangle. -/
theorem C11_prism_tri_boundary_extrude (t : Simplex.Elem 2) (ht : Simplex.Valid .tri t) (hl : t.level ≤ maxLevel) (g : Nat)
    (hg : g < numFaces) (h3 : 3 ≤ g) : ∃ e, extrudeFace (.tri t) g = some (e, g) ∧ Valid e ∧ level e = t.level ∧
      Face e g ⊆ Face root g ∧ boundaryFace e g = .tri t := by
  have hg' : g < 5 := hg
  have hl' : t.level ≤ 21 := hl
  have h := Dline.C11_line_boundary_extrude ⟨t.level⟩ (by show t.level ≤ 30; omega) (g - 3) (by show _ < 2; omega)
  have heq : (extrudeTri t g).2 = (Dline.extrudeFace ⟨t.level⟩ (g - 3)).1 := by
    have : g = 3 ∨ g = 4 := by omega
    rcases this with rfl | rfl <;> rfl
  have ve : Valid (extrudeTri t g) := ⟨ht, by rw [heq]; exact h.1, rfl, hl⟩
  refine ⟨extrudeTri t g, by rw [extrudeFace, if_pos h3], ve, rfl, ?_, by unfold boundaryFace; rw [if_pos h3]; rfl⟩
  refine (root_face_iff ve hg' hg').2 (Or.inr ⟨h3, h3, ?_⟩)
  rw [heq]
  exact h.2.2.2.1

example : Face (child root 0) 1 ⊆ Face root 1 := by
  have hv : Valid (child root 0) := valid_child valid_root (by decide) (by decide)
  have h := (C10_prism_inside (child root 0) hv 1 (by decide)).2
  obtain ⟨g, hg, hs⟩ := h.1.1 (by decide +kernel)
  have := h.2 g hg hs
  rw [← this] at hs
  exact hs

example : Quad.Valid ⟨2 ^ 29, 0, 1⟩ := by unfold Quad.Valid; decide

/-! ### C13 -/

/-- C13. The child indices at a face, in ascending order without duplicates, are exactly those of the children that
have a face inside of the face of the element, and `element_face_get_child_face` gives the number of this face. -/
theorem C13_prism_children (e : Prism) (he : Valid e) (hl : level e < maxLevel) (f : Nat) (hf : f < numFaces) :
    (childIdsAtFace e f).Pairwise (· < ·) ∧ (childIdsAtFace e f).length = numFaceChildren f ∧
    (∀ i, i ∈ childIdsAtFace e f ↔ i < numChildren ∧ ∃ g, g < numFaces ∧ Face (child e i) g ⊆ Face e f) ∧
    childrenAtFace e f = (childIdsAtFace e f).map (child e) ∧
    (∀ i ∈ childIdsAtFace e f, ∀ g, g < numFaces → (Face (child e i) g ⊆ Face e f ↔ g = faceChildFace f)) := by
  have hf' : f < 5 := hf
  have key : ∀ i ∈ childIdsAtFace e f, ∀ g, g < numFaces → (Face (child e i) g ⊆ Face e f ↔ g = faceChildFace f) := by
    intro i hi g hg
    have h8 := ((ids_mem he hl hf i).1 hi).1
    have hc := childFace_eq he hl hf hi
    constructor
    · intro h
      exact InFace.unique he (show tree.Desc e (child e i) from Desc.child_self (T := tree) hl h8) ⟨hg, hf, h⟩ hc
    · rintro rfl
      exact hc.2.2
  refine ⟨?_, ?_, fun i => ?_, rfl, key⟩
  · rw [ids_eq he hf]
    split
    · next h =>
      have ht := Simplex.ids_table .tri e.1.type he.1.aligned.2 f (by show f ≤ 2; omega)
      rw [Simplex.idsOf_eq (c := .tri), List.pairwise_append, List.pairwise_map]
      refine ⟨ht.1, ht.1.imp fun h => by omega, fun a ha b hb => ?_⟩
      obtain ⟨j, _, rfl⟩ := List.mem_map.1 hb
      have : a < 4 := ht.2.2.1 a ha
      omega
    · simp
  · rw [ids_eq he hf, numFaceChildren]
    split
    · next h =>
      have ht := Simplex.ids_table .tri e.1.type he.1.aligned.2 f (by show f ≤ 2; omega)
      rw [Simplex.idsOf_eq (c := .tri), List.length_append, List.length_map, ht.2.1, if_neg (by omega)]
      rfl
    · next h => rw [if_pos (by omega)]; rfl
  · rw [ids_mem he hl hf]
    refine and_congr_right fun _ => exists_congr fun g => ?_
    constructor
    · rintro ⟨h1, _, h3⟩; exact ⟨h1, h3⟩
    · rintro ⟨h1, h3⟩; exact ⟨h1, hf, h3⟩

theorem tri_parent_face {e : Simplex.Elem 2} {f g : Nat} (h : Simplex.faceParentFace .tri e f = some g) : g = f := by
  simp only [Simplex.faceParentFace] at h
  split_ifs at h <;> exact (Option.some.inj h).symm

theorem line_parent_face {e : Dline.Line} {f g : Nat} (h : Dline.faceParentFace e f = some g) : g = f := by
  simp only [Dline.faceParentFace] at h
  split_ifs at h <;> exact (Option.some.inj h).symm

/-- C13. `element_face_get_parent_face` returns the number of the face of the parent that contains the face, no number
if there is none, and for the root the face itself. -/
theorem C13_prism_parent_face (e : Prism) (he : Valid e) (f : Nat) (hf : f < numFaces) (g : Nat) :
    (0 < level e → (faceParentFace e f = some g ↔ g < numFaces ∧ Face e f ⊆ Face (parent e) g)) ∧
    (level e = 0 → faceParentFace e f = some f) := by
  have hf' : f < 5 := hf
  constructor
  · intro hl
    have hl1 : 0 < e.1.level := by rw [tri_level he]; exact hl
    have vp := valid_parent he hl
    have hd : tree.Desc (parent e) e := by
      have h1 := tree.child_parent e he hl
      have h2 := Desc.child_self (T := tree) (a := parent e) (i := tree.childId e)
        (by have := tree.level_parent e he hl; have h3 : e.2.level ≤ 21 := he.2.2.2
            show (parent e).2.level < 21
            replace this : (parent e).2.level + 1 = e.2.level := this
            omega) (tree.childId_lt e he hl)
      rw [show tree.child (parent e) (tree.childId e) = e from h1] at h2
      exact h2
    have hin := inFace_iff (g := f) (f := g) vp hd
    have hiff : g < numFaces ∧ Face e f ⊆ Face (parent e) g ↔ InFace e f (parent e) g :=
      ⟨fun h => ⟨hf, h.1, h.2⟩, fun h => h.2⟩
    rw [hiff, hin]
    unfold faceParentFace
    by_cases h3 : f < 3
    · have hs := fun k => (Simplex.C13_simplex_parent_face .tri e.1 he.1 f h3 k).1 hl1
      by_cases hn : Simplex.faceParentFace .tri e.1 f = none
      · rw [if_neg (fun h => h.2 hn), if_neg (fun h => by omega)]
        simp only [reduceCtorEq, false_iff]
        rintro (⟨_, a2, a3⟩ | ⟨a1, _, _⟩)
        · have := (hs g).2 ⟨a3.2.1, a3.2.2⟩
          rw [hn] at this
          cases this
        · omega
      · rw [if_pos ⟨h3, hn⟩]
        obtain ⟨k, hk⟩ := Option.ne_none_iff_exists'.1 hn
        have hkf := tri_parent_face hk
        subst hkf
        constructor
        · intro h
          have := Option.some.inj h
          subst this
          exact Or.inl ⟨h3, h3, h3, (hs k).1 hk⟩
        · rintro (⟨_, a2, a3⟩ | ⟨a1, _, _⟩)
          · have := (hs g).2 ⟨a3.2.1, a3.2.2⟩
            rw [hk] at this
            exact this
          · omega
    · have hs := fun k => (Dline.C13_line_parent_face e.2 he.2.1 (f - 3) (by show _ < 2; omega) k).1 hl
      by_cases hn : Dline.faceParentFace e.2 (f - 3) = none
      · rw [if_neg (fun h => h3 h.1), if_neg (fun h => h.2 hn)]
        simp only [reduceCtorEq, false_iff]
        rintro (⟨a1, _, _⟩ | ⟨_, a2, a3⟩)
        · omega
        · have := (hs (g - 3)).2 ⟨a3.2.1, a3.2.2⟩
          rw [hn] at this
          cases this
      · rw [if_neg (fun h => h3 h.1), if_pos ⟨by omega, hn⟩]
        obtain ⟨k, hk⟩ := Option.ne_none_iff_exists'.1 hn
        have hkf := line_parent_face hk
        constructor
        · intro h
          have := Option.some.inj h
          subst this
          subst hkf
          exact Or.inr ⟨by omega, by omega, by show _ < 2; omega, (hs (f - 3)).1 hk⟩
        · rintro (⟨a1, _, _⟩ | ⟨_, a2, a3⟩)
          · omega
          · have := (hs (g - 3)).2 ⟨a3.2.1, a3.2.2⟩
            have := line_parent_face this
            congr 1
            omega
  · intro hl
    have hl1 : e.1.level = 0 := by rw [tri_level he]; exact hl
    have hl2 : e.2.level = 0 := hl
    unfold faceParentFace
    by_cases h3 : f < 3
    · rw [if_pos ⟨h3, by rw [Simplex.faceParentFace, if_pos hl1]; exact Option.some_ne_none _⟩]
    · rw [if_neg (fun h => h3 h.1), if_pos ⟨by omega, by rw [Dline.faceParentFace, if_pos hl2]; exact Option.some_ne_none _⟩]

example : Valid sample ∧ level sample < maxLevel ∧ 0 < level sample ∧ childIdsAtFace sample 1 = [0, 3, 4, 7] ∧
    childIdsAtFace sample 4 = [4, 5, 6, 7] ∧ (∃ f < 5, (faceParentFace sample f).isSome) := ⟨sample_valid, by decide +kernel⟩

/-! ### C14 -/

/-- C14. First and last descendant at a face: descendants of the level with a face in the face, and all others of this
kind lie behind and before. -/
theorem C14_prism (e : Prism) (he : Valid e) (f : Nat) (hf : f < numFaces) (L : Nat) (hL : level e ≤ L)
    (hLM : L ≤ maxLevel) : ∃ a b, firstDescendantFace e f L = some a ∧ lastDescendantFace e f L = some b ∧
    (tree.Desc e a ∧ level a = L ∧ ∃ g, g < numFaces ∧ Face a g ⊆ Face e f) ∧
    (tree.Desc e b ∧ level b = L ∧ ∃ g, g < numFaces ∧ Face b g ⊆ Face e f) ∧
    ∀ x g, tree.Desc e x → level x = L → g < numFaces → Face x g ⊆ Face e f →
      (x = a ∨ tree.Before a x) ∧ (x = b ∨ tree.Before x b) := by
  obtain ⟨a, a1, a2, a3, ⟨g, a4⟩, a5⟩ := firstDescendantFace_spec he hf hL hLM
  obtain ⟨b, b1, b2, b3, ⟨g', b4⟩, b5⟩ := lastDescendantFace_spec he hf hL hLM
  exact ⟨a, b, a1, b1, ⟨a2, a3, g, a4.1, a4.2.2⟩, ⟨b2, b3, g', b4.1, b4.2.2⟩,
    fun x g hd hx hg h => ⟨a5 x g hd hx ⟨hg, hf, h⟩, b5 x g hd hx ⟨hg, hf, h⟩⟩⟩

example : firstDescendantFace sample 0 5 ≠ lastDescendantFace sample 0 5 ∧ level sample ≤ 5 := by decide +kernel

/-! ### The face functions as the forest algorithms use them -/

/-- The face functions of the default scheme for prisms. -/
def faceScheme : FaceScheme tree where
  numFaces _ := numFaces
  numFaceChildren _ f := numFaceChildren f
  childrenAtFace e f := childrenAtFace e f
  childIdsAtFace e f := childIdsAtFace e f
  childFace _ f _ := faceChildFace f
  firstDescendantFace e f L := (firstDescendantFace e f L).getD e
  lastDescendantFace e f L := (lastDescendantFace e f L).getD e

theorem faceScheme_lawful : faceScheme.Lawful InFace where
  bounds _ _ _ _ h := ⟨h.1, h.2.1⟩
  refl _ _ _ hf := ⟨hf, hf, fun _ h => h⟩
  trans _ _ _ _ _ _ h1 h2 := ⟨h1.1, h2.2.1, h1.2.2.trans h2.2.2⟩
  unique _ _ _ _ _ he hd h1 h2 := h1.unique he hd h2
  between _ _ _ _ _ he hdy hdx h := between he hdy hdx h
  childIds_sorted e f he hl hf := (C13_prism_children e he hl f hf).1
  childIds_length e f he hl hf := (C13_prism_children e he hl f hf).2.1
  childIds_mem e f he hl hf i := ids_mem he hl hf i
  children e f he hl hf := rfl
  childFace e f k i he hl hf hk := childFace_eq he hl hf (List.mem_of_getElem? hk)
  firstDescendantFace e f L he hf hL hLM := by
    obtain ⟨a, a1, a2, a3, a4, a5⟩ := firstDescendantFace_spec he hf hL hLM
    rw [show faceScheme.firstDescendantFace e f L = a by show (firstDescendantFace e f L).getD e = a; rw [a1]; rfl]
    exact ⟨a2, a3, a4, a5⟩
  lastDescendantFace e f L he hf hL hLM := by
    obtain ⟨a, a1, a2, a3, a4, a5⟩ := lastDescendantFace_spec he hf hL hLM
    rw [show faceScheme.lastDescendantFace e f L = a by show (lastDescendantFace e f L).getD e = a; rw [a1]; rfl]
    exact ⟨a2, a3, a4, a5⟩

end T8.Prism
