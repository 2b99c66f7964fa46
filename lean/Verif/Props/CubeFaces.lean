/-
C10–C15 for the quadrilaterals and hexahedra of the default scheme, for every p4est that does what is documented
(`Spec/P4est.lean`). Faces are sets of points, see Spec/Hypercube.lean.
-/
import Verif.Props.Cube
import Verif.Lemmas.CubeFaces
import Verif.Lemmas.StandaloneNeighbor
import Verif.Spec.Face

namespace T8.Cube
open T8.RTree
open T8.Standalone (Elem Face Box)

theorem Cls.face_dim (c : Cls) {f : Nat} (hf : f < numFaces c.dim) : f / 2 < c.dim := by simp only [numFaces] at hf; omega

section
variable (c : Cls) (P : P4est c.dim) (D : P.Documented c)
include D

/-! ### C10 -/

/-- C10. If the neighbor across face `f` is inside of the tree, it is an element of the same level with the same face, and
the neighbor relation is mutual. -/
theorem C10_cube_mutual (e : Elem c.dim) (he : Valid c e) (f : Nat) (hf : f < numFaces c.dim) (n : Elem c.dim) (g : Nat)
    (hn : faceNeighborInside P e f = some (n, g)) :
    Valid c n ∧ n.level = e.level ∧ n ≠ e ∧ g < numFaces c.dim ∧ Face c.rootLevel n g = Face c.rootLevel e f ∧
    faceNeighborInside P n g = some (e, f) := by
  rw [D.neighbor_eq he hf] at hn
  obtain ⟨h1, h2, h3, h4, h5, h6⟩ := Standalone.neighbor_mutual c.small e he.1 f hf n g hn
  have hv : Valid c n := ⟨h1, by rw [h2]; exact he.2⟩
  exact ⟨hv, h2, h3, h4, h5, by rw [D.neighbor_eq hv h4]; exact h6⟩

/-- C10. There is a neighbor inside of the tree exactly if the face is not part of the face of the root, which is what
`element_is_root_boundary` tests. -/
theorem C10_cube_inside (e : Elem c.dim) (he : Valid c e) (f : Nat) (hf : f < numFaces c.dim) :
    (faceNeighborInside P e f = none ↔ Face c.rootLevel e f ⊆ Face c.rootLevel (Standalone.root c.dim) f) ∧
    (isRootBoundary c e f = true ↔ Face c.rootLevel e f ⊆ Face c.rootLevel (Standalone.root c.dim) f) ∧
    ∀ g, g < numFaces c.dim → Face c.rootLevel e f ⊆ Face c.rootLevel (Standalone.root c.dim) g → treeFace f = g := by
  refine ⟨?_, ?_, fun g hg h => ?_⟩
  · rw [D.neighbor_eq he hf]
    exact Standalone.neighbor_inside c.small e he.1 f hf
  · rw [isRootBoundary_eq c (c.face_dim hf)]
    exact Standalone.isRootBoundary_iff c.small' he.1 (c.face_dim hf)
  · exact Standalone.face_number (c.face_dim hg) (fun i => c.desc_box c.tree.valid_root (desc_root (T := c.tree) he) i) h

/-- C10. The neighbor is the only other element of the level that contains the face. -/
theorem C10_cube_unique (e x : Elem c.dim) (he : Valid c e) (hx : Valid c x) (f : Nat) (hf : f < numFaces c.dim)
    (hl : x.level = e.level) (hne : x ≠ e) (hsub : Face c.rootLevel e f ⊆ Box c.rootLevel x) :
    ∃ g, faceNeighborInside P e f = some (x, g) := by
  rw [D.neighbor_eq he hf]
  exact ⟨_, Standalone.neighbor_unique c.small e x he.1 hx.1 f hf hl hne hsub⟩

omit c P D in
/-- The sample has a neighbor across face 1 … -/
example : Cls.quad.reference.Documented .quad ∧ Valid .quad Cls.quad.sample ∧
    faceNeighborInside Cls.quad.reference Cls.quad.sample 1 ≠ none := by
  refine ⟨Cls.reference_documented _, Cls.quad.sample_valid.1, ?_⟩
  have h := C10_cube_inside .quad _ (Cls.reference_documented _) Cls.quad.sample Cls.quad.sample_valid.1 1 (by decide)
  rw [ne_eq, h.1, ← h.2.1]
  decide +kernel

omit c P D in
/-- … but not all of its neighbors are inside of the tree. -/
example : isRootBoundary (.hex 18 (by omega)) (child 18 (Standalone.root 3) 5) 1 = true ∧
    isRootBoundary (.hex 18 (by omega)) (child 18 (Standalone.root 3) 5) 0 = false := by decide +kernel

/-! ### C13 -/

/-- C13. The child indices at a face, in ascending order without duplicates, are exactly those of the children that have a face
inside of the face of the element. -/
theorem C13_cube_children (e : Elem c.dim) (he : Valid c e) (hl : e.level < c.maxLevel) (f : Nat) (hf : f < numFaces c.dim) :
    (childrenAtFaceIds c P f).Pairwise (· < ·) ∧ (childrenAtFaceIds c P f).length = numFaceChildren c ∧
    (∀ i, i ∈ childrenAtFaceIds c P f ↔ i < numChildren c.dim ∧
      ∃ g, g < numFaces c.dim ∧ Face c.rootLevel (child c.rootLevel e i) g ⊆ Face c.rootLevel e f) ∧
    childrenAtFace c P e f = (childrenAtFaceIds c P f).map (child c.rootLevel e) := by
  have hf' := c.face_dim hf
  refine ⟨?_, ?_, fun i => ?_, rfl⟩
  · rw [D.childIds_eq hf]; exact List.Pairwise.filter _ List.pairwise_lt_range
  · rw [D.childIds_eq hf, numChildren, (filter_lengths c.dim c.dim_cases).1 f hf]
    cases c <;> rfl
  · rw [D.childIds_eq hf, List.mem_filter, List.mem_range, decide_eq_true_eq]
    refine and_congr_right fun hi => ?_
    have hbox := Standalone.child_box c.small' he.1 (he.lt_root hl) hi
    rw [he.child_eq hl, CornerOnFace, ← Standalone.child_touch_iff c.small' he.1 (he.lt_root hl) hi hf']
    constructor
    · intro h; exact ⟨f, hf, h⟩
    · rintro ⟨g, hg, h⟩
      rwa [Standalone.face_number hf' hbox h] at h

/-- C13. `element_face_get_child_face` is the number of the face of the `k`-th child at the face that lies in the face. -/
theorem C13_cube_child_face (e : Elem c.dim) (he : Valid c e) (hl : e.level < c.maxLevel) (f : Nat) (hf : f < numFaces c.dim)
    (k : Nat) (x : Elem c.dim) (hx : (childrenAtFace c P e f)[k]? = some x) (g : Nat) (_hg : g < numFaces c.dim) :
    Face c.rootLevel x g ⊆ Face c.rootLevel e f ↔ g = faceChildFace f k := by
  obtain ⟨_, _, h3, h4⟩ := C13_cube_children c P D e he hl f hf
  rw [h4, List.getElem?_map] at hx
  obtain ⟨i, hi, rfl⟩ := Option.map_eq_some_iff.1 hx
  obtain ⟨hi1, g', hg', hsub⟩ := (h3 i).1 (List.mem_of_getElem? hi)
  have hbox := Standalone.child_box c.small' he.1 (he.lt_root hl) hi1
  rw [← he.child_eq hl] at hbox
  have := Standalone.face_number (c.face_dim hf) hbox hsub
  subst this
  exact ⟨fun h => Standalone.face_number (c.face_dim hf) hbox h, fun h => by rw [h]; exact hsub⟩

/-- C13. `element_face_get_parent_face` returns the number of the face of the parent that contains the face, and no number if
there is none; for the root it returns the face itself, as documented. -/
theorem C13_cube_parent_face (e : Elem c.dim) (he : Valid c e) (f : Nat) (hf : f < numFaces c.dim) :
    (0 < e.level → ∀ g, faceParentFace c P e f = some g ↔
      g < numFaces c.dim ∧ Face c.rootLevel e f ⊆ Face c.rootLevel (P.parent e) g) ∧
    (e.level = 0 → faceParentFace c P e f = some f) := by
  refine ⟨fun hl g => ?_, fun hl => by rw [faceParentFace, if_pos hl]⟩
  have hf' := c.face_dim hf
  have hp : Valid c (Standalone.parent c.rootLevel e) := c.tree.valid_parent e he hl
  have hpl : (Standalone.parent c.rootLevel e).level < c.maxLevel := by
    have h3 := he.2
    show e.level - 1 < c.maxLevel
    omega
  have hi : c.tree.childId e < 2 ^ c.dim := c.tree.childId_lt e he hl
  have hc : child c.rootLevel (Standalone.parent c.rootLevel e) (c.tree.childId e) = e := c.tree.child_parent e he hl
  have hany : ((List.range (numFaceChildren c)).any (fun k => P.childId e == P.faceCorners f k) = true) ↔
      CornerOnFace (c.tree.childId e) f := by
    have h1 : numFaceChildren c = 2 ^ (c.dim - 1) := by cases c <;> rfl
    rw [h1, D.childId_eq he hl, List.any_eq_true]
    have h2 : (∃ x ∈ List.range (2 ^ (c.dim - 1)), (c.tree.childId e == P.faceCorners f x) = true) ↔
        c.tree.childId e ∈ (List.range (2 ^ (c.dim - 1))).map (P.faceCorners f) := by
      rw [List.mem_map]
      refine exists_congr fun k => and_congr_right fun _ => ?_
      rw [beq_iff_eq]
      exact eq_comm
    rw [h2, D.faceCorners f hf, List.mem_filter, List.mem_range, decide_eq_true_eq]
    exact and_iff_right hi
  have htouch := Standalone.child_touch_iff c.small' hp.1 (hp.lt_root hpl) hi hf'
  rw [← hp.child_eq hpl, hc] at htouch
  have hbox := Standalone.child_box c.small' hp.1 (hp.lt_root hpl) hi
  rw [← hp.child_eq hpl, hc] at hbox
  rw [faceParentFace, if_neg (by omega), D.parent_eq he hl]
  by_cases hcf : CornerOnFace (c.tree.childId e) f
  · rw [if_pos (hany.2 hcf)]
    constructor
    · intro h; cases h; exact ⟨hf, htouch.2 hcf⟩
    · rintro ⟨hg, h⟩
      rw [Standalone.face_number (c.face_dim hg) hbox h]
  · rw [if_neg (fun h => hcf (hany.1 h))]
    constructor
    · intro h; cases h
    · rintro ⟨hg, h⟩
      have := Standalone.face_number (c.face_dim hg) hbox h
      subst this
      exact absurd (htouch.1 h) hcf

/-! ### C14 -/

/-- C14. `element_get_first_descendant_face` and `element_get_last_descendant_face` are descendants of level `L` with a face in
face `f`; all others of level `L` with a face in `f` lie between them. -/
theorem C14_cube (e : Elem c.dim) (he : Valid c e) (f : Nat) (hf : f < numFaces c.dim) (L : Nat) (hL : e.level ≤ L)
    (hLM : L ≤ c.maxLevel) :
    (∀ x, x = firstDescendantFace P e f L ∨ x = lastDescendantFace c P e f L →
      c.tree.Desc e x ∧ x.level = L ∧ Face c.rootLevel x f ⊆ Face c.rootLevel e f) ∧
    (∀ x g, c.tree.Desc e x → x.level = L → g < numFaces c.dim → Face c.rootLevel x g ⊆ Face c.rootLevel e f →
      (x = firstDescendantFace P e f L ∨ c.tree.Before (firstDescendantFace P e f L) x) ∧
      (x = lastDescendantFace c P e f L ∨ c.tree.Before x (lastDescendantFace c P e f L))) := by
  have hf' := c.face_dim hf
  obtain ⟨⟨k1, k2⟩, m1, m2⟩ := D.corners hf
  have hlast : lastDescendantFace c P e f L = P.cornerDescendant e (P.faceCorners f c.lastCorner) L := by cases c <;> rfl
  have hfc := D.corner_coord he k1 hL hLM
  have hlc := D.corner_coord he m1 hL hLM
  have lf := (D.cornerDescendant e _ L he k1 hL hLM).2.1
  have ll := (D.cornerDescendant e _ L he m1 hL hLM).2.1
  rw [← hlast] at hlc ll
  change ∀ i, ((firstDescendantFace P e f L).coords i).toNat = _ at hfc
  change (firstDescendantFace P e f L).level = L at lf
  have hM := c.max_le
  have hf2 : f % 2 = 0 ∨ f % 2 = 1 := by omega
  have hp : 0 < 2 ^ (c.rootLevel - L) := Nat.two_pow_pos _
  have hle : 2 ^ (c.rootLevel - L) ≤ Standalone.side c.rootLevel e := Nat.pow_le_pow_right (by omega) (by omega)
  have hF := c.desc_of_extreme (x := firstDescendantFace P e f L) he hL hLM lf (fun i => by
    rw [hfc i]; split
    · right; rfl
    · left; rfl)
  have hLa := c.desc_of_extreme (x := lastDescendantFace c P e f L) he hL hLM ll (fun i => by
    rw [hlc i]; split
    · right; rfl
    · left; rfl)
  have sF : Standalone.side c.rootLevel (firstDescendantFace P e f L) = 2 ^ (c.rootLevel - L) := by rw [Standalone.side, lf]
  have sL : Standalone.side c.rootLevel (lastDescendantFace c P e f L) = 2 ^ (c.rootLevel - L) := by rw [Standalone.side, ll]
  constructor
  · rintro x (rfl | rfl)
    · refine ⟨hF.2, lf, ?_⟩
      rw [Standalone.touch_iff hf' (c.desc_box he hF.2), hfc, k2, sF]
      rcases hf2 with a | a <;> rw [a] <;> simp <;> omega
    · refine ⟨hLa.2, ll, ?_⟩
      rw [Standalone.touch_iff hf' (c.desc_box he hLa.2), hlc, m2, sL]
      rcases hf2 with a | a <;> rw [a] <;> simp <;> omega
  · intro x g hd hxL hg hsub
    have hvx : Valid c x := Desc.valid (T := c.tree) he hd
    have hbox := c.desc_box he hd
    have hgf := Standalone.face_number hf' hbox hsub
    subst hgf
    rw [Standalone.touch_iff hf' hbox] at hsub
    have hsx : Standalone.side c.rootLevel x = 2 ^ (c.rootLevel - L) := by rw [Standalone.side, hxL]
    rw [hsx] at hsub
    constructor
    · have := c.morton_mono hF.1 hvx (by rw [lf, hxL]) (fun i => by
        rw [hfc, k2]
        have := hbox i
        by_cases hi : i.val = g / 2
        · rw [show i = ⟨g / 2, hf'⟩ from Fin.ext hi] at this ⊢
          rcases hf2 with a | a <;> rw [a] at hsub ⊢ <;> simp <;> omega
        · simp [hi]; omega)
      rcases this with h | h
      · exact Or.inl h.symm
      · exact Or.inr h
    · exact c.morton_mono hvx hLa.1 (by rw [ll, hxL]) (fun i => by
        rw [hlc, m2]
        have := hbox i
        rw [hsx] at this
        by_cases hi : i.val = g / 2
        · rw [show i = ⟨g / 2, hf'⟩ from Fin.ext hi] at this ⊢
          rcases hf2 with a | a <;> rw [a] at hsub ⊢ <;> simp <;> omega
        · simp [hi]; omega)

omit c P D in
example (c : Cls) : Valid c c.sample ∧ 3 < numFaces c.dim ∧ c.sample.level ≤ 9 ∧ 9 ≤ c.maxLevel := by
  have h1 := c.sample_valid
  have h2 := c.max_large
  refine ⟨h1.1, ?_, by omega, by omega⟩
  rcases c.dim_cases with h | h <;> rw [numFaces, h] <;> omega

/-! ### The face functions as the forest algorithms use them -/

omit D in
/-- The face functions. -/
def Cls.faceScheme (c : Cls) (P : P4est c.dim) : FaceScheme c.tree where
  numFaces _ := numFaces c.dim
  numFaceChildren _ _ := numFaceChildren c
  childrenAtFace e f := childrenAtFace c P e f
  childIdsAtFace _ f := childrenAtFaceIds c P f
  childFace _ f k := faceChildFace f k
  firstDescendantFace e f L := firstDescendantFace P e f L
  lastDescendantFace e f L := lastDescendantFace c P e f L

omit P D in
/-- Face `g` of `x` lies in face `f` of `e`. -/
def Cls.InFace (c : Cls) (x : c.tree.E) (g : Nat) (e : c.tree.E) (f : Nat) : Prop :=
  g < numFaces c.dim ∧ f < numFaces c.dim ∧ Face (d := c.dim) c.rootLevel x g ⊆ Face (d := c.dim) c.rootLevel e f

theorem Cls.faceScheme_lawful : (c.faceScheme P).Lawful c.InFace where
  bounds _ _ _ _ h := ⟨h.1, h.2.1⟩
  refl _ _ _ hf := ⟨hf, hf, fun _ h => h⟩
  trans _ _ _ _ _ _ h1 h2 := ⟨h1.1, h2.2.1, fun _ h => h2.2.2 (h1.2.2 h)⟩
  unique x g g' e f he hd h1 h2 := by
    rw [Standalone.face_number (c.face_dim h1.2.1) (c.desc_box he hd) h1.2.2,
      Standalone.face_number (c.face_dim h1.2.1) (c.desc_box he hd) h2.2.2]
  between x g y e f he hdy hdx h := by
    have hf' := c.face_dim h.2.1
    have hbx := c.desc_box he (hdy.trans hdx)
    have hby := c.desc_box he hdy
    have hbxy := c.desc_box (hdy.valid he) hdx
    have hg := Standalone.face_number hf' hbx h.2.2
    subst hg
    have h3 := (Standalone.touch_iff hf' hbx).1 h.2.2
    refine ⟨g, ⟨h.1, h.1, ?_⟩, ⟨h.1, h.1, ?_⟩⟩
    · rw [Standalone.touch_iff hf' hby]
      have b1 := hby ⟨g / 2, hf'⟩
      have b2 := hbxy ⟨g / 2, hf'⟩
      have hf2 : g % 2 = 0 ∨ g % 2 = 1 := by omega
      rcases hf2 with a | a <;> rw [a] at h3 ⊢ <;> omega
    · rw [Standalone.touch_iff hf' hbxy]
      have b1 := hby ⟨g / 2, hf'⟩
      have b2 := hbxy ⟨g / 2, hf'⟩
      have hf2 : g % 2 = 0 ∨ g % 2 = 1 := by omega
      rcases hf2 with a | a <;> rw [a] at h3 ⊢ <;> omega
  childIds_sorted e f he hl hf := (C13_cube_children c P D e he hl f hf).1
  childIds_length e f he hl hf := (C13_cube_children c P D e he hl f hf).2.1
  childIds_mem e f he hl hf i := by
    refine ((C13_cube_children c P D e he hl f hf).2.2.1 i).trans (and_congr_right fun _ => exists_congr fun g => ?_)
    constructor
    · rintro ⟨h1, h2⟩; exact ⟨h1, hf, h2⟩
    · rintro ⟨h1, _, h2⟩; exact ⟨h1, h2⟩
  children e f he hl hf := (C13_cube_children c P D e he hl f hf).2.2.2
  childFace e f k i he hl hf hk := by
    have hx : (childrenAtFace c P e f)[k]? = some (child (d := c.dim) c.rootLevel e i) := by
      rw [(C13_cube_children c P D e he hl f hf).2.2.2, List.getElem?_map]
      have : (childrenAtFaceIds c P f)[k]? = some i := hk
      rw [this]
      rfl
    exact ⟨hf, hf, (C13_cube_child_face c P D e he hl f hf k _ hx f hf).2 rfl⟩
  firstDescendantFace e f L he hf hL hLM := by
    obtain ⟨h1, h2⟩ := C14_cube c P D e he f hf L hL hLM
    obtain ⟨k1, k2, k3⟩ := h1 _ (Or.inl rfl)
    exact ⟨k1, k2, ⟨f, hf, hf, k3⟩, fun x g hd hxL hin => (h2 x g hd hxL hin.1 hin.2.2).1⟩
  lastDescendantFace e f L he hf hL hLM := by
    obtain ⟨h1, h2⟩ := C14_cube c P D e he f hf L hL hLM
    obtain ⟨k1, k2, k3⟩ := h1 _ (Or.inr rfl)
    exact ⟨k1, k2, ⟨f, hf, hf, k3⟩, fun x g hd hxL hin => (h2 x g hd hxL hin.1 hin.2.2).2⟩

end

/-! ### C11 -/

/-- The points of a face in terms of the boundary element. -/
theorem face_points {d M M' : Nat} (hM : M ≤ M') (h31 : 0 < d → M' < 31) {e : Elem (d + 1)} (he : Standalone.Valid M e) {f : Nat}
    (hf : f / 2 < d + 1) (hb : Face M e f ⊆ Face M (Standalone.root (d + 1)) f) (p : Fin (d + 1) → Nat)
    (hp : p ∈ Face M (Standalone.root (d + 1)) f) :
    p ∈ Face M e f ↔ (fun k => p ((⟨f / 2, hf⟩ : Fin (d + 1)).succAbove k) * 2 ^ (M' - M)) ∈
      Box M' (Standalone.boundaryFace M M' e f) := by
  have hn : (e.coords ⟨f / 2, hf⟩).toNat + f % 2 * Standalone.side M e = f % 2 * 2 ^ M := by
    have h1 := ((Standalone.face_subset_iff rfl hf).1 hb).2 ⟨f / 2, hf⟩ rfl
    have hroot : ((Standalone.root (d + 1)).coords ⟨f / 2, hf⟩).toNat = 0 := rfl
    have hsr : Standalone.side M (Standalone.root (d + 1)) = 2 ^ M := rfl
    rw [hroot, hsr, Nat.zero_add] at h1
    exact h1
  have hpn : p ⟨f / 2, hf⟩ = f % 2 * 2 ^ M := by
    have h1 := hp.2 ⟨f / 2, hf⟩ rfl
    have hroot : ((Standalone.root (d + 1)).coords ⟨f / 2, hf⟩).toNat = 0 := rfl
    have hsr : Standalone.side M (Standalone.root (d + 1)) = 2 ^ M := rfl
    rw [hroot, hsr, Nat.zero_add] at h1
    exact h1
  have hs : Standalone.side M' (Standalone.boundaryFace M M' e f) = Standalone.side M e * 2 ^ (M' - M) := by
    show 2 ^ (M' - e.level) = 2 ^ (M - e.level) * _
    rw [← Nat.pow_add]
    congr 1
    have := he.1
    omega
  have hpos := Nat.two_pow_pos (M' - M)
  constructor
  · rintro ⟨h1, _⟩ k
    have := h1 ((⟨f / 2, hf⟩ : Fin (d + 1)).succAbove k)
    rw [Standalone.boundaryFace_toNat hM h31 he hf, hs, ← Nat.add_mul]
    exact ⟨Nat.mul_le_mul_right _ this.1, Nat.mul_le_mul_right _ this.2⟩
  · intro h
    refine ⟨fun i => ?_, fun i hi => ?_⟩
    · rcases Standalone.dir_cases hf i with rfl | ⟨k, rfl⟩
      · have hf2 : f % 2 = 0 ∨ f % 2 = 1 := by omega
        rw [hpn, ← hn]
        rcases hf2 with a | a <;> rw [a] <;> omega
      · have := h k
        rw [Standalone.boundaryFace_toNat hM h31 he hf, hs, ← Nat.add_mul] at this
        exact ⟨Nat.le_of_mul_le_mul_right this.1 hpos, Nat.le_of_mul_le_mul_right this.2 hpos⟩
    · have : i = ⟨f / 2, hf⟩ := Fin.ext hi
      rw [this, hpn, hn]

theorem valid_line {l : Dline.Line} (hl : Dline.Valid l) : Standalone.Valid 30 (Dline.toElem l) := Dline.toElem_valid.2 hl

/-- C11 for quadrilaterals. The line at a face at the boundary of the root consists of the points of the face; extruding it gives
back the element and the face number. -/
theorem C11_quad_extrude_boundary (e : Elem 2) (he : Valid .quad e) (f : Nat) (hf : f < numFaces 2)
    (hb : Face 30 e f ⊆ Face 30 (Standalone.root 2) f) :
    Dline.Valid (boundaryFaceQuad e f) ∧ (boundaryFaceQuad e f).level = e.level ∧
    extrudeFaceQuad (boundaryFaceQuad e f) f = some (e, f) ∧
    ∀ p ∈ Face 30 (Standalone.root 2) f, (p ∈ Face 30 e f ↔
      p (if f / 2 = 0 then 1 else 0) ∈ Dline.Points (boundaryFaceQuad e f)) := by
  have hf4 : f < 4 := hf
  have hf' : f / 2 < 1 + 1 := by omega
  have heq := toElem_boundaryQuad he.1 hf4
  have hv : Dline.Valid (boundaryFaceQuad e f) := by
    rw [← Dline.toElem_valid, heq]
    exact Standalone.boundaryFace_valid (le_refl 30) (fun _ => by omega) he.1 hf'
  refine ⟨hv, rfl, ?_, fun p hp => ?_⟩
  · rw [extrudeFaceQuad_eq hv hf4, heq]
    exact congrArg some (Standalone.extrude_boundary (le_refl 30) (fun _ => by omega) (by omega) he.1 hf' hb)
  · rw [face_points (M' := 30) (le_refl 30) (fun _ => by omega) he.1 hf' hb p hp, ← heq]
    have hk : (⟨f / 2, hf'⟩ : Fin (1 + 1)).succAbove (0 : Fin 1) = if f / 2 = 0 then 1 else 0 := by
      interval_cases f <;> rfl
    constructor
    · intro h
      have := h 0
      beta_reduce at this
      rw [hk] at this
      simpa [Dline.Points, Dline.toElem, Standalone.side] using this
    · intro h k
      have : k = 0 := Fin.ext (by omega)
      subst this
      beta_reduce
      rw [hk]
      simpa [Dline.Points, Dline.toElem, Standalone.side] using h

/-- C11 for quadrilaterals. Extruding a line gives a quadrilateral at the face of the root, whose face is the line. Lines of level
30 have no quadrilateral, since the deepest level of quadrilaterals is 29. -/
theorem C11_quad_boundary_extrude (l : Dline.Line) (hl : Dline.Valid l) (hm : l.level ≤ Cls.quad.maxLevel) (f : Nat)
    (hf : f < numFaces 2) :
    ∃ e, extrudeFaceQuad l f = some (e, f) ∧ Valid .quad e ∧ e.level = l.level ∧
      Face 30 e f ⊆ Face 30 (Standalone.root 2) f ∧ boundaryFaceQuad e f = l := by
  have hf4 : f < 4 := hf
  have hf' : f / 2 < 1 + 1 := by omega
  have hm' : l.level ≤ 29 := hm
  have hv := Standalone.extrudeFace_valid (le_refl 30) (fun _ => by omega) (by omega) (valid_line hl)
    (show l.level ≤ 30 by omega) hf'
  have hb := Standalone.boundary_extrude (le_refl 30) (fun _ => by omega) (by omega) (valid_line hl)
    (show l.level ≤ 30 by omega) hf'
  refine ⟨_, extrudeFaceQuad_eq hl hf4, ⟨hv.1, hm⟩, rfl, hv.2, ?_⟩
  apply Dline.toElem_inj
  exact (toElem_boundaryQuad hv.1 hf4).trans hb

/-- C11 for hexahedra. The quadrilateral at a face at the boundary of the root consists of the points of the face, scaled to the
root length of quadrilaterals; extruding it gives back the element and the face number. -/
theorem C11_hex_extrude_boundary (M : Nat) (h : 18 ≤ M ∧ M ≤ 30) (e : Elem 3) (he : Valid (.hex M h) e) (f : Nat)
    (hf : f < numFaces 3) (hb : Face M e f ⊆ Face M (Standalone.root 3) f) :
    Valid .quad (boundaryFaceHex M e f) ∧ (boundaryFaceHex M e f).level = e.level ∧
    extrudeFaceHex M (boundaryFaceHex M e f) f = some (e, f) ∧
    ∀ p ∈ Face M (Standalone.root 3) f, (p ∈ Face M e f ↔
      (fun k => p (if k.val < f / 2 then k.castSucc else k.succ) * 2 ^ (30 - M)) ∈ Box 30 (boundaryFaceHex M e f)) := by
  have hf6 : f < 6 := hf
  have hf' : f / 2 < 2 + 1 := by omega
  have heq := boundaryFaceHex_eq h.2 he.1 hf6
  have hv : Standalone.Valid 30 (boundaryFaceHex M e f) := by
    rw [heq]
    exact Standalone.boundaryFace_valid h.2 (fun _ => by omega) he.1 hf'
  have hl : e.level ≤ 18 := he.2
  refine ⟨⟨hv, by show e.level ≤ 29; omega⟩, rfl, ?_, fun p hp => ?_⟩
  · rw [extrudeFaceHex_eq h.2 hv hf6, heq]
    exact congrArg some (Standalone.extrude_boundary h.2 (fun _ => by omega) (by omega) he.1 hf' hb)
  · rw [face_points (M' := 30) h.2 (fun _ => by omega) he.1 hf' hb p hp, ← heq]
    have hk : ∀ k : Fin 2, (⟨f / 2, hf'⟩ : Fin (2 + 1)).succAbove k = if k.val < f / 2 then k.castSucc else k.succ := by
      intro k
      interval_cases f <;> fin_cases k <;> rfl
    simp only [hk]

/-- C11 for hexahedra. Extruding a quadrilateral gives a hexahedron at the face of the root, whose face is the quadrilateral. -/
theorem C11_hex_boundary_extrude (M : Nat) (h : 18 ≤ M ∧ M ≤ 30) (b : Elem 2) (hb : Valid .quad b) (hm : b.level ≤ 18) (f : Nat)
    (hf : f < numFaces 3) :
    ∃ e, extrudeFaceHex M b f = some (e, f) ∧ Valid (.hex M h) e ∧ e.level = b.level ∧
      Face M e f ⊆ Face M (Standalone.root 3) f ∧ boundaryFaceHex M e f = b := by
  have hf6 : f < 6 := hf
  have hf' : f / 2 < 2 + 1 := by omega
  have hv := Standalone.extrudeFace_valid h.2 (fun _ => by omega) (by omega) hb.1 (by omega) hf'
  have he := Standalone.boundary_extrude h.2 (fun _ => by omega) (by omega) hb.1 (by omega) hf'
  refine ⟨_, extrudeFaceHex_eq h.2 hb.1 hf6, ⟨hv.1, hm⟩, rfl, hv.2, ?_⟩
  exact (boundaryFaceHex_eq h.2 hv.1 hf6).trans he

example : extrudeFaceQuad (Dline.child (Dline.child Dline.root 1) 0) 3 = some (⟨fun i => if i = 0 then 2 ^ 29 else 2 ^ 30 - 2 ^ 28, 2⟩, 3) ∧
    Dline.Valid (Dline.child (Dline.child Dline.root 1) 0) := by
  refine ⟨by decide +kernel, ?_⟩
  refine ⟨?_, ?_, ?_⟩ <;> decide +kernel

/-! ### C12 -/

/-- C12 for quadrilaterals (faces of hexahedra), if the function is called with one element in both roles or without a change
of the orientation: the transformation with exchanged roles is the inverse, it gives valid elements of the same level and maps
parents to parents. -/
theorem C12_quad_partial (P : P4est 2) (D : P.Documented .quad) (same sign isSmaller : Bool) (h : same = true ∨ sign = false)
    (e e2 : Elem 2) (he : Valid .quad e) (o : Nat) (ho : o < 4) :
    ∃ e', transformFace same e e2 o sign isSmaller = some e' ∧ Valid .quad e' ∧ e'.level = e.level ∧
      transformFace same e' e2 o sign (!isSmaller) = some e ∧
      (0 < e.level → transformFace same (P.parent e) e2 o sign isSmaller = some (P.parent e')) := by
  have hno : ¬ (sign = true ∧ ¬ same = true) := by
    rintro ⟨a, b⟩
    rcases h with h | h
    · exact b h
    · rw [h] at a; cases a
  have heq : ∀ (x : Elem 2) (s : Bool), transformFace same x e2 o sign s = Standalone.transformFaceQuad x o sign s := by
    intro x s
    rw [transformFace_eq]
    cases ht : Standalone.transformFaceQuad x o sign s with
    | none => rfl
    | some y =>
      have hl : y.level = x.level := by
        rw [Standalone.transformFaceQuad] at ht
        split at ht
        all_goals (try cases ht; rfl)
        cases ht
      simp only [Option.map_some, if_neg hno, ← hl]
  obtain ⟨e', h1, h2, h3, h4, h5⟩ := Standalone.transform_quad e he.1 o ho sign isSmaller
  have hv : Valid .quad e' := ⟨h2, by rw [h3]; exact he.2⟩
  refine ⟨e', by rw [heq]; exact h1, hv, h3, by rw [heq]; exact h4, fun hl => ?_⟩
  have p1 : P.parent e = Standalone.parent 30 e := D.parent_eq he hl
  have p2 : P.parent e' = Standalone.parent 30 e' := D.parent_eq hv (by omega)
  rw [heq, p1, p2]
  exact h5 hl

/-- C12 for quadrilaterals: seen from the smaller face the transformation is the symmetry of the square that sends corner 0 to the
corner given by the orientation and keeps (`sign = false`) or changes (`sign = true`) the sense of rotation. -/
theorem C12_quad_symmetry (same sign : Bool) (h : same = true ∨ sign = false) (e e2 : Elem 2) (he : Valid .quad e) (o : Nat)
    (ho : o < 4) (e' : Elem 2) (ht : transformFace same e e2 o sign true = some e') (p : Fin 2 → Nat)
    (hp : ∀ i, p i ≤ 2 ^ 30) (q : Fin 2 → Nat)
    (hq : ((q 0 : Int), (q 1 : Int)) = Standalone.squareSymmetry (2 ^ 30) o sign (p 0, p 1)) :
    p ∈ Box 30 e ↔ q ∈ Box 30 e' := by
  have hno : ¬ (sign = true ∧ ¬ same = true) := by
    rintro ⟨a, b⟩
    rcases h with h | h
    · exact b h
    · rw [h] at a; cases a
  obtain ⟨e'', h1, _, h3, _⟩ := Standalone.transform_quad e he.1 o ho sign true
  have : e' = e'' := by
    rw [transformFace_eq, h1] at ht
    simp only [Option.map_some, if_neg hno, Option.some.injEq] at ht
    rw [← ht, ← h3]
  subst this
  exact Standalone.transform_quad_symmetry e he.1 o ho sign e' h1 p hp q hq

/-- C12 for quadrilaterals: called with two different elements and a change of the orientation, the function does not set the
level of the second element, although the documentation says "On return the face element elem1 with respect to the
coordinate system of the other tree". (`q` points to `p` then, and `p->level = q->level` assigns the level to itself. The library
itself calls the function with one element in both roles.) -/
theorem C12_quad_level_not_copied :
    ∃ e1 e2 e' : Elem 2, Valid .quad e1 ∧ Valid .quad e2 ∧ transformFace false e1 e2 0 true true = some e' ∧
      e'.level ≠ e1.level ∧ ¬ Standalone.Valid 30 e' := by
  refine ⟨child 30 (Standalone.root 2) 1, Standalone.root 2, ⟨fun i => if i = 0 then 0 else BitVec.twoPow 32 29, 0⟩, ?_, ?_, ?_, ?_, ?_⟩
  · exact Cls.quad.tree.valid_child Cls.quad.tree.root 1 Cls.quad.tree.valid_root (by decide) (by decide)
  · exact Cls.quad.tree.valid_root
  · decide +kernel
  · decide
  · rintro ⟨_, h⟩
    have := (h 1).2
    revert this
    decide +kernel

example : transformFace true Cls.quad.sample Cls.quad.sample 1 true true ≠ none ∧ Valid .quad Cls.quad.sample :=
  ⟨by decide +kernel, Cls.quad.sample_valid.1⟩

/-! ### C15 -/

/-- C15. Unpacking a buffer that begins with packed elements gives back the elements, in order, and leaves exactly the rest of the
buffer. -/
theorem C15_cube (c : Cls) (es : List (Elem c.dim)) (rest : List Standalone.Word) :
    unpack c es.length (pack c es ++ rest) = some (es, rest) := by
  induction es with
  | nil => rfl
  | cons e es ih =>
    have h1 : pack c (e :: es) ++ rest = packOne c e ++ (pack c es ++ rest) := by simp [pack]
    have h2 : ∀ r, unpackOne c (packOne c e ++ r) = some (e, r) := by
      intro r
      cases c with
      | quad =>
        refine congrArg some (Prod.ext (Standalone.Elem.ext' (fun i => ?_) rfl) rfl)
        fin_cases i <;> rfl
      | hex M h =>
        refine congrArg some (Prod.ext (Standalone.Elem.ext' (fun i => ?_) rfl) rfl)
        fin_cases i <;> rfl
    rw [h1, List.length_cons, unpack, h2]
    simp only [Option.bind_eq_bind, Option.bind_some]
    rw [ih]
    rfl

/-- C15. The size of the buffer that `element_MPI_Pack_size` provides for is exactly what is written. -/
theorem C15_cube_size (c : Cls) (es : List (Elem c.dim)) :
    ((pack c es).countP (fun w => w matches .int _), (pack c es).countP (fun w => w matches .int8 _)) =
      packSize c es.length := by
  induction es with
  | nil => cases c <;> simp [pack, packSize]
  | cons e es ih =>
    have h : pack c (e :: es) = packOne c e ++ pack c es := by simp [pack]
    rw [h, List.countP_append, List.countP_append]
    cases c <;>
    · simp only [packSize, Prod.mk.injEq] at ih ⊢
      rw [ih.1, ih.2, List.length_cons]
      simp [packOne]
      omega

example : pack .quad [Cls.quad.sample, Standalone.root 2] ≠ [] := by decide +kernel

end T8.Cube
