/-
C10–C15 for the hypercube classes of the standalone scheme. Faces are sets of points, see
Spec/Hypercube.lean.
-/
import Verif.Props.Standalone
import Verif.Lemmas.StandaloneTransform
import Verif.Lemmas.StandaloneNeighbor

namespace T8.Standalone
open RTree

theorem Cls.small (c : Cls) : 0 < c.dim → c.maxLevel < 31 := by cases c <;> simp [Cls.dim, Cls.maxLevel]
theorem Cls.small' (c : Cls) : 0 < c.dim → c.maxLevel < 32 := by cases c <;> simp [Cls.dim, Cls.maxLevel]

/-! ### C10 -/

/-- C10. If the neighbor across face `f` is inside of the tree, it is an element of the same level with the
same face, and the neighbor relation is mutual. -/
theorem C10_standalone_mutual (c : Cls) (e : Elem c.dim) (he : Valid c.maxLevel e) (f : Nat)
    (hf : f < numFaces c.dim) (n : Elem c.dim) (g : Nat) (hn : faceNeighborInside c.maxLevel e f = some (n, g)) :
    Valid c.maxLevel n ∧ n.level = e.level ∧ n ≠ e ∧ g < numFaces c.dim ∧
    Face c.maxLevel n g = Face c.maxLevel e f ∧
    faceNeighborInside c.maxLevel n g = some (e, f) :=
  neighbor_mutual c.small e he f hf n g hn

/-- C10. There is a neighbor inside of the tree exactly if the face is not part of the face of the root. -/
theorem C10_standalone_inside (c : Cls) (e : Elem c.dim) (he : Valid c.maxLevel e) (f : Nat)
    (hf : f < numFaces c.dim) :
    faceNeighborInside c.maxLevel e f = none ↔ Face c.maxLevel e f ⊆ Face c.maxLevel (root c.dim) f :=
  neighbor_inside c.small e he f hf

/-- C10. The neighbor is the only other element of the level that contains the face. -/
theorem C10_standalone_unique (c : Cls) (e x : Elem c.dim) (he : Valid c.maxLevel e) (hx : Valid c.maxLevel x)
    (f : Nat) (hf : f < numFaces c.dim) (hl : x.level = e.level) (hne : x ≠ e)
    (hsub : Face c.maxLevel e f ⊆ Box c.maxLevel x) :
    faceNeighborInside c.maxLevel e f = some (x, f ^^^ 1) :=
  neighbor_unique c.small e x he hx f hf hl hne hsub

example : faceNeighborInside Cls.hex.maxLevel (d := Cls.hex.dim) sampleHex 2 ≠ none ∧
    (1 : Nat) < numFaces Cls.hex.dim := by decide +kernel

/-! ### C11 -/

/-- The maximum levels `M` and `M'` of a class of dimension `d + 1` and of the class of its faces. -/
def FacePair (d M M' : Nat) : Prop :=
  ∃ c c' : Cls, c.dim = d + 1 ∧ c.maxLevel = M ∧ c'.dim = d ∧ c'.maxLevel = M'

theorem FacePair.bounds {d M M' : Nat} (h : FacePair d M M') : M ≤ M' ∧ (0 < d → M' < 31) ∧ M < 32 := by
  obtain ⟨c, c', h1, rfl, h3, rfl⟩ := h
  cases c <;> cases c' <;> simp_all [Cls.dim, Cls.maxLevel] <;> omega

/-- C11. The face of an element at a face of the root is a face element, and extruding it gives back the
element and the face number. -/
theorem C11_standalone_extrude_boundary {d M M' : Nat} (hp : FacePair d M M') (e : Elem (d + 1))
    (he : Valid M e) (f : Nat) (hf : f < numFaces (d + 1)) (hb : Face M e f ⊆ Face M (root (d + 1)) f) :
    Valid M' (boundaryFace M M' e f) ∧ (boundaryFace M M' e f).level = e.level ∧
    extrudeFace M M' (boundaryFace M M' e f) f = (e, f) := by
  obtain ⟨h1, h2, h3⟩ := hp.bounds
  have hf' : f / 2 < d + 1 := by simp only [numFaces] at hf; omega
  exact ⟨boundaryFace_valid h1 h2 he hf', rfl, extrude_boundary h1 h2 h3 he hf' hb⟩

/-- C11. Extruding a face element gives an element at the face of the root, whose face is the face element. -/
theorem C11_standalone_boundary_extrude {d M M' : Nat} (hp : FacePair d M M') (b : Elem d)
    (hb : Valid M' b) (hl : b.level ≤ M) (f : Nat) (hf : f < numFaces (d + 1)) :
    Valid M (extrudeFace M M' b f).1 ∧ (extrudeFace M M' b f).1.level = b.level ∧
    Face M (extrudeFace M M' b f).1 (extrudeFace M M' b f).2 ⊆ Face M (root (d + 1)) f ∧
    boundaryFace M M' (extrudeFace M M' b f).1 (extrudeFace M M' b f).2 = b := by
  obtain ⟨h1, h2, h3⟩ := hp.bounds
  have hf' : f / 2 < d + 1 := by simp only [numFaces] at hf; omega
  have := extrudeFace_valid h1 h2 h3 hb hl hf'
  exact ⟨this.1, rfl, this.2, boundary_extrude h1 h2 h3 hb hl hf'⟩

/-- C11. The face element has the coordinates of the element without the one normal to the face, scaled to
the root length of the face class. -/
theorem C11_standalone_coordinates {d M M' : Nat} (hp : FacePair d M M') (e : Elem (d + 1))
    (he : Valid M e) (f : Nat) (hf : f / 2 < d + 1) (k : Fin d) :
    ((boundaryFace M M' e f).coords k).toNat =
      (e.coords ((⟨f / 2, hf⟩ : Fin (d + 1)).succAbove k)).toNat * 2 ^ (M' - M) := by
  obtain ⟨h1, h2, _⟩ := hp.bounds
  exact boundaryFace_toNat h1 h2 he hf k

/-- Hexahedra with quadrilateral faces, an element at face 1 and one of its faces. -/
example : FacePair 2 21 30 ∧ FacePair 1 30 30 ∧ FacePair 0 30 254 ∧
    Face 21 (child 21 (root 3) 5) 1 ⊆ Face 21 (root 3) 1 := by
  refine ⟨⟨.hex, .quad, rfl, rfl, rfl, rfl⟩, ⟨.quad, .line, rfl, rfl, rfl, rfl⟩,
    ⟨.line, .vertex, rfl, rfl, rfl, rfl⟩, ?_⟩
  rw [child_touch_iff (by simp) valid_root (by simp [root]) (by omega) (by omega)]
  decide

/-! ### C12 -/

/-- C12 for lines (faces of quads): the transformation with orientation `o` is its own inverse, gives valid
elements of the same level, maps parents to parents, and for `o = 1` mirrors the line. -/
theorem C12_standalone_line (e : Elem 1) (he : Valid Cls.line.maxLevel e) (o : Nat) :
    Valid Cls.line.maxLevel (transformFaceLine e o) ∧ (transformFaceLine e o).level = e.level ∧
    transformFaceLine (transformFaceLine e o) o = e ∧
    (0 < e.level → transformFaceLine (parent Cls.line.maxLevel e) o =
      parent Cls.line.maxLevel (transformFaceLine e o)) ∧
    (∀ p : Fin 1 → Nat, p 0 ≤ 2 ^ Cls.line.maxLevel →
      (p ∈ Box Cls.line.maxLevel e ↔
        (fun i => if o = 0 then p i else 2 ^ Cls.line.maxLevel - p i) ∈
          Box Cls.line.maxLevel (transformFaceLine e o))) :=
  transform_line e he o

/-- C12 for vertices: called with two different elements the function does not do what the documentation says
("On return the face element elem1 with respect to the coordinate system of the other tree"): the second
element is not written. (The library itself calls it with one element in both roles.) -/
theorem C12_standalone_vertex_not_copied :
    ∃ e1 e2 : Elem 0, Valid Cls.vertex.maxLevel e1 ∧ (transformFaceVertex e1 e2).level ≠ e1.level ∧
      ∀ e, transformFaceVertex e e = e :=
  ⟨root 0, child 254 (root 0) 0, valid_root, by decide, fun _ => rfl⟩

/-- C12 for quads (faces of hexes): the transformation with exchanged roles is the inverse, it gives valid
elements of the same level and maps parents to parents. -/
theorem C12_standalone_quad (e : Elem 2) (he : Valid Cls.quad.maxLevel e) (o : Nat) (ho : o < 4)
    (sign isSmaller : Bool) :
    ∃ e', transformFaceQuad e o sign isSmaller = some e' ∧ Valid Cls.quad.maxLevel e' ∧ e'.level = e.level ∧
      transformFaceQuad e' o sign (!isSmaller) = some e ∧
      (0 < e.level → transformFaceQuad (parent Cls.quad.maxLevel e) o sign isSmaller =
        some (parent Cls.quad.maxLevel e')) :=
  transform_quad e he o ho sign isSmaller

/-- C12 for quads: seen from the smaller face the transformation is the symmetry of the square that sends
corner 0 to the corner given by the orientation and keeps (`sign = false`) or changes (`sign = true`) the
sense of rotation. -/
theorem C12_standalone_quad_symmetry (e : Elem 2) (he : Valid Cls.quad.maxLevel e) (o : Nat) (ho : o < 4)
    (sign : Bool) (e' : Elem 2) (h : transformFaceQuad e o sign true = some e') (p : Fin 2 → Nat)
    (hp : ∀ i, p i ≤ 2 ^ Cls.quad.maxLevel) (q : Fin 2 → Nat)
    (hq : ((q 0 : Int), (q 1 : Int)) = squareSymmetry (2 ^ Cls.quad.maxLevel) o sign (p 0, p 1)) :
    p ∈ Box Cls.quad.maxLevel e ↔ q ∈ Box Cls.quad.maxLevel e' :=
  transform_quad_symmetry e he o ho sign e' h p hp q hq

example : Valid Cls.quad.maxLevel (d := 2) (child 30 (child 30 (root 2) 1) 2) ∧
    (transformFaceQuad (child 30 (child 30 (root 2) 1) 2) 1 false true).isSome ∧
    squareSymmetry 8 1 false (0, 0) = (8, 0) := by
  refine ⟨valid_child (by decide) (valid_child (by decide) valid_root (by simp [root, Cls.maxLevel]) 1) (by simp [child, root, Cls.maxLevel]) 2, by decide +kernel, by decide⟩

/-! ### C13 -/

/-- C13. The child indices at a face, in ascending order without duplicates, are exactly those of the
children that have a face inside of the face of the element. -/
theorem C13_standalone_children (c : Cls) (e : Elem c.dim) (he : Valid c.maxLevel e)
    (hl : e.level < c.maxLevel) (f : Nat) (hf : f < numFaces c.dim) :
    (childrenAtFaceIds c.dim f).Pairwise (· < ·) ∧
    (childrenAtFaceIds c.dim f).length = numFaceChildren c.dim ∧
    (∀ i, i ∈ childrenAtFaceIds c.dim f ↔ i < numChildren c.dim ∧
      ∃ g, g < numFaces c.dim ∧ Face c.maxLevel (child c.maxLevel e i) g ⊆ Face c.maxLevel e f) ∧
    childrenAtFace c.maxLevel e f = (childrenAtFaceIds c.dim f).map (child c.maxLevel e) := by
  have hf' : f / 2 < c.dim := by simp only [numFaces] at hf; omega
  have htab : ∀ c : Cls, ∀ f, f < numFaces c.dim →
      childrenAtFaceIds c.dim f =
        (List.range (numChildren c.dim)).filter (fun i => i.testBit (f / 2) = decide (f % 2 = 1)) := by
    intro c
    cases c
    · decide
    · decide
    · decide
    · decide +kernel
  rw [htab c f hf]
  refine ⟨List.Pairwise.filter _ List.pairwise_lt_range, ?_, fun i => ?_, by rw [childrenAtFace, htab c f hf]⟩
  · rw [← htab c f hf, childrenAtFaceIds, List.length_map, List.length_range]
  · rw [List.mem_filter, List.mem_range, decide_eq_true_eq]
    refine and_congr_right fun hi => ?_
    rw [← child_touch_iff c.small' he hl hi hf']
    constructor
    · intro h; exact ⟨f, hf, h⟩
    · rintro ⟨g, hg, h⟩
      rwa [face_number hf' (child_box c.small' he hl hi) h] at h

/-- C13. `element_face_get_child_face` is the number of the face of the `k`-th child at the face that lies
in the face. -/
theorem C13_standalone_child_face (c : Cls) (e : Elem c.dim) (he : Valid c.maxLevel e)
    (hl : e.level < c.maxLevel) (f : Nat) (hf : f < numFaces c.dim) (k : Nat) (x : Elem c.dim)
    (hx : (childrenAtFace c.maxLevel e f)[k]? = some x) (g : Nat) (hg : g < numFaces c.dim) :
    Face c.maxLevel x g ⊆ Face c.maxLevel e f ↔ g = faceChildFace f k := by
  have hf' : f / 2 < c.dim := by simp only [numFaces] at hf; omega
  obtain ⟨_, _, h3, h4⟩ := C13_standalone_children c e he hl f hf
  rw [h4, List.getElem?_map] at hx
  obtain ⟨i, hi, rfl⟩ := Option.map_eq_some_iff.1 hx
  obtain ⟨hi1, g', hg', hsub⟩ := (h3 i).1 (List.mem_of_getElem? hi)
  have hbox := child_box c.small' he hl hi1
  have := face_number hf' hbox hsub
  subst this
  exact ⟨fun h => face_number hf' hbox h, fun h => by rw [h]; exact hsub⟩

/-- C13. `element_face_get_parent_face` returns the number of the face of the parent that contains the face,
and no number if there is none. -/
theorem C13_standalone_parent_face_partial (c : Cls) (e : Elem c.dim) (he : Valid c.maxLevel e)
    (hl : 0 < e.level) (f : Nat) (hf : f / 2 < c.dim) (g : Nat) :
    faceParentFace c.maxLevel e f hf = some g ↔
      g < numFaces c.dim ∧ Face c.maxLevel e f ⊆ Face c.maxLevel (parent c.maxLevel e) g := by
  rw [faceParentFace_some c.small he hl hf, numFaces]
  constructor
  · rintro ⟨h1, h2⟩; exact ⟨by omega, h1⟩
  · rintro ⟨h1, h2⟩; exact ⟨h2, by omega⟩

/-- C13. The documentation says that `element_face_get_parent_face` returns the face itself for the root
element; the code returns -1. -/
theorem C13_standalone_parent_face_root (c : Cls) (f : Nat) (hf : f / 2 < c.dim) :
    faceParentFace c.maxLevel (root c.dim) f hf = none := by
  simp [faceParentFace, root]

example : childrenAtFaceIds Cls.hex.dim 3 = [2, 3, 6, 7] ∧ sampleHex.level < Cls.hex.maxLevel ∧
    faceParentFace Cls.hex.maxLevel (d := Cls.hex.dim) sampleHex 1 (by decide) = some 1 := by decide +kernel

/-! ### C14 -/

/-- C14. Among the descendants of level `L` that have a face in face `f` of the element,
`element_get_first_descendant_face` has the smallest and `element_get_last_descendant_face` the largest
linear id. -/
theorem C14_standalone (c : Cls) (e : Elem c.dim) (he : Valid c.maxLevel e) (f : Nat)
    (hf : f < numFaces c.dim) (L : Nat) (hL : e.level ≤ L) (hLM : L ≤ c.maxLevel) :
    (∀ x, x = firstDescendantFace c.maxLevel e f L ∨ x = lastDescendantFace c.maxLevel e f L →
      c.tree.Desc e x ∧ x.level = L ∧ Face c.maxLevel x f ⊆ Face c.maxLevel e f) ∧
    (∀ x g, c.tree.Desc e x → x.level = L → g < numFaces c.dim → Face c.maxLevel x g ⊆ Face c.maxLevel e f →
      (linearId c.maxLevel (firstDescendantFace c.maxLevel e f L) L).toNat ≤ (linearId c.maxLevel x L).toNat ∧
      (linearId c.maxLevel x L).toNat ≤ (linearId c.maxLevel (lastDescendantFace c.maxLevel e f L) L).toNat) := by
  have hf' : f / 2 < c.dim := by simp only [numFaces] at hf; omega
  have hfc := firstDescendantFace_coord c.small' he (f := f) hL
  have hlc := lastDescendantFace_coord c.small' he (f := f) hL
  have hf2 : f % 2 = 0 ∨ f % 2 = 1 := by omega
  have hp : 0 < 2 ^ (c.maxLevel - L) := Nat.two_pow_pos _
  have hle : 2 ^ (c.maxLevel - L) ≤ side c.maxLevel e := Nat.pow_le_pow_right (by omega) (by omega)
  have hF := desc_of_extreme (x := firstDescendantFace c.maxLevel e f L) c.small' he hL hLM rfl (fun i => by
    rw [hfc i]; split
    · rcases hf2 with a | a <;> rw [a] <;> omega
    · left; omega)
  have hLa := desc_of_extreme (x := lastDescendantFace c.maxLevel e f L) c.small' he hL hLM rfl (fun i => by
    rw [hlc i]; split
    · rcases hf2 with a | a <;> rw [a] <;> omega
    · right; omega)
  have hlin : ∀ x : Elem c.dim, Valid c.maxLevel x → x.level = L →
      (linearId c.maxLevel x L).toNat = lid (T := c.tree) x L := by
    intro x hx hxL
    rw [linearId_eq c.small' c.bits hx hLM, if_neg (by omega)]
  constructor
  · rintro x (rfl | rfl)
    · refine ⟨hF.2, rfl, ?_⟩
      rw [touch_iff hf' (desc_box c.small' he hF.2), hfc, if_pos rfl]
      show _ + f % 2 * 2 ^ (c.maxLevel - L) = _
      rcases hf2 with a | a <;> rw [a] <;> omega
    · refine ⟨hLa.2, rfl, ?_⟩
      rw [touch_iff hf' (desc_box c.small' he hLa.2), hlc, if_pos rfl]
      show _ + f % 2 * 2 ^ (c.maxLevel - L) = _
      rcases hf2 with a | a <;> rw [a] <;> omega
  · intro x g hd hxL hg hsub
    have hvx : Valid c.maxLevel x := Desc.valid (T := c.tree) he hd
    have hbox := desc_box c.small' he hd
    have hgf := face_number hf' hbox hsub
    subst hgf
    rw [touch_iff hf' hbox] at hsub
    have hsx : side c.maxLevel x = 2 ^ (c.maxLevel - L) := by rw [side, hxL]
    rw [hsx] at hsub
    rw [hlin _ hF.1 rfl, hlin _ hLa.1 rfl, hlin x hvx hxL]
    constructor
    · apply morton_mono c.small' hF.1 hvx hxL.symm
      intro i
      rw [hfc]
      have := hbox i
      by_cases hi : i.val = g / 2
      · rw [if_pos hi]
        rw [show i = ⟨g / 2, hf'⟩ from Fin.ext hi] at this ⊢
        rcases hf2 with a | a <;> rw [a] at hsub ⊢ <;> omega
      · rw [if_neg hi]; omega
    · have := morton_mono c.small' hvx hLa.1 (by rw [hxL]; rfl) (fun i => by
        rw [hlc]
        have := hbox i
        rw [hsx] at this
        by_cases hi : i.val = g / 2
        · rw [if_pos hi]
          rw [show i = ⟨g / 2, hf'⟩ from Fin.ext hi] at this ⊢
          rcases hf2 with a | a <;> rw [a] at hsub ⊢ <;> omega
        · rw [if_neg hi]; omega)
      rwa [hxL] at this

example : Valid Cls.hex.maxLevel (d := Cls.hex.dim) sampleHex ∧ 3 < numFaces Cls.hex.dim ∧
    sampleHex.level ≤ 9 ∧ 9 ≤ Cls.hex.maxLevel := ⟨sampleHex_valid, by decide⟩

/-! ### C15 -/

theorem unpackCoords_eq {d : Nat} (e : Elem d) (rest : List Word) :
    (List.finRange d).foldlM (fun (s : (Fin d → BitVec 32) × List Word) i => do
      let (v, r) ← unpackInt s.2
      some (fun k => if k = i then v else s.1 k, r)) (fun _ => 0,
        (List.finRange d).map (fun i => Word.int (e.coords i)) ++ rest) = some (e.coords, rest) := by
  have gen : ∀ (l : List (Fin d)) (c : Fin d → BitVec 32),
      l.foldlM (fun (s : (Fin d → BitVec 32) × List Word) i => do
        let (v, r) ← unpackInt s.2
        some (fun k => if k = i then v else s.1 k, r)) (c, l.map (fun i => Word.int (e.coords i)) ++ rest) =
      some (fun k => if k ∈ l then e.coords k else c k, rest) := by
    intro l
    induction l with
    | nil => intro c; simp
    | cons i l ih =>
      intro c
      rw [List.foldlM_cons, List.map_cons, List.cons_append]
      simp only [unpackInt, Option.bind_eq_bind, Option.bind_some]
      refine (ih _).trans ?_
      congr 2
      funext k
      by_cases hk : k ∈ l
      · simp [hk]
      · by_cases hki : k = i
        · subst hki; simp
        · simp [hk, hki]
  rw [gen]
  simp

/-- C15. Unpacking a buffer that begins with packed elements gives back the elements, in order, and leaves
exactly the rest of the buffer. The hypotheses of the other theorems are not needed: all bit patterns
survive. -/
theorem C15_standalone (c : Cls) (es : List (Elem c.dim)) (rest : List Word) :
    unpack c.dim es.length (pack es ++ rest) = some (es, rest) := by
  induction es with
  | nil => rfl
  | cons e es ih =>
    have h1 : pack (e :: es) ++ rest = (List.finRange c.dim).map (fun i => Word.int (e.coords i)) ++
        (Word.int8 e.level :: (pack es ++ rest)) := by
      simp [pack, packOne]
    have h2 : unpackOne c.dim (pack (e :: es) ++ rest) = some (e, pack es ++ rest) := by
      rw [h1, unpackOne, unpackCoords_eq]
      rfl
    rw [List.length_cons, unpack, h2]
    simp only [Option.bind_eq_bind, Option.bind_some]
    rw [ih]
    rfl

/-- C15. The size of the buffer that `element_MPI_Pack_size` provides for is exactly what is written. -/
theorem C15_standalone_size (c : Cls) (es : List (Elem c.dim)) :
    ((pack es).countP (fun w => w matches .int _), (pack es).countP (fun w => w matches .int8 _)) =
      packSize c.dim es.length := by
  induction es with
  | nil => simp [pack, packSize]
  | cons e es ih =>
    have h : pack (e :: es) = packOne e ++ pack es := by simp [pack]
    simp only [packSize, Prod.mk.injEq] at ih ⊢
    rw [h, List.countP_append, List.countP_append, ih.1, ih.2]
    have h1 : (packOne e).countP (fun w => w matches .int _) = c.dim := by
      simp [packOne, List.countP_map, Function.comp_def]
    have h2 : (packOne e).countP (fun w => w matches .int8 _) = 1 := by
      simp [packOne, List.countP_map, Function.comp_def]
    rw [h1, h2, List.length_cons]
    constructor
    · ring
    · omega

example : pack (d := 3) [sampleHex, root 3] ≠ [] := by decide +kernel

end T8.Standalone
