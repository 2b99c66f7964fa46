/-
Consequences of the documentation of p4est.
-/
import Verif.Spec.P4est
import Verif.Lemmas.DefaultCommon
import Verif.Lemmas.ElementIds
import Verif.Lemmas.Standalone
import Mathlib.Tactic.IntervalCases

namespace T8.Cube
open T8.RTree
open T8.Standalone (Elem getLen Elem.ext')

variable {c : Cls} {P : P4est c.dim}

theorem box_le {M d : Nat} {p e : Elem d} (h : Standalone.Box M e ⊆ Standalone.Box M p) (i : Fin d) :
    (p.coords i).toNat ≤ (e.coords i).toNat ∧
      (e.coords i).toNat + Standalone.side M e ≤ (p.coords i).toNat + Standalone.side M p := by
  have h1 : (fun i => (e.coords i).toNat) ∈ Standalone.Box M e := fun i => ⟨le_refl _, Nat.le_add_right _ _⟩
  have h2 : (fun i => (e.coords i).toNat + Standalone.side M e) ∈ Standalone.Box M e := fun i =>
    ⟨Nat.le_add_right _ _, le_refl _⟩
  exact ⟨(h h1 i).1, (h h2 i).2⟩

theorem P4est.Documented.parent_eq (D : P.Documented c) {e : Elem c.dim} (he : Valid c e) (hl : 0 < e.level) :
    P.parent e = Standalone.parent c.rootLevel e := by
  obtain ⟨h1, h2, h3⟩ := D.parent e he hl
  refine (c.parent_of_box h1 he h2 fun i => ?_).symm
  have := box_le h3 i
  have := Standalone.side_pos (M := c.rootLevel) e
  omega

theorem P4est.Documented.childId_eq (D : P.Documented c) {e : Elem c.dim} (he : Valid c e) (hl : 0 < e.level) :
    P.childId e = c.tree.childId e := by
  obtain ⟨h1, h2⟩ := D.childId e he hl
  have hi : c.tree.childId e < 2 ^ c.dim := c.tree.childId_lt e he hl
  have hp : Valid c (Standalone.parent c.rootLevel e) := c.tree.valid_parent e he hl
  have hpl : (Standalone.parent c.rootLevel e).level < c.maxLevel := by
    have h3 := he.2
    show e.level - 1 < c.maxLevel
    omega
  have hc : child c.rootLevel (Standalone.parent c.rootLevel e) (c.tree.childId e) = e := c.tree.child_parent e he hl
  apply Nat.eq_of_testBit_eq
  intro k
  rcases Nat.lt_or_ge k c.dim with hk | hk
  · have := h2 ⟨k, hk⟩
    rw [D.parent_eq he hl] at this
    have h4 := c.child_toNat hp hpl (c.tree.childId e) ⟨k, hk⟩
    rw [hc] at h4
    have hs := Standalone.side_pos (M := c.rootLevel) e
    have this' : (P.childId e).testBit k = _ := this
    rw [this']
    cases hb : (c.tree.childId e).testBit k
    · have hb' : (c.tree.childId e).testBit (⟨k, hk⟩ : Fin c.dim).val = false := hb
      rw [hb'] at h4
      simpa using le_of_eq h4
    · have hb' : (c.tree.childId e).testBit (⟨k, hk⟩ : Fin c.dim).val = true := hb
      rw [hb', if_pos rfl] at h4
      rw [decide_eq_true_eq]
      omega
  · have h5 : ∀ n, n < 2 ^ c.dim → n.testBit k = false := fun n hn =>
      Nat.testBit_lt_two_pow (lt_of_lt_of_le hn (Nat.pow_le_pow_right (by omega) hk))
    rw [h5 _ h1, h5 _ hi]

/-- A quadrant is determined by its parent and its child id. -/
theorem P4est.Documented.eq_child (D : P.Documented c) {x p : Elem c.dim} {i : Nat} (hx : Valid c x) (hl : 0 < x.level)
    (hp : P.parent x = p) (hi : P.childId x = i) : x = child c.rootLevel p i := by
  rw [← hp, ← hi, D.parent_eq hx hl, D.childId_eq hx hl]
  exact (c.tree.child_parent x hx hl).symm

theorem P4est.Documented.children_eq (D : P.Documented c) {e : Elem c.dim} (he : Valid c e) (hl : e.level < c.maxLevel) :
    P.children e = (List.range (numChildren c.dim)).map (child c.rootLevel e) := by
  obtain ⟨h1, h2⟩ := D.children e he hl
  apply List.ext_getElem?
  intro i
  rcases Nat.lt_or_ge i (P.children e).length with hi | hi
  · have hx := List.getElem?_eq_getElem hi
    obtain ⟨a1, a2, a3, a4⟩ := h2 i _ hx
    rw [hx, D.eq_child a1 a2 a3 a4, List.getElem?_map, List.getElem?_range (by rw [h1] at hi; exact hi)]
    rfl
  · rw [List.getElem?_eq_none hi, List.getElem?_eq_none]
    rw [List.length_map, List.length_range]
    rw [h1] at hi
    exact hi

theorem P4est.Documented.sibling_eq (D : P.Documented c) {e : Elem c.dim} (he : Valid c e) (hl : 0 < e.level) {i : Nat}
    (hi : i < 2 ^ c.dim) : P.sibling e i = child c.rootLevel (Standalone.parent c.rootLevel e) i := by
  obtain ⟨h1, h2, h3, h4⟩ := D.sibling e i he hl hi
  rw [← D.parent_eq he hl]
  exact D.eq_child h1 (by omega) h3 h4

/-! ### Faces -/

theorem P4est.Documented.faceNeighbor_eq (D : P.Documented c) {e : Elem c.dim} (he : Valid c e) {f : Nat}
    (hf : f < 2 * c.dim) : P.faceNeighbor e f = Standalone.faceNeighbor c.rootLevel e f := by
  obtain ⟨h1, h2⟩ := D.faceNeighbor e f he hf
  refine Elem.ext' (fun i => ?_) h1
  apply BitVec.eq_of_toInt_eq
  rw [h2 i]
  have hM : c.rootLevel < 32 := c.small' i.pos
  have h3 := Standalone.coord_add_side_le he.1 i
  have h4 : 2 ^ c.rootLevel ≤ 2 ^ 30 := Nat.pow_le_pow_right (by omega) c.root_small
  have h5 := Standalone.getLen_toNat hM e.level
  have h6 : Standalone.side c.rootLevel e = 2 ^ (c.rootLevel - e.level) := rfl
  rw [h6] at h3
  rw [show ((2 : Int) ^ (c.rootLevel - e.level)) = ((2 ^ (c.rootLevel - e.level) : Nat) : Int) by norm_num]
  simp only [Standalone.faceNeighbor]
  generalize 2 ^ (c.rootLevel - e.level) = s at *
  generalize 2 ^ c.rootLevel = R at *
  generalize getLen c.rootLevel e.level = g at *
  generalize e.coords i = x at *
  split
  · split
    · rw [BitVec.toInt_eq_toNat_cond, BitVec.toNat_add, h5, Nat.mod_eq_of_lt (by omega), if_pos (by omega)]
      omega
    · rw [BitVec.toInt_eq_toNat_cond, BitVec.toNat_sub, h5]
      split <;> omega
  · rw [BitVec.toInt_eq_toNat_cond, if_pos (by omega)]
    omega

theorem P4est.Documented.isInsideRoot_eq (D : P.Documented c) {e : Elem c.dim} (he : Valid c e) {f : Nat}
    (hf : f < 2 * c.dim) : P.isInsideRoot (P.faceNeighbor e f) =
      Standalone.isInsideRoot c.rootLevel (Standalone.faceNeighbor c.rootLevel e f) := by
  have hf' : f / 2 < c.dim := by omega
  have hin := D.isInsideRoot (P.faceNeighbor e f)
  rcases Standalone.faceNeighbor_spec c.small he.1 hf' with ⟨h1, h2⟩ | ⟨_, h2, h3, _⟩
  · rw [h2, Bool.eq_false_iff, ne_eq, hin]
    intro hall
    have h3 := (D.faceNeighbor e f he hf).2 ⟨f / 2, hf'⟩
    rw [if_pos rfl] at h3
    have h4 := hall ⟨f / 2, hf'⟩
    rw [Standalone.isRootBoundary_iff c.small' he.1 hf', Standalone.face_subset_iff rfl hf'] at h1
    have h5 := h1.2 ⟨f / 2, hf'⟩ rfl
    have hroot : ((Standalone.root c.dim).coords ⟨f / 2, hf'⟩).toNat = 0 := rfl
    have hsr : Standalone.side c.rootLevel (Standalone.root c.dim) = 2 ^ c.rootLevel := rfl
    have hse : Standalone.side c.rootLevel e = 2 ^ (c.rootLevel - e.level) := rfl
    rw [hroot, hsr, hse] at h5
    rw [h3] at h4
    rw [show ((2 : Int) ^ (c.rootLevel - e.level)) = ((2 ^ (c.rootLevel - e.level) : Nat) : Int) by norm_num,
      show ((2 : Int) ^ c.rootLevel) = ((2 ^ c.rootLevel : Nat) : Int) by norm_num] at h4
    have hp := Nat.two_pow_pos (c.rootLevel - e.level)
    have hf2 : f % 2 = 0 ∨ f % 2 = 1 := by omega
    rcases hf2 with a | a <;> rw [a] at h4 h5
    · rw [if_neg (by omega)] at h4; omega
    · rw [if_pos rfl] at h4; omega
  · rw [h2, hin, D.faceNeighbor_eq he hf]
    intro i
    have h4 := (h3.2 i).1
    have h5 : 2 ^ c.rootLevel ≤ 2 ^ 30 := Nat.pow_le_pow_right (by omega) c.root_small
    rw [show ((2 : Int) ^ c.rootLevel) = ((2 ^ c.rootLevel : Nat) : Int) by norm_num]
    rw [BitVec.toInt_eq_toNat_cond, if_pos (by omega)]
    omega

theorem P4est.Documented.faceDual_eq (D : P.Documented c) {f : Nat} (hf : f < 2 * c.dim) : P.faceDual f = f ^^^ 1 := by
  have h1 := D.faceDual f hf
  have h2 := Standalone.xor_one_div f
  have h3 := Standalone.xor_one_mod f
  omega

/-- The neighbor is the one of the standalone implementation. -/
theorem P4est.Documented.neighbor_eq (D : P.Documented c) {e : Elem c.dim} (he : Valid c e) {f : Nat}
    (hf : f < 2 * c.dim) : faceNeighborInside P e f = Standalone.faceNeighborInside c.rootLevel e f := by
  rw [faceNeighborInside, Standalone.faceNeighborInside, D.isInsideRoot_eq he hf, D.faceNeighbor_eq he hf, D.faceDual_eq hf]

/-- The child indices at a face. -/
theorem P4est.Documented.childIds_eq (D : P.Documented c) {f : Nat} (hf : f < 2 * c.dim) :
    childrenAtFaceIds c P f = (List.range (numChildren c.dim)).filter (fun k => CornerOnFace k f) := by
  cases c with
  | quad =>
    have : f < 4 := hf
    have tab : ∀ f, f < 4 → childrenAtFaceIds .quad P f = (List.range (2 ^ 2)).filter (fun k => CornerOnFace k f) := by
      intro f hf
      interval_cases f <;> rfl
    exact tab f this
  | hex M h => exact D.faceCorners f hf

theorem corner_table (d k : Nat) (hd : d = 2 ∧ k = 1 ∨ d = 3 ∧ k = 3) : ∀ f, f < 2 * d →
    (∃ n : Fin (2 ^ d), ((List.range (2 ^ d)).filter (fun k => CornerOnFace k f))[0]? = some n.val ∧
      ∀ i : Fin d, n.val.testBit i.val = decide (i.val = f / 2 ∧ f % 2 = 1)) ∧
    ∃ n : Fin (2 ^ d), ((List.range (2 ^ d)).filter (fun k => CornerOnFace k f))[k]? = some n.val ∧
      ∀ i : Fin d, n.val.testBit i.val = decide (i.val = f / 2 → f % 2 = 1) := by
  rcases hd with ⟨rfl, rfl⟩ | ⟨rfl, rfl⟩ <;> decide +kernel

/-- The number of the last corner of a face. -/
def Cls.lastCorner : Cls → Nat
  | .quad => 1
  | .hex _ _ => 3

/-- First and last corner of a face. -/
theorem P4est.Documented.corners (D : P.Documented c) {f : Nat} (hf : f < 2 * c.dim) :
    (P.faceCorners f 0 < 2 ^ c.dim ∧
      ∀ i : Fin c.dim, (P.faceCorners f 0).testBit i.val = decide (i.val = f / 2 ∧ f % 2 = 1)) ∧
    P.faceCorners f c.lastCorner < 2 ^ c.dim ∧
      ∀ i : Fin c.dim, (P.faceCorners f c.lastCorner).testBit i.val = decide (i.val = f / 2 → f % 2 = 1) := by
  have h := D.faceCorners f hf
  obtain ⟨⟨n, h1, h2⟩, m, h3, h4⟩ := corner_table c.dim c.lastCorner (by cases c <;> simp [Cls.lastCorner]) f hf
  rw [← h] at h1 h3
  have e1 : P.faceCorners f 0 = n := by
    cases c <;> simpa [List.range_succ] using h1
  have e2 : P.faceCorners f c.lastCorner = m := by
    cases c <;> simpa [List.range_succ, Cls.lastCorner] using h3
  rw [e1, e2]
  exact ⟨⟨n.2, h2⟩, m.2, h4⟩

end T8.Cube
