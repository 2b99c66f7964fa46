/-
C01–C09 for the quadrilaterals and hexahedra of the default scheme, for every p4est that does what is documented
(`Spec/P4est.lean`).
-/
import Verif.Lemmas.P4estReference
import Verif.Spec.Scheme

namespace T8.Cube
open T8.RTree
open T8.Standalone (Elem)

/-- Elements of level 3, used to show that the hypotheses below can be met. -/
def Cls.sample (c : Cls) : Elem c.dim :=
  child c.rootLevel (child c.rootLevel (child c.rootLevel (Standalone.root c.dim) 3) 0) 2

theorem Cls.max_large (c : Cls) : 18 ≤ c.maxLevel := by cases c <;> simp [Cls.maxLevel]

theorem Cls.sample_valid (c : Cls) : Valid c c.sample ∧ c.sample.level = 3 := by
  have hm := c.max_large
  have hn : ∀ i, i < 4 → i < numChildren c.dim := fun i hi => by
    rcases c.dim_cases with h | h <;> rw [numChildren, h] <;> omega
  have h1 := c.tree.valid_child c.tree.root 3 c.tree.valid_root
    (by show 0 < c.maxLevel; omega) (hn 3 (by omega))
  have h2 := c.tree.valid_child _ 0 h1 (by show 0 + 1 < c.maxLevel; omega) (hn 0 (by omega))
  exact ⟨c.tree.valid_child _ 2 h2 (by show 0 + 1 + 1 < c.maxLevel; omega) (hn 2 (by omega)), rfl⟩

/-- There are implementations of p4est that do what is documented, for both classes. -/
example : Cls.quad.reference.Documented .quad ∧ (Cls.hex 30 (by omega)).reference.Documented (.hex 30 (by omega)) ∧
    (Cls.hex 19 (by omega)).reference.Documented (.hex 19 (by omega)) :=
  ⟨Cls.reference_documented _, Cls.reference_documented _, Cls.reference_documented _⟩

variable (c : Cls) (P : P4est c.dim) (D : P.Documented c)
include D

/-! ### C01 -/

/-- C01. Parent and child are inverse. -/
theorem C01_cube (e : Elem c.dim) (he : Valid c e) :
    (e.level < c.maxLevel → ∀ i, i < numChildren c.dim →
      Valid c (child c.rootLevel e i) ∧ P.parent (child c.rootLevel e i) = e ∧ P.childId (child c.rootLevel e i) = i ∧
      (child c.rootLevel e i).level = e.level + 1) ∧
    (0 < e.level →
      Valid c (P.parent e) ∧ P.childId e < numChildren c.dim ∧ child c.rootLevel (P.parent e) (P.childId e) = e ∧
      (P.parent e).level + 1 = e.level) := by
  refine ⟨fun hl i hi => ?_, fun hl => ?_⟩
  · have hv : Valid c (child c.rootLevel e i) := c.tree.valid_child e i he hl hi
    have h0 : 0 < (child c.rootLevel e i).level := Nat.succ_pos _
    refine ⟨hv, ?_, ?_, rfl⟩
    · rw [D.parent_eq hv h0]; exact c.tree.parent_child e i he hl hi
    · rw [D.childId_eq hv h0]; exact c.tree.childId_child e i he hl hi
  · rw [D.parent_eq he hl, D.childId_eq he hl]
    exact ⟨c.tree.valid_parent e he hl, c.tree.childId_lt e he hl, c.tree.child_parent e he hl, c.tree.level_parent e he hl⟩

/-- C01. `element_get_children` lists the children by their child numbers. -/
theorem C01_cube_children (e : Elem c.dim) (he : Valid c e) (hl : e.level < c.maxLevel) :
    P.children e = (List.range (numChildren c.dim)).map (child c.rootLevel e) := D.children_eq he hl

/-- C01. The sibling with number `i` is the child `i` of the parent. -/
theorem C01_cube_sibling (e : Elem c.dim) (he : Valid c e) (hl : 0 < e.level) (i : Nat) (hi : i < numChildren c.dim) :
    sibling P e i = child c.rootLevel (P.parent e) i := by
  rw [D.parent_eq he hl]
  exact D.sibling_eq he hl hi

/-- C01. `set_to_root` constructs the root, and the valid elements are exactly those that can be created from it by repeated
refinement. -/
theorem C01_cube_reachable (e : Elem c.dim) : Valid c e ↔ c.tree.Desc (setToRoot P) e := by
  have hr : setToRoot P = c.tree.root := by
    have := D.setMorton 0 0 (Nat.zero_le _) (by simp [uniform])
    simpa [uniform, setToRoot] using this
  rw [hr]
  exact ⟨fun h => desc_root (T := c.tree) h, fun h => Desc.valid (T := c.tree) c.tree.valid_root h⟩

omit D in
/-- C01. Different child numbers give different children. -/
theorem C01_cube_distinct (e : Elem c.dim) (he : Valid c e) (hl : e.level < c.maxLevel) (i j : Nat)
    (hi : i < numChildren c.dim) (hj : j < numChildren c.dim) (h : child c.rootLevel e i = child c.rootLevel e j) : i = j :=
  child_inj (T := c.tree) he hl hi hj h

omit D in
/-- C01. The children tile the element: child `i` is the half of the element on the side given by the bits of `i`, in every
direction. -/
theorem C01_cube_halves (e : Elem c.dim) (he : Valid c e) (hl : e.level < c.maxLevel) (i : Nat) (k : Fin c.dim) :
    ((child c.rootLevel e i).coords k).toNat =
      (e.coords k).toNat + (if i.testBit k then 2 ^ (c.rootLevel - e.level) / 2 else 0) := by
  rw [c.child_toNat he hl]
  have h1 := he.lt_root hl
  have : Standalone.side c.rootLevel (child c.rootLevel e i) = 2 ^ (c.rootLevel - e.level) / 2 := by
    show 2 ^ (c.rootLevel - (e.level + 1)) = _
    rw [show c.rootLevel - e.level = c.rootLevel - (e.level + 1) + 1 by omega, Nat.pow_succ]
    omega
  rw [this]

omit c P D in
example (c : Cls) : Valid c c.sample ∧ 0 < c.sample.level ∧ c.sample.level < c.maxLevel := by
  have := c.sample_valid
  have := c.max_large
  exact ⟨c.sample_valid.1, by omega, by omega⟩

/-! ### C02 -/

/-- C02. `element_get_linear_id` is the position in the uniform refinement, for all levels. -/
theorem C02_cube_position : c.tree.LinearIdSpec (fun e L => (P.linearId e L).toNat) := D.linearId

/-- C02. `element_set_linear_id` constructs the element at a position of the uniform refinement. -/
theorem C02_cube_set : c.tree.SetLinearIdSpec (fun L id => some (P.setMorton L (BitVec.ofNat 64 id))) := D.setMorton

/-- C02. Every id below the number of elements of a level belongs to exactly one element of this level. -/
theorem C02_cube_bijection (L : Nat) (hL : L ≤ c.maxLevel) :
    (∀ id : Nat, id < (2 ^ c.dim) ^ L → Valid c (P.setMorton L (BitVec.ofNat 64 id)) ∧
      (P.setMorton L (BitVec.ofNat 64 id)).level = L ∧ (P.linearId (P.setMorton L (BitVec.ofNat 64 id)) L).toNat = id) ∧
    (∀ x, Valid c x → x.level = L → (P.linearId x L).toNat < (2 ^ c.dim) ^ L ∧ P.setMorton L (P.linearId x L) = x) := by
  obtain ⟨h1, h2⟩ := bijection_of D.linearId D.setMorton hL
  rw [c.regular.count_root hL] at h1 h2
  refine ⟨fun id hid => ?_, fun x hx hxL => ?_⟩
  · obtain ⟨x, a1, a2, a3, a4⟩ := h1 id hid
    cases a1
    exact ⟨a2, a3, a4⟩
  · obtain ⟨a1, a2⟩ := h2 x hx hxL
    refine ⟨a1, ?_⟩
    have := Option.some.inj a2
    rwa [BitVec.ofNat_toNat, BitVec.setWidth_eq] at this

omit c P D in
example : (5 : Nat) < (2 ^ Cls.quad.dim) ^ 2 ∧ 2 ≤ Cls.quad.maxLevel := by decide

/-! ### C03 -/

/-- C03. The successor is the next element of the uniform refinement. -/
theorem C03_cube : c.tree.SuccessorSpec (fun e => some (P.successor e)) := D.successor

/-- C03. For every element that is not the last one of its level the successor has the same level and the next linear id. -/
theorem C03_cube_next (e : Elem c.dim) (he : Valid c e)
    (hlast : (P.linearId e e.level).toNat + 1 < (2 ^ c.dim) ^ e.level) :
    Valid c (P.successor e) ∧ (P.successor e).level = e.level ∧
    (P.linearId (P.successor e) (P.successor e).level).toNat = (P.linearId e e.level).toNat + 1 := by
  have hL : Elem.level (d := c.dim) e ≤ c.tree.maxLevel := he.2
  obtain ⟨s, h1, h2, h3, h4⟩ := next_of D.linearId D.successor (e := e) he (by rw [c.regular.count_root hL]; exact hlast)
  cases h1
  exact ⟨h2, h3, h4⟩

omit c P D in
/-- The first element of a level larger than 0 is not the last one. -/
example (c : Cls) (P : P4est c.dim) (D : P.Documented c) : (P.linearId (P.setMorton 3 (BitVec.ofNat 64 0)) 3).toNat + 1 < (2 ^ c.dim) ^ 3 := by
  have h := ((C02_cube_bijection c P D 3 (by have := c.max_large; omega)).1 0 (by positivity)).2.2
  rw [h]
  rcases c.dim_cases with hd | hd <;> rw [hd] <;> decide

/-! ### C04 -/

/-- C04. First and last descendant are the ends of the uniform refinement of the element. -/
theorem C04_cube_ends : c.tree.DescendantSpec P.firstDescendant P.lastDescendant := D.descendants

/-- C04. The descendants of a level are the interval between first and last descendant. -/
theorem C04_cube_interval :
    c.tree.DescendantIntervalSpec (fun e L => (P.linearId e L).toNat) P.firstDescendant P.lastDescendant :=
  descendantIntervalSpec_of D.linearId D.descendants

/-! ### C05 -/

/-- C05. The nearest common ancestor. -/
theorem C05_cube : c.tree.NcaSpec (fun x y => some (P.nca x y)) := D.nca

/-! ### C06 -/

/-- C06. The family test is exact on arrays of valid elements of the right length, also if they contain the root. -/
theorem C06_cube (fam : List (Elem c.dim)) (hlen : fam.length = numChildren c.dim) (hv : ∀ x ∈ fam, Valid c x) :
    P.isFamily fam = true ↔ ∃ p, Valid c p ∧ p.level < c.maxLevel ∧ fam = P.children p := by
  rw [D.isFamily fam hlen hv]
  constructor
  · rintro ⟨p, h1, h2, h3⟩
    exact ⟨p, h1, h2, by rw [D.children_eq h1 h2]; exact h3⟩
  · rintro ⟨p, h1, h2, h3⟩
    exact ⟨p, h1, h2, by rw [h3, D.children_eq h1 h2]⟩

/-! ### C07 -/

/-- C07. The comparison decides the order of the space-filling curve … -/
theorem C07_cube : c.tree.CompareSpec P.compare := D.compare

omit P D in
/-- C07. … which is a strict total order. -/
theorem C07_cube_total : c.tree.LtTotalOrder := ltTotalOrder

/-! ### C08 -/

/-- C08. `element_is_ancestor` is true exactly for ancestors. -/
theorem C08_cube : c.tree.IsAncestorSpec (isAncestor P) := Default.isAncestor_spec D.linearId

/-- C08. `element_get_ancestor_id` is the child id of the iterated parent. -/
theorem C08_cube_iterate (e : Elem c.dim) (he : Valid c e) (l : Nat) (h0 : 0 < l) (hl : l ≤ e.level) :
    P.ancestorId e l = P.childId (P.parent^[e.level - l] e) := by
  have key : ∀ n, n ≤ e.level → P.parent^[n] e = c.tree.parent^[n] e ∧ Valid c (P.parent^[n] e) ∧
      (P.parent^[n] e).level = e.level - n := by
    intro n
    induction n with
    | zero => intro _; exact ⟨rfl, he, rfl⟩
    | succ n ih =>
      intro hn
      obtain ⟨h1, h2, h3⟩ := ih (by omega)
      have h4 : 0 < (P.parent^[n] e).level := by omega
      obtain ⟨k1, k2, _⟩ := D.parent _ h2 h4
      have k3 := D.parent_eq h2 h4
      rw [Function.iterate_succ_apply', Function.iterate_succ_apply', ← h1]
      exact ⟨k3, k1, by omega⟩
  rw [D.ancestorId e l he h0 hl, (key (e.level - l) (by omega)).1]
  rfl

omit c P D in
example (c : Cls) : Valid c c.sample ∧ 0 < 2 ∧ 2 ≤ c.sample.level := ⟨c.sample_valid.1, by omega, by rw [c.sample_valid.2]; omega⟩

/-! ### C09 -/

omit P D in
/-- C09. `count` is the number of distinct descendants. -/
theorem C09_cube_meaning (e : Elem c.dim) (he : Valid c e) (L : Nat) (hl : e.level ≤ L) (hL : L ≤ c.maxLevel) :
    ∃ xs : List (Elem c.dim), xs.length = c.tree.count e L ∧ xs.Nodup ∧ ∀ x, x ∈ xs ↔ c.tree.Desc e x ∧ x.level = L :=
  Default.count_meaning (T := c.tree) he hl hL

omit P D in
/-- C09. The leaf count is exact on all elements and levels. -/
theorem C09_cube : c.tree.CountSpec (fun e L => (countLeaves (d := c.dim) e L).toInt) := by
  intro e L he hL
  have hL' : L ≤ c.maxLevel := hL
  refine Default.countLeaves_eq (T := c.tree) (dim := c.dim) c.regular he hL ?_
  exact lt_of_le_of_lt (Nat.mul_le_mul_left _ (le_trans (Nat.sub_le _ _) hL')) c.bits

omit P D in
/-- C09. The count from the root. -/
theorem C09_cube_root (L : Nat) (hL : L ≤ c.maxLevel) :
    (Default.countLeavesFromRoot c.dim L).toInt = c.tree.count (Standalone.root c.dim) L :=
  Default.countLeaves_root (T := c.tree) (dim := c.dim) c.regular hL (lt_of_le_of_lt (Nat.mul_le_mul_left _ hL) c.bits)

omit c P D in
example : (countLeaves (d := 3) (Cls.hex 18 (by omega)).sample 7).toInt = 4096 := by decide +kernel

/-! ### The scheme -/

omit D in
/-- The default scheme of quadrilaterals or hexahedra. `element_get_num_siblings`, `t8_default_common.hxx`, is the number of
children for all elements. -/
def Cls.scheme (c : Cls) (P : P4est c.dim) : Scheme c.tree where
  isEqual := P.isEqual
  numSiblings := fun _ => numChildren c.dim
  childId := fun e => P.childId e
  isRefinable := fun e => isRefinable (d := c.dim) c.maxLevel e
  linearId := fun e L => (P.linearId e L).toNat
  setLinearId := fun L id => some (P.setMorton L (BitVec.ofNat 64 id))
  successor := fun e => some (P.successor e)
  firstDescendant := P.firstDescendant
  lastDescendant := P.lastDescendant
  compare := P.compare
  isAncestor := isAncestor P
  ancestorId := fun e l => P.ancestorId e l
  nca := fun x y => some (P.nca x y)
  areFamily := fun fam => some (P.isFamily fam)
  countLeavesFromRoot := fun L => (Default.countLeavesFromRoot c.dim L).toInt

/-- The family test is right for all arrays. -/
theorem Cls.scheme_exact : (c.scheme P).ExactFamilies := fun fam _ _ hlen hv _ =>
  ⟨_, rfl, D.isFamily fam hlen hv⟩

/-- The scheme is lawful, so all theorems about forests apply. -/
theorem Cls.scheme_lawful : (c.scheme P).Lawful where
  isEqual := D.isEqual
  numSiblings_pos := fun _ _ => Nat.two_pow_pos c.dim
  numSiblings := fun _ _ _ => rfl
  childId := fun e he hl => by
    show (P.childId e : Int) = _
    rw [D.childId_eq he hl]
  childId_root := by
    show (P.childId (Standalone.root c.dim) : Int) ≤ 0
    rw [D.childId_root]
    simp
  root_no_family := Or.inr (Or.inl (by
    show numChildren c.dim ≠ 1
    rcases c.dim_cases with h | h <;> rw [numChildren, h] <;> omega))
  isRefinable := fun e _ => by
    show isRefinable (d := c.dim) c.maxLevel e = true ↔ Elem.level (d := c.dim) e < c.maxLevel
    simp [isRefinable]
  linearId := D.linearId
  setLinearId := D.setMorton
  successor := D.successor
  descendants := D.descendants
  compare := D.compare
  isAncestor := C08_cube c P D
  ancestorId := fun e l he h0 hl => by
    show (P.ancestorId e l : Int) = _
    have hla : c.tree.level (c.tree.anc e l) = l := level_anc (T := c.tree) he hl
    rw [D.ancestorId e l he h0 hl, D.childId_eq (valid_anc (T := c.tree) he l) (by
      show 0 < c.tree.level (c.tree.anc e l)
      omega)]
  nca := D.nca
  areFamily := fun fam _ _ hlen hv _ => ⟨_, rfl, fun _ => D.isFamily fam hlen hv⟩
  countLeavesFromRoot := fun L hL _ => C09_cube_root c L hL

end T8.Cube
