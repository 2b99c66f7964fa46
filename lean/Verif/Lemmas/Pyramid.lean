/-
Lemmas about the default pyramids: the refinement tree.
-/
import Verif.Spec.Pyramid
import Verif.Lemmas.SimplexIds

namespace T8.Pyramid
open T8.RTree T8.Bits
open T8.Simplex (look Cls)

theorem h32 : 0 < 3 → 21 < 32 := fun _ => by omega

/-- The cube of an element. -/
def Elem.cube (e : Elem) : Standalone.Elem 3 := e.tet.cube

theorem Elem.ext' {e f : Elem} (h1 : e.cube = f.cube) (h2 : e.type = f.type) (h3 : e.switch = f.switch) : e = f := by
  cases e; cases f
  simp only [Elem.mk.injEq]
  exact ⟨Simplex.Elem.ext' h1 h2, h3⟩

theorem len_eq (l : Nat) : len l = Simplex.len .tet l := rfl

theorem cubeid_eq (e : Elem) (l : Nat) : computeCubeid e l = Simplex.computeCubeid .tet e.tet l := by
  rw [computeCubeid, Simplex.computeCubeid]
  simp only [len_eq]
  split
  · rfl
  · rfl

theorem cubeid_lt (e : Elem) (l : Nat) : computeCubeid e l < 8 := by
  rw [cubeid_eq]; exact Simplex.cubeid_lt (c := .tet) e.tet l

theorem cubeid_testBit (e : Elem) {l : Nat} (hl : l ≠ 0) (i : Fin 3) :
    (computeCubeid e l).testBit i = (e.tet.x i).getLsbD (21 - l) := by
  rw [cubeid_eq]; exact Simplex.cubeid_testBit (c := .tet) e.tet hl i

/-! ### Tables -/

/-- The children of pyramids: the table of parent types is right, tetrahedra have type 0 or 3 and the third bit of the
cube id shows the type of the parent. -/
theorem child_table : ∀ b, b = 6 ∨ b = 7 → ∀ i < 10,
    look parenttypeIlocToCid b i < 8 ∧ look parenttypeIlocToType b i < 8 ∧
    look typeCidToIloc (look parenttypeIlocToType b i) (look parenttypeIlocToCid b i) = i ∧
    (6 ≤ look parenttypeIlocToType b i →
      look typeCidToParenttype (look parenttypeIlocToType b i - 6) (look parenttypeIlocToCid b i) = b ∧
      look cidTypeToParenttype (look parenttypeIlocToCid b i) (look parenttypeIlocToType b i) = b) ∧
    (¬ 6 ≤ look parenttypeIlocToType b i →
      (look parenttypeIlocToType b i = 0 ∨ look parenttypeIlocToType b i = 3) ∧
      (look parenttypeIlocToCid b i).testBit 2 = decide (b = 7)) := by
  rintro b (rfl | rfl) <;> decide +kernel

/-- The tables for tetrahedra are those of Model/Simplex. -/
theorem tet_tables : ∀ t < 6,
    (∀ cid < 8, look cidTypeToParenttype cid t = look (Simplex.cidTypeToParenttype .tet) cid t) ∧
    ∀ i < 8, look parenttypeIlocToCid t i = look (Simplex.parenttypeIlocToCid .tet) t i ∧
      look parenttypeIlocToType t i = look (Simplex.parenttypeIlocToType .tet) t i := by decide +kernel

/-! ### Shapes -/

theorem isPyra_iff (e : Elem) : isPyra e = true ↔ 6 ≤ e.type := by rw [isPyra, decide_eq_true_eq]

theorem numChildren_eq (e : Elem) : numChildren e = if 6 ≤ e.type then 10 else 8 := by
  rw [numChildren]
  simp only [isPyra_iff]

/-- What holds for all elements of the tree. -/
structure Good (e : Elem) : Prop where
  cube : Standalone.Valid 21 e.cube
  shape : ((e.type = 6 ∨ e.type = 7) ∧ e.switch = -1) ∨ (e.type < 6 ∧ 1 ≤ e.switch ∧ e.switch ≤ (e.level : Int))

theorem Good.aligned {e : Elem} (he : Good e) (h : ¬ 6 ≤ e.type) : Simplex.Aligned .tet e.tet :=
  ⟨he.cube, by show e.type < 6; omega⟩

theorem Good.pyra {e : Elem} (he : Good e) (h : 6 ≤ e.type) : (e.type = 6 ∨ e.type = 7) ∧ e.switch = -1 := by
  rcases he.shape with h1 | h1
  · exact h1
  · omega

theorem Good.tet {e : Elem} (he : Good e) (h : ¬ 6 ≤ e.type) : e.type < 6 ∧ 1 ≤ e.switch ∧ e.switch ≤ (e.level : Int) := by
  rcases he.shape with h1 | h1
  · omega
  · exact h1

theorem good_root : Good root := ⟨Standalone.valid_root, Or.inl ⟨Or.inl rfl, rfl⟩⟩

/-! ### Children -/

theorem child_level (e : Elem) (i : Nat) : (child e i).level = e.level + 1 := by
  rw [child]; split <;> rfl

theorem child_pyra {e : Elem} (h : 6 ≤ e.type) (i : Nat) :
    (child e i).cube = Standalone.child 21 e.cube (look parenttypeIlocToCid e.type i) ∧
    (child e i).type = look parenttypeIlocToType e.type i ∧
    (child e i).switch = if 6 ≤ look parenttypeIlocToType e.type i then -1 else ((e.level + 1 : Nat) : Int) := by
  rw [child, if_pos ((isPyra_iff e).2 h)]
  exact ⟨rfl, rfl, rfl⟩

theorem child_tet {e : Elem} (h : ¬ 6 ≤ e.type) (i : Nat) : child e i = ⟨Simplex.child .tet e.tet i, e.switch⟩ := by
  rw [child, if_neg (by rw [isPyra_iff]; exact h)]

/-- Children have the cube and the type of the tables, for pyramids and tetrahedra. -/
theorem child_cube {e : Elem} (he : Good e) (hl : e.level < 21) {i : Nat} (hi : i < numChildren e) :
    (child e i).cube = Standalone.child 21 e.cube (look parenttypeIlocToCid e.type i) ∧
    (child e i).type = look parenttypeIlocToType e.type i ∧ look parenttypeIlocToCid e.type i < 8 := by
  rw [numChildren_eq] at hi
  by_cases h : 6 ≤ e.type
  · rw [if_pos h] at hi
    exact ⟨(child_pyra h i).1, (child_pyra h i).2.1, (child_table e.type (he.pyra h).1 i hi).1⟩
  · rw [if_neg h] at hi
    have ha := he.aligned h
    have ht := (tet_tables e.type (he.tet h).1).2 i hi
    have hc := Simplex.child_table .tet e.tet.type ha.2 i hi
    rw [child_tet h, ht.1, ht.2]
    exact ⟨Simplex.child_cube ha hl hi, hc.2.2.2.2.2.2.1.symm, hc.2.2.1⟩

theorem good_child {e : Elem} (he : Good e) (hl : e.level < 21) {i : Nat} (hi : i < numChildren e) : Good (child e i) := by
  obtain ⟨h1, h2, _⟩ := child_cube he hl hi
  refine ⟨by rw [h1]; exact Standalone.valid_child h32 he.cube hl _, ?_⟩
  rw [numChildren_eq] at hi
  by_cases h : 6 ≤ e.type
  · rw [if_pos h] at hi
    have ht := child_table e.type (he.pyra h).1 i hi
    rw [h2, (child_pyra h i).2.2, child_level]
    by_cases h6 : 6 ≤ look parenttypeIlocToType e.type i
    · rw [if_pos h6]
      left
      exact ⟨by have := ht.2.1; omega, rfl⟩
    · rw [if_neg h6]
      right
      omega
  · rw [if_neg h] at hi
    have ha := he.aligned h
    have hs := he.tet h
    have := (Simplex.aligned_child ha hl hi).2
    right
    rw [child_level, child_tet h]
    refine ⟨this, hs.2.1, ?_⟩
    show e.switch ≤ ((e.level + 1 : Nat) : Int)
    omega

theorem cubeid_child {e : Elem} (he : Good e) (hl : e.level < 21) {i : Nat} (hi : i < numChildren e) :
    computeCubeid (child e i) (e.level + 1) = look parenttypeIlocToCid e.type i := by
  obtain ⟨h1, _, h3⟩ := child_cube he hl hi
  have h4 := Standalone.childId_child h32 he.cube hl h3
  rw [Standalone.childId_eq (Nat.succ_pos _), ← h1,
    show (child e i).cube.level = e.level + 1 from child_level e i] at h4
  rw [cubeid_eq, Simplex.cubeid_eq]
  exact h4

theorem parent_cube (e : Elem) : (parent e).cube = Standalone.parent 21 e.cube := by
  rw [parent]
  split
  · rfl
  · split <;> rfl

theorem parent_pyra {e : Elem} (h : 6 ≤ e.type) :
    (parent e).type = look typeCidToParenttype (e.type - 6) (computeCubeid e e.level) ∧ (parent e).switch = -1 := by
  rw [parent, if_pos ((isPyra_iff e).2 h)]
  exact ⟨rfl, rfl⟩

theorem parent_tet {e : Elem} (h : ¬ 6 ≤ e.type) (hs : e.switch = e.level) :
    (parent e).type = tetparentType e ∧ (parent e).switch = -1 := by
  rw [parent, if_neg (by rw [isPyra_iff]; exact h), if_pos hs]
  exact ⟨rfl, rfl⟩

theorem parent_tet' {e : Elem} (h : ¬ 6 ≤ e.type) (hs : e.switch ≠ e.level) :
    parent e = ⟨Simplex.parent .tet e.tet, e.switch⟩ := by
  rw [parent, if_neg (by rw [isPyra_iff]; exact h), if_neg hs]

/-- The third bit of the cube id. -/
theorem tetparentType_eq {e : Elem} (hc : Standalone.Valid 21 e.cube) (h0 : 0 < e.level) :
    tetparentType e = if (computeCubeid e e.level).testBit 2 then 7 else 6 := by
  have h1 := cubeid_testBit e (l := e.level) (by omega) 2
  rw [show ((2 : Fin 3) : Nat) = 2 from rfl] at h1
  rw [h1, tetparentType]
  have hlt : (e.tet.x 2).toNat < 2 ^ 21 := (hc.2 2).1
  have h2 : ((e.tet.x 2).sshiftRight (maxLevel - e.level)).toInt = (((e.tet.x 2).toNat / 2 ^ (21 - e.level) : Nat) : Int) := by
    have hm : (e.tet.x 2).msb = false := by rw [BitVec.msb_eq_false_iff_two_mul_lt]; omega
    rw [BitVec.sshiftRight_eq_of_msb_false hm, BitVec.toInt_eq_toNat_of_lt, BitVec.toNat_ushiftRight,
      Nat.shiftRight_eq_div_pow]
    · rfl
    · rw [BitVec.toNat_ushiftRight, Nat.shiftRight_eq_div_pow]
      have := Nat.div_le_self (e.tet.x 2).toNat (2 ^ (maxLevel - e.level))
      omega
  rw [h2]
  have h3 : (e.tet.x 2).getLsbD (21 - e.level) = decide ((e.tet.x 2).toNat / 2 ^ (21 - e.level) % 2 = 1) := by
    rw [BitVec.getLsbD, Nat.testBit_eq_decide_div_mod_eq]
  rw [h3]
  have h4 := Nat.mod_two_eq_zero_or_one ((e.tet.x 2).toNat / 2 ^ (21 - e.level))
  rcases h4 with h | h
  · rw [if_pos (by omega), if_neg (by rw [decide_eq_true_eq]; omega)]
  · rw [if_neg (by omega), if_pos (by rw [decide_eq_true_eq]; omega)]

theorem parent_child {e : Elem} (he : Good e) (hl : e.level < 21) {i : Nat} (hi : i < numChildren e) :
    parent (child e i) = e := by
  have hg := good_child he hl hi
  have hcid := cubeid_child he hl hi
  have hlv := child_level e i
  obtain ⟨h1, h2, _⟩ := child_cube he hl hi
  rw [numChildren_eq] at hi
  have hcube : (parent (child e i)).cube = e.cube := by
    rw [parent_cube, h1, Standalone.parent_child h32 he.cube hl]
  by_cases h : 6 ≤ e.type
  · rw [if_pos h] at hi
    have ht := child_table e.type (he.pyra h).1 i hi
    by_cases h6 : 6 ≤ look parenttypeIlocToType e.type i
    · have h7 := parent_pyra (e := child e i) (by rw [h2]; exact h6)
      refine Elem.ext' hcube ?_ (by rw [h7.2, (he.pyra h).2])
      rw [h7.1, hlv, hcid, h2]
      exact (ht.2.2.2.1 h6).1
    · have hs := (child_pyra h i).2.2
      rw [if_neg h6] at hs
      have h7 := parent_tet (e := child e i) (by rw [h2]; exact h6) (by rw [hs, hlv])
      refine Elem.ext' hcube ?_ (by rw [h7.2, (he.pyra h).2])
      rw [h7.1, tetparentType_eq hg.cube (by omega), hlv, hcid, (ht.2.2.2.2 h6).2]
      rcases (he.pyra h).1 with h' | h' <;> rw [h'] <;> rfl
  · rw [if_neg h] at hi
    have ha := he.aligned h
    have hs := he.tet h
    have hne : (child e i).switch ≠ (child e i).level := by
      rw [hlv, child_tet h]; show e.switch ≠ _; omega
    rw [parent_tet' (e := child e i) ?_ hne]
    · rw [child_tet h]
      show (⟨Simplex.parent .tet (Simplex.child .tet e.tet i), e.switch⟩ : Elem) = e
      rw [Simplex.parent_child ha hl hi]
    · rw [child_tet h]
      have := (Simplex.aligned_child ha hl hi).2
      show ¬ 6 ≤ (Simplex.child .tet e.tet i).type
      exact Nat.not_le.2 this

theorem childId_child {e : Elem} (he : Good e) (hl : e.level < 21) {i : Nat} (hi : i < numChildren e) :
    childId (child e i) = i := by
  have hcid := cubeid_child he hl hi
  have hlv := child_level e i
  obtain ⟨h1, h2, _⟩ := child_cube he hl hi
  rw [numChildren_eq] at hi
  by_cases h : 6 ≤ e.type
  · rw [if_pos h] at hi
    have ht := child_table e.type (he.pyra h).1 i hi
    rw [childId, if_pos, if_neg (by omega), hlv, hcid, h2]
    · exact ht.2.2.1
    · rw [isPyra_iff, h2, (child_pyra h i).2.2, hlv]
      by_cases h6 : 6 ≤ look parenttypeIlocToType e.type i
      · exact Or.inl h6
      · rw [if_neg h6]; exact Or.inr rfl
  · rw [if_neg h] at hi
    have ha := he.aligned h
    have hs := he.tet h
    rw [childId, if_neg, child_tet h]
    · exact Simplex.childId_child ha hl hi
    · rw [isPyra_iff, hlv, child_tet h]
      have := (Simplex.aligned_child ha hl hi).2
      rintro (h' | h')
      · exact absurd h' (Nat.not_le.2 this)
      · have : e.switch = ((e.level + 1 : Nat) : Int) := h'
        omega

/-! ### The tree -/

theorem Valid.good {e : Elem} (he : Valid e) : Good e := by
  induction he with
  | root => exact good_root
  | child e i _ hl hi ih => exact good_child ih hl (by rw [numChildren_eq]; exact hi)

theorem valid_child {e : Elem} (he : Valid e) (hl : e.level < 21) {i : Nat} (hi : i < numChildren e) : Valid (child e i) :=
  Valid.child e i he hl (by rw [← numChildren_eq]; exact hi)

/-- An element that is not the root is a child of its parent. -/
theorem valid_cases' {e : Elem} (he : Valid e) : e = root ∨ ∃ p i, Valid p ∧ p.level < 21 ∧ i < numChildren p ∧ e = child p i := by
  cases he with
  | root => exact Or.inl rfl
  | child p i h1 h2 h3 => exact Or.inr ⟨p, i, h1, h2, by rw [numChildren_eq]; exact h3, rfl⟩

theorem valid_cases {e : Elem} (he : Valid e) (hl : 0 < e.level) :
    ∃ p i, Valid p ∧ p.level < 21 ∧ i < numChildren p ∧ e = child p i := by
  rcases valid_cases' he with rfl | h
  · exact absurd hl (by decide)
  · exact h

/-- The refinement tree of the pyramids. -/
@[reducible] def tree : RTree where
  E := Elem
  Valid := Valid
  maxLevel := maxLevel
  level := Elem.level
  root := root
  nc := numChildren
  child := child
  parent := parent
  childId := childId
  valid_root := Valid.root
  level_root := rfl
  root_unique := fun e he hl => by
    rcases valid_cases' he with h | ⟨p, i, _, _, _, rfl⟩
    · exact h
    · rw [child_level] at hl; omega
  level_le := fun e he => he.good.cube.1
  nc_pos := fun e _ => by rw [numChildren_eq]; split <;> omega
  valid_child := fun _ _ he hl hi => valid_child he hl hi
  level_child := fun e i _ _ _ => child_level e i
  parent_child := fun _ _ he hl hi => parent_child he.good hl hi
  childId_child := fun _ _ he hl hi => childId_child he.good hl hi
  valid_parent := fun e he hl => by
    obtain ⟨p, i, h1, h2, h3, rfl⟩ := valid_cases he hl
    rw [parent_child h1.good h2 h3]; exact h1
  level_parent := fun e he hl => by
    obtain ⟨p, i, h1, h2, h3, rfl⟩ := valid_cases he hl
    rw [parent_child h1.good h2 h3, child_level]
  childId_lt := fun e he hl => by
    obtain ⟨p, i, h1, h2, h3, rfl⟩ := valid_cases he hl
    rw [parent_child h1.good h2 h3, childId_child h1.good h2 h3]; exact h3
  child_parent := fun e he hl => by
    obtain ⟨p, i, h1, h2, h3, rfl⟩ := valid_cases he hl
    rw [parent_child h1.good h2 h3, childId_child h1.good h2 h3]

end T8.Pyramid
