/-
Lemmas about triangles and tetrahedra: the connectivity tables, the geometric meaning of types, and the
refinement tree.
-/
import Verif.Spec.Simplex
import Verif.Lemmas.Standalone
import Verif.Lemmas.BitVec
import Verif.Lemmas.Regular
import Mathlib.Tactic.FinCases
import Mathlib.Tactic.IntervalCases

namespace T8.Simplex
open T8.RTree T8.Bits

variable {c : Cls}

theorem Elem.ext' {d : Nat} {e f : Elem d} (h1 : e.cube = f.cube) (h2 : e.type = f.type) : e = f := by
  cases e; cases f
  simp only [Elem.cube, Standalone.Elem.mk.injEq] at h1 h2
  rw [h1.1, h1.2, h2]

theorem maxLevel_lt (c : Cls) : c.maxLevel < 30 := by cases c <;> decide

theorem h32 (c : Cls) : 0 < c.dim → c.maxLevel < 32 := fun _ => lt_trans (maxLevel_lt c) (by omega)

theorem numChildren_eq (c : Cls) : c.numChildren = 2 ^ c.dim := by cases c <;> decide

theorem len_eq (c : Cls) (l : Nat) : len c l = Standalone.getLen c.maxLevel l := rfl

theorem len_toNat (c : Cls) (l : Nat) : (len c l).toNat = size c l :=
  toNat_twoPow (lt_of_le_of_lt (Nat.sub_le _ _) (h32 c (by cases c <;> decide)))

theorem cubeid_eq (e : Elem c.dim) (l : Nat) : computeCubeid c e l = Standalone.cubeId c.maxLevel e.cube l := by
  rw [computeCubeid, Standalone.cubeId]
  by_cases h : l = 0
  · rw [if_pos h, if_neg (not_not.2 h)]
  · rw [if_neg h, if_pos h]; rfl

theorem cubeid_lt (e : Elem c.dim) (l : Nat) : computeCubeid c e l < 2 ^ c.dim := by
  rw [cubeid_eq]
  by_cases h : l = 0
  · rw [Standalone.cubeId, if_neg (not_not.2 h)]; exact Nat.two_pow_pos _
  · exact Standalone.cubeId_lt (h32 c) _ h

theorem cubeid_testBit (e : Elem c.dim) {l : Nat} (hl : l ≠ 0) (i : Fin c.dim) :
    (computeCubeid c e l).testBit i = (e.x i).getLsbD (c.maxLevel - l) := by
  rw [Bool.eq_iff_iff, cubeid_eq, Standalone.cubeId_testBit (h32 c) _ hl]
  exact ⟨fun ⟨_, h⟩ => h, fun h => ⟨i.2, h⟩⟩

/-! ### The tables -/

/-- The type of the parent puts the axes in the order of the bits of the cube id, and keeps the order of the type
for equal bits. -/
theorem parenttype_rank (c : Cls) : ∀ cid < 2 ^ c.dim, ∀ t < c.numTypes,
    look (cidTypeToParenttype c) cid t < c.numTypes ∧
    ∀ i j : Fin c.dim, rank c (look (cidTypeToParenttype c) cid t) i < rank c (look (cidTypeToParenttype c) cid t) j ↔
      (cid.testBit j = false ∧ cid.testBit i = true) ∨
        (cid.testBit i = cid.testBit j ∧ rank c t i < rank c t j) := by
  cases c <;> decide +kernel

/-- The order of the axes determines the type. -/
theorem type_ext (c : Cls) : ∀ t < c.numTypes, ∀ t' < c.numTypes,
    (∀ i j : Fin c.dim, rank c t i < rank c t j → rank c t' i < rank c t' j) → t = t' := by
  cases c <;> decide +kernel

theorem rank_inj (c : Cls) : ∀ t < c.numTypes, ∀ i j : Fin c.dim, rank c t i = rank c t j → i = j := by
  cases c <;> decide +kernel

theorem rank_le (c : Cls) : ∀ t < c.numTypes, ∀ i : Fin c.dim, 1 ≤ rank c t i ∧ rank c t i ≤ c.dim := by
  cases c <;> decide +kernel

/-- The vertex that `t8_dtri_child` uses. -/
def vertexOf (c : Cls) (b I : Nat) : Nat := (beyidToVertex c).getD (look (indexToBeyNumber c) b I) 0

/-- The cube id of child number `I` of a parent of type `b`. -/
def cidOf (c : Cls) (b I : Nat) : Nat := look (parenttypeIlocToCid c) b I

/-- The type of child number `I` of a parent of type `b`. -/
def typeOf (c : Cls) (b I : Nat) : Nat := look (typeOfChild c) b (look (indexToBeyNumber c) b I)

theorem child_table (c : Cls) : ∀ b < c.numTypes, ∀ I < c.numChildren,
    vertexOf c b I ≤ c.dim ∧ (look (indexToBeyNumber c) b I = 0 ↔ vertexOf c b I = 0) ∧
    cidOf c b I < 2 ^ c.dim ∧ typeOf c b I < c.numTypes ∧
    look (cidTypeToParenttype c) (cidOf c b I) (typeOf c b I) = b ∧
    look (typeCidToIloc c) (typeOf c b I) (cidOf c b I) = I ∧
    look (parenttypeIlocToType c) b I = typeOf c b I ∧
    ∀ i : Fin c.dim, (cidOf c b I).testBit i = decide (rank c b i ≤ vertexOf c b I) := by
  cases c <;> decide +kernel

theorem parent_table (c : Cls) : ∀ cid < 2 ^ c.dim, ∀ t < c.numTypes,
    look (typeCidToIloc c) t cid < c.numChildren ∧
    cidOf c (look (cidTypeToParenttype c) cid t) (look (typeCidToIloc c) t cid) = cid ∧
    typeOf c (look (cidTypeToParenttype c) cid t) (look (typeCidToIloc c) t cid) = t := by
  cases c <;> decide +kernel

theorem child_zero (c : Cls) : ∀ b < c.numTypes, cidOf c b 0 = 0 ∧ typeOf c b 0 = b := by
  cases c <;> decide +kernel

theorem child_last (c : Cls) : ∀ b < c.numTypes,
    cidOf c b (c.numChildren - 1) = 2 ^ c.dim - 1 ∧ typeOf c b (c.numChildren - 1) = b := by
  cases c <;> decide +kernel

/-! ### Elements with an aligned cube -/

/-- The cube is one of the cubes of the level and the type is a type. -/
def Aligned (c : Cls) (e : Elem c.dim) : Prop := Standalone.Valid c.maxLevel e.cube ∧ e.type < c.numTypes

theorem x_dvd {e : Elem c.dim} (he : Aligned c e) (i : Fin c.dim) : size c e.level ∣ (e.x i).toNat := (he.1.2 i).2

theorem x_lt {e : Elem c.dim} (he : Aligned c e) (i : Fin c.dim) : (e.x i).toNat < 2 ^ c.maxLevel := (he.1.2 i).1

theorem size_dvd (c : Cls) (l : Nat) : size c l ∣ 2 ^ c.maxLevel := pow_dvd (Nat.sub_le _ _)

theorem size_pos (c : Cls) (l : Nat) : 0 < size c l := Nat.two_pow_pos _

theorem x_add_le {e : Elem c.dim} (he : Aligned c e) (i : Fin c.dim) :
    (e.x i).toNat + size c e.level ≤ 2 ^ c.maxLevel :=
  add_le_of_dvd (x_dvd he i) (size_dvd c _) (x_lt he i)

theorem pow_max_lt (c : Cls) : 2 ^ c.maxLevel < 2 ^ 30 := Nat.pow_lt_pow_right (by omega) (maxLevel_lt c)

/-- The vertices of an element. -/
theorem integerCoords_eq {e : Elem c.dim} (ht : e.type < c.numTypes) {v : Nat} (hv : v ≤ c.dim) (i : Fin c.dim) :
    integerCoords c e v i = e.x i + if rank c e.type i ≤ v then len c e.level else 0 := by
  obtain ⟨x, l, t⟩ := e
  cases c
  · simp only [Cls.numTypes] at ht
    interval_cases t <;> interval_cases v <;> fin_cases i <;> simp [integerCoords, addAt, rank, axes, List.idxOf_cons]
  · simp only [Cls.numTypes] at ht
    interval_cases t <;> interval_cases v <;> fin_cases i <;> simp [integerCoords, addAt, rank, axes, List.idxOf_cons]

theorem allCoords_eq {e : Elem c.dim} (ht : e.type < c.numTypes) {v : Nat} (hv : v ≤ c.dim) (i : Fin c.dim) :
    allCoords c e v i = e.x i + if rank c e.type i ≤ v then len c e.level else 0 := by
  obtain ⟨x, l, t⟩ := e
  cases c
  · simp only [Cls.numTypes] at ht
    interval_cases t <;> interval_cases v <;> fin_cases i <;> simp [allCoords, addAt, rank, axes, List.idxOf_cons]
  · simp only [Cls.numTypes] at ht
    interval_cases t <;> interval_cases v <;> fin_cases i <;> simp [allCoords, addAt, rank, axes, List.idxOf_cons]

theorem size_succ {l : Nat} (hl : l < c.maxLevel) : size c l = 2 * size c (l + 1) := by
  rw [size, size, ← Nat.pow_succ']
  congr 1
  omega

/-- The mid point of the anchor and a vertex. -/
theorem half_sum {e : Elem c.dim} (he : Aligned c e) (hl : e.level < c.maxLevel) (b : Bool) (i : Fin c.dim) :
    (e.x i + (e.x i + if b then len c e.level else 0)).sshiftRight 1 =
      e.x i + if b then len c (e.level + 1) else 0 := by
  have h1 := x_add_le he i
  have h2 := pow_max_lt c
  have h3 := size_succ hl
  have h4 := len_toNat c e.level
  have h5 := len_toNat c (e.level + 1)
  have h0 : (0 : BitVec 32).toNat = 0 := rfl
  apply BitVec.eq_of_toNat_eq
  have hs : (e.x i + (e.x i + if b then len c e.level else 0)).toNat =
      (e.x i).toNat + ((e.x i).toNat + if b then size c e.level else 0) := by
    rw [BitVec.toNat_add, BitVec.toNat_add, Nat.add_mod_mod]
    split
    · rw [h4]; exact Nat.mod_eq_of_lt (by omega)
    · rw [h0]; exact Nat.mod_eq_of_lt (by omega)
  rw [toNat_shift _ (by rw [hs]; split <;> omega), hs, BitVec.toNat_add]
  split
  · rw [h5, Nat.mod_eq_of_lt (by omega)]; omega
  · rw [h0, Nat.mod_eq_of_lt (by omega)]; omega

/-- The cube of a child. -/
theorem child_cube {e : Elem c.dim} (he : Aligned c e) (hl : e.level < c.maxLevel) {I : Nat} (hI : I < c.numChildren) :
    (child c e I).cube = Standalone.child c.maxLevel e.cube (cidOf c e.type I) := by
  obtain ⟨t1, t2, _, _, _, _, _, t8⟩ := child_table c e.type he.2 I hI
  refine Standalone.Elem.ext' (fun i => ?_) rfl
  show (child c e I).x i = e.x i + if cidOf c e.type I &&& (1 <<< i.val) ≠ 0 then len c (e.level + 1) else 0
  have h1 : (cidOf c e.type I &&& (1 <<< i.val) ≠ 0) ↔ rank c e.type i ≤ vertexOf c e.type I := by
    rw [Standalone.and_shift_ne_zero, t8, decide_eq_true_eq]
  have h2 := half_sum he hl (decide (rank c e.type i ≤ vertexOf c e.type I)) i
  simp only [decide_eq_true_eq] at h2
  simp only [h1]
  rw [← h2]
  simp only [child]
  split
  · rename_i h0
    rw [t2.1 h0] at h2 ⊢
    have := (rank_le c e.type he.2 i).1
    rw [if_neg (by omega)] at h2 ⊢
    rw [h2, if_neg (by omega)]; simp
  · rw [show (beyidToVertex c).getD (look (indexToBeyNumber c) e.type I) 0 = vertexOf c e.type I from rfl]
    simp only [integerCoords_eq he.2 t1]

theorem child_type (e : Elem c.dim) (I : Nat) : (child c e I).type = typeOf c e.type I := rfl

theorem parent_cube (e : Elem c.dim) : (parent c e).cube = Standalone.parent c.maxLevel e.cube := rfl

theorem parent_type (e : Elem c.dim) :
    (parent c e).type = look (cidTypeToParenttype c) (computeCubeid c e e.level) e.type := rfl

theorem aligned_child {e : Elem c.dim} (he : Aligned c e) (hl : e.level < c.maxLevel) {I : Nat}
    (hI : I < c.numChildren) : Aligned c (child c e I) := by
  refine ⟨?_, (child_table c e.type he.2 I hI).2.2.2.1⟩
  rw [child_cube he hl hI]
  exact Standalone.valid_child (h32 c) he.1 hl _

theorem aligned_parent {e : Elem c.dim} (he : Aligned c e) (hl : 0 < e.level) : Aligned c (parent c e) :=
  ⟨Standalone.valid_parent (h32 c) he.1 hl, (parenttype_rank c _ (cubeid_lt e _) _ he.2).1⟩

theorem cubeid_child {e : Elem c.dim} (he : Aligned c e) (hl : e.level < c.maxLevel) {I : Nat}
    (hI : I < c.numChildren) : computeCubeid c (child c e I) (e.level + 1) = cidOf c e.type I := by
  have h1 := Standalone.childId_child (h32 c) he.1 hl (child_table c e.type he.2 I hI).2.2.1
  rw [Standalone.childId_eq (Nat.succ_pos _), ← child_cube he hl hI] at h1
  rw [cubeid_eq]
  exact h1

theorem parent_child {e : Elem c.dim} (he : Aligned c e) (hl : e.level < c.maxLevel) {I : Nat}
    (hI : I < c.numChildren) : parent c (child c e I) = e := by
  refine Elem.ext' ?_ ?_
  · rw [parent_cube, child_cube he hl hI, Standalone.parent_child (h32 c) he.1 hl]
  · rw [parent_type, show (child c e I).level = e.level + 1 from rfl, cubeid_child he hl hI, child_type]
    exact (child_table c e.type he.2 I hI).2.2.2.2.1

theorem childId_child {e : Elem c.dim} (he : Aligned c e) (hl : e.level < c.maxLevel) {I : Nat}
    (hI : I < c.numChildren) : childId c (child c e I) = I := by
  rw [childId, show (child c e I).level = e.level + 1 from rfl, cubeid_child he hl hI, child_type]
  exact (child_table c e.type he.2 I hI).2.2.2.2.2.1

theorem childId_lt {e : Elem c.dim} (he : Aligned c e) : childId c e < c.numChildren :=
  (parent_table c _ (cubeid_lt e _) _ he.2).1

theorem child_parent {e : Elem c.dim} (he : Aligned c e) (hl : 0 < e.level) : child c (parent c e) (childId c e) = e := by
  have h0 : e.level ≤ c.maxLevel := he.1.1
  have hp := aligned_parent he hl
  have hpl : (parent c e).level < c.maxLevel := by show e.level - 1 < _; omega
  obtain ⟨h1, h2, h3⟩ := parent_table c _ (cubeid_lt e e.level) _ he.2
  refine Elem.ext' ?_ h3
  rw [child_cube hp hpl (childId_lt he), parent_cube]
  have h4 := Standalone.child_parent (h32 c) he.1 hl
  rw [Standalone.childId_eq hl, ← cubeid_eq] at h4
  have h5 : cidOf c (parent c e).type (childId c e) = computeCubeid c e e.level := h2
  rw [h5]
  exact h4

/-! ### Inside of the root -/

/-- The position of the anchor and the type say whether an element lies inside of the root. -/
def Inside (c : Cls) (e : Elem c.dim) : Prop := ∀ i j : Fin c.dim, rank c 0 i < rank c 0 j →
  (e.x j).toNat < (e.x i).toNat ∨ ((e.x j).toNat = (e.x i).toNat ∧ rank c e.type i < rank c e.type j)

theorem corner_mem (e : Elem c.dim) (k : Nat) : corner c e k ∈ Points c e := by
  refine ⟨fun i => ?_, fun i j h => ?_⟩
  · simp only [corner]; split <;> omega
  · simp only [corner]; split <;> split <;> omega

theorem zero_lt_numTypes (c : Cls) : 0 < c.numTypes := by cases c <;> decide

theorem subset_iff_inside {e : Elem c.dim} (he : Aligned c e) : Points c e ⊆ Points c (root c) ↔ Inside c e := by
  have h0 : ∀ i : Fin c.dim, ((root c).x i).toNat = 0 := fun _ => rfl
  have hs : size c (root c).level = 2 ^ c.maxLevel := rfl
  have hp := size_pos c e.level
  constructor
  · intro h i j hij
    have a := (h (corner_mem e 0)).2 i j hij
    have b := (h (corner_mem e (rank c e.type j))).2 i j hij
    have r1 := (rank_le c e.type he.2 i).1
    have r2 := (rank_le c e.type he.2 j).1
    simp only [corner, h0] at a b
    rw [if_neg (by omega), if_neg (by omega)] at a
    rw [if_pos (le_refl _)] at b
    rcases Nat.lt_trichotomy (rank c e.type i) (rank c e.type j) with hr | hr | hr
    · omega
    · have := rank_inj c e.type he.2 i j hr
      subst this; omega
    · rw [if_neg (by omega)] at b; omega
  · rintro h p ⟨hp1, hp2⟩
    refine ⟨fun i => ?_, fun i j hij => ?_⟩
    · have := hp1 i
      have := x_add_le he i
      rw [h0, hs]; omega
    · rw [h0, h0, Nat.add_zero, Nat.add_zero]
      rcases h i j hij with hlt | ⟨heq, hr⟩
      · have := add_le_of_dvd (x_dvd he j) (x_dvd he i) hlt
        have := hp1 i
        have := hp1 j
        omega
      · have := hp2 i j hr
        omega

theorem valid_iff {e : Elem c.dim} : Valid c e ↔ Aligned c e ∧ Inside c e := by
  constructor
  · rintro ⟨h1, h2, h3⟩
    exact ⟨⟨h1, h2⟩, (subset_iff_inside ⟨h1, h2⟩).1 h3⟩
  · rintro ⟨h1, h2⟩
    exact ⟨h1.1, h1.2, (subset_iff_inside h1).2 h2⟩

theorem Valid.aligned {e : Elem c.dim} (h : Valid c e) : Aligned c e := ⟨h.1, h.2.1⟩

/-- The coordinates of an element are those of the parent plus the bit of the level. -/
theorem x_eq_parent {e : Elem c.dim} (he : Aligned c e) (hl : 0 < e.level) (i : Fin c.dim) :
    (e.x i).toNat = ((parent c e).x i).toNat + (if (computeCubeid c e e.level).testBit i then size c e.level else 0) := by
  have h0 : e.level ≤ c.maxLevel := he.1.1
  have hp := aligned_parent he hl
  have hpl : (parent c e).level < c.maxLevel := by show e.level - 1 < _; omega
  have h4 := Standalone.child_parent (h32 c) he.1 hl
  rw [Standalone.childId_eq hl, ← cubeid_eq, ← parent_cube] at h4
  have h5 := congrArg (fun z : Standalone.Elem c.dim => (z.coords i).toNat) h4
  have h6 : (e.cube.coords i).toNat = (e.x i).toNat := rfl
  rw [h6] at h5
  rw [← h5]
  have h7 := x_add_le hp i
  have h8 := pow_max_lt c
  have h9 := size_succ hpl
  have h10 : (parent c e).level + 1 = e.level := by show e.level - 1 + 1 = _; omega
  rw [h10] at h9
  have h11 : ((Standalone.child c.maxLevel (parent c e).cube (computeCubeid c e e.level)).coords i) =
      (parent c e).x i + if computeCubeid c e e.level &&& (1 <<< i.val) ≠ 0 then len c ((parent c e).level + 1) else 0 :=
    rfl
  rw [show e.cube.level = e.level from rfl, h11, h10]
  simp only [Standalone.and_shift_ne_zero]
  rw [BitVec.toNat_add]
  split
  · rw [len_toNat]; exact Nat.mod_eq_of_lt (by omega)
  · exact Nat.mod_eq_of_lt (by simp only [BitVec.ofNat_eq_ofNat, BitVec.toNat_ofNat, Nat.zero_mod]; omega)

/-- An element lies inside of the root iff its parent does. -/
theorem inside_parent {e : Elem c.dim} (he : Aligned c e) (hl : 0 < e.level) : Inside c (parent c e) ↔ Inside c e := by
  have h0 : e.level ≤ c.maxLevel := he.1.1
  have hp := aligned_parent he hl
  have hpl : (parent c e).level < c.maxLevel := by show e.level - 1 < _; omega
  have h9 := size_succ hpl
  have h10 : (parent c e).level + 1 = e.level := by show e.level - 1 + 1 = _; omega
  rw [h10] at h9
  have hpos := size_pos c e.level
  refine forall_congr' fun i => forall_congr' fun j => forall_congr' fun _ => ?_
  have ei := x_eq_parent he hl i
  have ej := x_eq_parent he hl j
  have di := x_dvd hp i
  have dj := x_dvd hp j
  rw [parent_type, (parenttype_rank c _ (cubeid_lt e e.level) _ he.2).2 i j]
  rw [h9] at di dj
  have key : ∀ a b : Nat, 2 * size c e.level ∣ a → 2 * size c e.level ∣ b → a < b → a + 2 * size c e.level ≤ b :=
    fun a b ha hb hab => add_le_of_dvd ha hb hab
  have k1 := key _ _ di dj
  have k2 := key _ _ dj di
  rw [ei, ej]
  cases bi : (computeCubeid c e e.level).testBit i <;> cases bj : (computeCubeid c e e.level).testBit j <;>
    simp <;> omega

theorem valid_root : Valid c (root c) :=
  ⟨Standalone.valid_root, zero_lt_numTypes c, Set.Subset.rfl⟩

theorem root_unique {e : Elem c.dim} (he : Valid c e) (hl : e.level = 0) : e = root c := by
  have h1 := Standalone.root_unique he.1 hl
  refine Elem.ext' h1 ?_
  refine (type_ext c 0 (zero_lt_numTypes c) _ he.2.1 fun i j hij => ?_).symm
  rcases (valid_iff.1 he).2 i j hij with h | h
  · have : ∀ k, e.x k = 0 := fun k => congrArg (fun z : Standalone.Elem c.dim => z.coords k) h1
    rw [this, this] at h
    exact absurd h (lt_irrefl _)
  · exact h.2

theorem valid_child {e : Elem c.dim} (he : Valid c e) (hl : e.level < c.maxLevel) {I : Nat} (hI : I < c.numChildren) :
    Valid c (child c e I) := by
  have h1 := aligned_child he.aligned hl hI
  refine valid_iff.2 ⟨h1, ?_⟩
  rw [← inside_parent h1 (Nat.succ_pos _), parent_child he.aligned hl hI]
  exact (valid_iff.1 he).2

theorem valid_parent {e : Elem c.dim} (he : Valid c e) (hl : 0 < e.level) : Valid c (parent c e) :=
  valid_iff.2 ⟨aligned_parent he.aligned hl, (inside_parent he.aligned hl).2 (valid_iff.1 he).2⟩

/-- The refinement tree of triangles or tetrahedra. -/
@[reducible] def tree (c : Cls) : RTree where
  E := Elem c.dim
  Valid := Valid c
  maxLevel := c.maxLevel
  level := Elem.level
  root := root c
  nc := fun _ => c.numChildren
  child := child c
  parent := parent c
  childId := childId c
  valid_root := valid_root
  level_root := rfl
  root_unique := fun _ he hl => root_unique he hl
  level_le := fun _ he => he.1.1
  nc_pos := fun _ _ => by cases c <;> decide
  valid_child := fun _ _ he hl hi => valid_child he hl hi
  level_child := fun _ _ _ _ _ => rfl
  parent_child := fun _ _ he hl hi => parent_child he.aligned hl hi
  childId_child := fun _ _ he hl hi => childId_child he.aligned hl hi
  valid_parent := fun _ he hl => valid_parent he hl
  level_parent := fun e _ hl => by show e.level - 1 + 1 = e.level; omega
  childId_lt := fun _ he _ => childId_lt he.aligned
  child_parent := fun _ he hl => child_parent he.aligned hl

theorem regular (c : Cls) : (tree c).Regular (2 ^ c.dim) := fun _ _ => numChildren_eq c

end T8.Simplex
