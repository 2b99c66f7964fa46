/-
C01–C09 and C15 for the pyramids of the default scheme and the tetrahedra that they are refined into.

`Valid e` (Spec/Pyramid.lean) says that `e` can be created from the root by taking children.
-/
import Verif.Lemmas.PyramidPoints
import Verif.Lemmas.PyramidSucc
import Verif.Lemmas.PyramidNca
import Verif.Spec.Scheme

namespace T8.Pyramid
open T8.RTree T8.Bits
open T8.Simplex (look Cls)

theorem valid_child' {e : Elem} (he : Valid e) (hl : e.level < 21) {i : Nat} (hi : i < 8) : Valid (child e i) :=
  valid_child he hl (by rw [numChildren_eq]; split <;> omega)

/-- A pyramid and a tetrahedron of level 3, used to show that the hypotheses below can be met. -/
def sample : Elem := child (child (child root 2) 7) 4

def sampleTet : Elem := child (child (child root 2) 5) 3

theorem sample_valid : Valid sample :=
  valid_child' (valid_child' (valid_child' Valid.root (by decide) (by decide)) (by decide) (by decide)) (by decide) (by decide)

theorem sampleTet_valid : Valid sampleTet :=
  valid_child' (valid_child' (valid_child' Valid.root (by decide) (by decide)) (by decide) (by decide)) (by decide) (by decide)

example : isPyra sample = true ∧ isPyra sampleTet = false ∧ sample.level = 3 ∧ sampleTet.level = 3 ∧
    sampleTet.switch = 2 := by decide +kernel

/-! ### C01 -/

/-- C01. Parent and child are inverse. A pyramid has 10 children, a tetrahedron has 8. -/
theorem C01_pyramid (e : Elem) (he : Valid e) :
    numChildren e = (if isPyra e then 10 else 8) ∧
    (e.level < maxLevel → ∀ i, i < numChildren e →
      Valid (child e i) ∧ parent (child e i) = e ∧ childId (child e i) = i ∧ (child e i).level = e.level + 1 ∧
      numSiblings (child e i) = numChildren e) ∧
    (0 < e.level →
      Valid (parent e) ∧ childId e < numChildren (parent e) ∧ child (parent e) (childId e) = e ∧
      (parent e).level + 1 = e.level ∧ numSiblings e = numChildren (parent e)) := by
  refine ⟨rfl, fun hl i hi => ⟨valid_child he hl hi, parent_child he.good hl hi, childId_child he.good hl hi,
    child_level e i, ?_⟩, fun hl => ⟨tree.valid_parent e he hl, tree.childId_lt e he hl, tree.child_parent e he hl,
    tree.level_parent e he hl, numSiblings_eq he hl⟩⟩
  rw [numSiblings_eq (valid_child he hl hi) (by rw [child_level]; omega), parent_child he.good hl hi]

/-- C01. `element_get_children` lists the children by their child numbers. -/
theorem C01_pyramid_children (e : Elem) : children e = (List.range (numChildren e)).map (child e) := rfl

/-- C01. The valid elements are exactly those that can be created by repeated refinement of the root. -/
theorem C01_pyramid_reachable (e : Elem) : Valid e ↔ tree.Desc root e :=
  ⟨fun h => desc_root (T := tree) h, fun h => Desc.valid (T := tree) Valid.root h⟩

/-- C01. Different child numbers give different children. -/
theorem C01_pyramid_distinct (e : Elem) (he : Valid e) (hl : e.level < maxLevel) (i j : Nat)
    (hi : i < numChildren e) (hj : j < numChildren e) (h : child e i = child e j) : i = j :=
  child_inj (T := tree) he hl hi hj h

/-- C01. The children lie inside of the element. -/
theorem C01_pyramid_inside (e : Elem) (he : Valid e) (hl : e.level < maxLevel) (i : Nat) (hi : i < numChildren e) :
    Points (child e i) ⊆ Points e := child_subset he.good hl hi

/-- C01. `t8_dpyramid_compute_integer_coords` gives the corners of the element. -/
theorem C01_pyramid_vertex (e : Elem) (he : Valid e) (v : Nat) :
    (6 ≤ e.type → v < 5 → (∀ i, (integerCoords e v i).toNat = pyraCorner e v i) ∧ pyraCorner e v ∈ Points e) ∧
    (¬ 6 ≤ e.type → v < 4 → (∀ i, (integerCoords e v i).toNat = Simplex.corner .tet e.tet v i) ∧
      Simplex.corner .tet e.tet v ∈ Points e) := by
  refine ⟨fun h hv => ⟨integerCoords_pyra he.good h hv, pyraCorner_mem h hv⟩, fun h hv => ⟨fun i => ?_, ?_⟩⟩
  · rw [integerCoords, if_neg (by rw [isPyra_iff]; exact h)]
    exact Simplex.integerCoords_corner (he.good.aligned h) (show v ≤ 3 by omega) i
  · rw [Points, if_neg h]
    exact Simplex.corner_mem (c := .tet) e.tet v

example : Valid sample ∧ 0 < sample.level ∧ sample.level < maxLevel ∧ childId sample = 4 ∧ 6 ≤ sample.type ∧
    ¬ 6 ≤ sampleTet.type := ⟨sample_valid, by decide +kernel⟩

/-! ### C02 -/

/-- C02. `element_get_linear_id` is the position in the uniform refinement, for all levels. -/
theorem C02_pyramid_position : tree.LinearIdSpec (fun e L => (linearId e L).toNat) := linearId_spec

/-- C02. `element_set_linear_id` constructs the element at a position of the uniform refinement. -/
theorem C02_pyramid_set : tree.SetLinearIdSpec (fun L id => initLinearId L (BitVec.ofNat 64 id)) := setLinearId_spec

/-- C02. Every id below the number of elements of a level belongs to exactly one element of this level. -/
theorem C02_pyramid_bijection (L : Nat) (hL : L ≤ maxLevel) :
    (∀ id : Nat, id < 2 * 8 ^ L - 6 ^ L → ∃ x, initLinearId L (BitVec.ofNat 64 id) = some x ∧ Valid x ∧ x.level = L ∧
      (linearId x L).toNat = id) ∧
    (∀ x, Valid x → x.level = L → (linearId x L).toNat < 2 * 8 ^ L - 6 ^ L ∧
      initLinearId L (linearId x L) = some x) := by
  have h := bijection_of linearId_spec setLinearId_spec hL
  rw [show tree.count tree.root L = _ from count_root_eq hL] at h
  refine ⟨h.1, fun x hx hl => ?_⟩
  have h2 := h.2 x hx hl
  rw [BitVec.ofNat_toNat, BitVec.setWidth_eq] at h2
  exact h2

example : (linearId sample 1).toNat = 2 ∧ (linearId sample 3).toNat = 222 ∧
    (linearId sampleTet 3).toNat = 205 ∧ initLinearId 3 222 = some sample ∧ initLinearId 3 205 = some sampleTet := by
  decide +kernel

/-! ### C03 -/

/-- C03. The successor is the next element of the uniform refinement. -/
theorem C03_pyramid : tree.SuccessorSpec (fun e => successor e e.level) := successor_spec

/-- C03. For every element that is not the last one of its level the successor has the same level and the next
linear id. -/
theorem C03_pyramid_next (e : Elem) (he : Valid e)
    (hlast : (linearId e e.level).toNat + 1 < 2 * 8 ^ e.level - 6 ^ e.level) :
    ∃ s, successor e e.level = some s ∧ Valid s ∧ s.level = e.level ∧
      (linearId s s.level).toNat = (linearId e e.level).toNat + 1 :=
  next_of linearId_spec successor_spec he (by
    rw [show tree.count tree.root (tree.level e) = _ from count_root_eq he.good.cube.1]; exact hlast)

example : Valid sample ∧ (linearId sample sample.level).toNat + 1 < 2 * 8 ^ sample.level - 6 ^ sample.level :=
  ⟨sample_valid, by decide +kernel⟩

example : successor sample 3 = some (child (child (child root 2) 7) 5) ∧
    successor (child (child (child root 2) 4) 9) 3 = some (child (child (child root 2) 5) 0) ∧
    successor (child (child (child root 2) 5) 7) 3 = some (child (child (child root 2) 6) 0) ∧
    successor (child (child (child root 1) 7) 7) 3 = some (child (child (child root 2) 0) 0) := by decide +kernel

/-! ### C04 -/

/-- C04. First and last descendant exist and are the ends of the uniform refinement of the element. -/
theorem C04_pyramid_ends : tree.DescendantSpec (fun e L => (firstDescendant e L).getD e)
    (fun e L => (lastDescendant e L).getD e) := descendant_spec

theorem C04_pyramid_some (e : Elem) (he : Valid e) (L : Nat) (hl : e.level ≤ L) (hL : L ≤ maxLevel) :
    (firstDescendant e L).isSome ∧ (lastDescendant e L).isSome := by
  rw [firstDescendant_eq he hl hL, lastDescendant_eq he hl hL]
  exact ⟨rfl, rfl⟩

/-- C04. The descendants of a level are the interval between first and last descendant. -/
theorem C04_pyramid_interval : tree.DescendantIntervalSpec (fun e L => (linearId e L).toNat)
    (fun e L => (firstDescendant e L).getD e) (fun e L => (lastDescendant e L).getD e) :=
  descendantIntervalSpec_of linearId_spec descendant_spec

example : Valid sample ∧ sample.level ≤ 5 ∧ 5 ≤ maxLevel ∧ firstDescendant sample 5 = some (child (child sample 0) 0) ∧
    lastDescendant sample 5 = some (child (child sample 9) 9) ∧
    lastDescendant sampleTet 5 = some (child (child sampleTet 7) 7) := ⟨sample_valid, by decide +kernel⟩

/-! ### C05 -/

/-- C05. The nearest common ancestor. -/
theorem C05_pyramid : tree.NcaSpec nca := nca_spec

example : nca sample sampleTet = some (child root 2) ∧ nca sampleTet (child (child (child root 2) 5) 1) =
    some (child (child root 2) 5) ∧ nca sampleTet (child root 1) = some root := by decide +kernel

/-! ### C06 -/

/-- C06 for neighboring leaves. On arrays of the right length that are part of the leaves of a complete tree, the
family test is exact; every family is such an array and is accepted. What is missing is exactness for other arrays,
which does not hold (`C06_pyramid_wrong`). -/
theorem C06_pyramid_partial (fam : List Elem) (f0 : Elem) (h0 : fam.head? = some f0) (hlen : fam.length = numSiblings f0)
    (hv : ∀ x ∈ fam, Valid x) (hl : 0 < f0.level) :
    (∃ b, isFamily fam = some b ∧ (tree.Segment fam → (b = true ↔ ∃ p, tree.IsFamilyOf fam p))) ∧
    ∀ p, tree.IsFamilyOf fam p → isFamily fam = some true ∧ tree.Segment fam := by
  have h0' : fam[0]? = some f0 := by rw [← h0, List.head?_eq_getElem?]
  have h2 : ∀ p, tree.IsFamilyOf fam p → isFamily fam = some true := by
    rintro p ⟨h1, h2, h3⟩
    rw [h3]
    exact isFamily_children (Valid.good h1) h2
  refine ⟨?_, fun p hp => ⟨h2 p hp, IsFamilyOf.segment hp⟩⟩
  obtain ⟨b, hb⟩ := isFamily_some h0' hl hlen
  refine ⟨b, hb, fun hs => ⟨?_, ?_⟩⟩
  · rintro rfl
    exact family_of_segment hs hv h0' hl hlen hb
  · rintro ⟨p, hp⟩
    have := h2 p hp
    rw [hb] at this
    exact Option.some.inj this

/-- C06. An array that starts with the root is not a family, and the test says so. -/
theorem C06_pyramid_root (fam : List Elem) (h0 : fam.head? = some root) :
    isFamily fam = some false ∧ ¬ ∃ p, tree.IsFamilyOf fam p := by
  constructor
  · have h : fam[0]? = some root := by rw [← h0, List.head?_eq_getElem?]
    simp only [isFamily, h, Option.bind_eq_bind, Option.bind_some]
    rfl
  · rintro ⟨p, h1, h2, h3⟩
    have hm : root ∈ fam := List.mem_of_mem_head? h0
    rw [h3, List.mem_map] at hm
    obtain ⟨i, hi, he⟩ := hm
    have hl := tree.level_child p i h1 h2 (List.mem_range.1 hi)
    rw [he] at hl
    exact absurd hl (by show root.level ≠ _; rw [show root.level = 0 from rfl]; omega)

/-- C06, finding. The family test accepts arrays that are not families: it compares types and coordinates relative to
the first element, but not the position of the first element in its parent. -/
theorem C06_pyramid_wrong : ∃ fam : List Elem, (∀ f0 ∈ fam.head?, fam.length = numSiblings f0) ∧ (∀ x ∈ fam, Valid x) ∧
    isFamily fam = some true ∧ ¬ ∃ p, tree.IsFamilyOf fam p := by
  have hv : ∀ I < 10, ∀ J < 8, Valid (child (child root I) J) := fun I hI J hJ =>
    valid_child' (valid_child Valid.root (by decide) hI) (by rw [child_level]; decide) hJ
  refine ⟨[child (child root 0) 7, child (child root 1) 1, child (child root 2) 4, child (child root 3) 1,
    child (child root 4) 2, child (child root 5) 0, child (child root 6) 0, child (child root 7) 0,
    child (child root 8) 0, child (child root 8) 3], ?_, ?_, by decide +kernel, ?_⟩
  · rintro f0 hf
    cases hf
    decide +kernel
  · intro x hx
    simp only [List.mem_cons, List.not_mem_nil, or_false] at hx
    rcases hx with rfl | rfl | rfl | rfl | rfl | rfl | rfl | rfl | rfl | rfl <;> exact hv _ (by omega) _ (by omega)
  · rintro ⟨p, hp, hl, h⟩
    have hn : 0 < numChildren p := tree.nc_pos p hp
    have h0 : (child (child root 0) 7) = child p 0 := by
      have := congrArg (fun l => l[0]?) h
      simp only [List.getElem?_cons_zero, List.getElem?_map] at this
      rw [List.getElem?_range hn] at this
      exact Option.some.inj this
    have h1 := childId_child (Valid.good hp) hl hn
    rw [← h0] at h1
    revert h1
    decide +kernel

/-- C06. Families for which the hypotheses above hold: the children of the sample elements. -/
example : isFamily (children sample) = some true ∧ isFamily (children sampleTet) = some true ∧
    isFamily ((List.range 10).map fun i => child (child sample ((i + 1) / 10)) ((i + 1) % 10)) = some false := by
  decide +kernel

/-! ### C07 -/

/-- C07. The comparison decides the order of the space-filling curve … -/
theorem C07_pyramid : tree.CompareSpec compare := compare_spec

/-- C07. … which is a strict total order. -/
theorem C07_pyramid_total : tree.LtTotalOrder := ltTotalOrder

example : compare (child root 2) sample < 0 ∧ compare sample (child root 0) > 0 ∧ compare sample sample = 0 ∧
    compare sampleTet sample < 0 := by decide +kernel

/-! ### C08 -/

/-- C08. `element_is_ancestor` is true exactly for ancestors. -/
theorem C08_pyramid : tree.IsAncestorSpec isAncestor := isAncestor_spec

/-- C08. `t8_dpyramid_ancestor` and `element_get_ancestor_id` give the iterated parent and its child id. -/
theorem C08_pyramid_iterate (e : Elem) (he : Valid e) (l : Nat) (hl : l ≤ e.level) :
    ancestor e l = parent^[e.level - l] e ∧ ancestorId e l = childId (parent^[e.level - l] e) :=
  ⟨ancestor_eq he hl, ancestorId_eq he hl⟩

example : ancestorId sample 2 = 7 ∧ ancestorId sampleTet 1 = 2 ∧ isAncestor (child root 2) sample = true ∧
    isAncestor (child root 1) sample = false := by decide +kernel

/-! ### C09 -/

/-- C09. `count` is the number of distinct descendants. -/
theorem C09_pyramid_meaning (e : Elem) (he : Valid e) (L : Nat) (hl : e.level ≤ L) (hL : L ≤ maxLevel) :
    ∃ xs : List Elem, xs.length = tree.count e L ∧ xs.Nodup ∧ ∀ x, x ∈ xs ↔ tree.Desc e x ∧ x.level = L :=
  Default.count_meaning (T := tree) he hl hL

theorem toInt_cnt {n : Nat} (h : 2 * 8 ^ n - 6 ^ n < 2 ^ 63) :
    (2 * BitVec.ofNat 64 (8 ^ n) - BitVec.ofNat 64 (6 ^ n)).toInt = ((2 * 8 ^ n - 6 ^ n : Nat) : Int) := by
  have h6 := six_le n
  have h1 : (2 * BitVec.ofNat 64 (8 ^ n) - BitVec.ofNat 64 (6 ^ n) : BitVec 64) = BitVec.ofNat 64 (2 * 8 ^ n - 6 ^ n) := by
    rw [← ofNat_sub (by omega), BitVec.ofNat_mul]
    rfl
  rw [h1, BitVec.toInt_eq_toNat_cond, BitVec.toNat_ofNat, Nat.mod_eq_of_lt (by omega), if_pos (by omega)]

/-- C09 for pyramids, except the count from the root to the maximum level, which overflows (`C09_pyramid_overflow`). -/
theorem C09_pyramid_partial (e : Elem) (he : Valid e) (L : Nat) (hL : L ≤ maxLevel) (h : 0 < e.level ∨ L < maxLevel) :
    (countLeaves e L).toInt = tree.count e L := by
  have hL' : L ≤ 21 := hL
  have h' : 0 < e.level ∨ L < 21 := h
  have h8 : 8 ^ (L - e.level) ≤ 8 ^ 20 := Nat.pow_le_pow_right (by omega) (by omega)
  have h20 : 8 ^ 20 = 2 ^ 60 := by decide
  rw [countLeaves]
  by_cases h6 : 6 ≤ e.type
  · rw [if_pos ((isPyra_iff e).2 h6)]
    by_cases hlt : e.level > L
    · rw [if_pos hlt, count_of_lt (T := tree) hlt]; rfl
    · rw [if_neg hlt, count_eq' he (by omega) hL', cnt, if_pos h6]
      exact toInt_cnt (lt_of_le_of_lt (Nat.sub_le _ _) (by omega))
  · rw [if_neg (by rw [isPyra_iff]; exact h6), Default.countLeavesFromLevel]
    by_cases hlt : e.level > L
    · rw [if_pos hlt, count_of_lt (T := tree) hlt]; rfl
    · rw [if_neg hlt, count_eq' he (by omega) hL', cnt, if_neg h6]
      rw [show (8 : Nat) = 2 ^ 3 from rfl, ← Nat.pow_mul] at h8 ⊢
      have h1 : (BitVec.twoPow 64 (3 * (L - e.level))).toNat = 2 ^ (3 * (L - e.level)) := by
        rw [BitVec.toNat_twoPow, Nat.mod_eq_of_lt (by omega)]
      rw [BitVec.toInt_eq_toNat_cond, h1, if_pos (by omega)]

/-- C09, finding. The number of elements of the maximum level does not fit into the result, the computed count is
negative. -/
theorem C09_pyramid_overflow : tree.count root 21 = 2 ^ 64 - 6 ^ 21 ∧ (countLeaves root 21).toInt = -6 ^ 21 ∧
    (countLeavesFromRoot 21).toInt = -6 ^ 21 :=
  ⟨(count_root_eq (le_refl _)).trans (by decide), by decide +kernel, by decide +kernel⟩

/-- C09. The count from the root, when it fits into the result. -/
theorem C09_pyramid_root (L : Nat) (hL : L ≤ maxLevel) (h : tree.count tree.root L < 2 ^ 63) :
    (countLeavesFromRoot L).toInt = tree.count root L := by
  have hc : tree.count root L = _ := count_root_eq hL
  have h' : tree.count root L < 2 ^ 63 := h
  rw [hc] at h' ⊢
  exact toInt_cnt h'

example : (countLeaves sample 5).toInt = 92 ∧ (countLeaves sampleTet 5).toInt = 64 := by decide +kernel

/-! ### C15 -/

/-- C15. Unpacking a buffer that begins with packed elements gives back the elements, in order, and leaves exactly
the rest of the buffer. -/
theorem C15_pyramid (es : List Elem) (hv : ∀ e ∈ es, Valid e) (rest : List Standalone.Word) :
    unpack es.length (pack es ++ rest) = some (es, rest) := by
  induction es with
  | nil => rfl
  | cons e es ih =>
    have h1 : pack (e :: es) ++ rest = Simplex.pack .tet [e.tet] ++
        (Standalone.Word.int8 (e.switch % 256).toNat :: (pack es ++ rest)) := by simp [pack]
    have h2 := Simplex.C15_simplex .tet [e.tet] (Standalone.Word.int8 (e.switch % 256).toNat :: (pack es ++ rest))
    rw [List.length_cons, h1, unpack]
    rw [show [e.tet].length = 1 from rfl] at h2
    simp only [h2, Standalone.unpackInt8, Option.bind_eq_bind, Option.bind_some, List.head?_cons,
      ih (fun x hx => hv x (by simp [hx]))]
    congr 3
    obtain ⟨t, s⟩ := e
    have hg := (hv ⟨t, s⟩ (by simp)).good
    have hs : s = -1 ∨ (1 ≤ s ∧ s ≤ 21) := by
      rcases hg.shape with h | h
      · exact Or.inl h.2
      · have h3 : t.level ≤ 21 := hg.cube.1
        have h4 : 1 ≤ s ∧ s ≤ (t.level : Int) := h.2
        right; omega
    show (⟨t, if (s % 256).toNat < 128 then ((s % 256).toNat : Int) else ((s % 256).toNat : Int) - 256⟩ : Elem) = ⟨t, s⟩
    congr 1
    split <;> omega

/-- C15. The size of the buffer that `element_MPI_Pack_size` provides for is exactly what is written. -/
theorem C15_pyramid_size (es : List Elem) :
    ((pack es).countP (fun w => w matches .int _), (pack es).countP (fun w => w matches .int8 _)) =
      packSize es.length := by
  induction es with
  | nil => simp [pack, packSize]
  | cons e es ih =>
    have h : pack (e :: es) = [Standalone.Word.int (e.tet.x 0), Standalone.Word.int (e.tet.x 1),
        Standalone.Word.int (e.tet.x 2), Standalone.Word.int8 e.tet.type, Standalone.Word.int8 e.tet.level,
        Standalone.Word.int8 (e.switch % 256).toNat] ++ pack es := by
      simp [pack, Simplex.pack, Cls.dim, List.finRange_succ]
    have h2 : packSize = fun n => (n * 3, n * 3) := rfl
    simp only [h2, Prod.mk.injEq] at ih ⊢
    rw [h]
    simp only [List.countP_append, ih.1, ih.2, List.length_cons]
    simp [List.countP_cons, Nat.add_mul]
    omega

example : (∀ e ∈ [sample, sampleTet, root], Valid e) ∧ pack [sample, sampleTet, root] ≠ [] :=
  ⟨by intro e he; simp at he; rcases he with rfl | rfl | rfl; exacts [sample_valid, sampleTet_valid, Valid.root], by decide⟩

/-! ### The scheme as the forest algorithms use it -/

/-- The functions of the default scheme for pyramids. -/
def scheme : Scheme tree where
  isEqual := isEqual
  numSiblings := numSiblings
  childId := fun e => childId e
  isRefinable := isRefinable
  linearId := fun e L => (linearId e L).toNat
  setLinearId := fun L id => initLinearId L (BitVec.ofNat 64 id)
  successor := fun e => successor e e.level
  firstDescendant := fun e L => (firstDescendant e L).getD e
  lastDescendant := fun e L => (lastDescendant e L).getD e
  compare := compare
  isAncestor := isAncestor
  ancestorId := fun e l => ancestorId e l
  nca := nca
  areFamily := isFamily
  countLeavesFromRoot := fun L => (countLeavesFromRoot L).toInt

/-- The default scheme for pyramids is lawful, so every theorem about forests over lawful schemes applies to it. -/
theorem scheme_lawful : scheme.Lawful where
  isEqual := fun x y _ _ => isEqual_iff x y
  numSiblings_pos := fun e _ => by show 0 < numSiblings e; rw [numSiblings]; split <;> omega
  numSiblings := fun _ he hl => numSiblings_eq he hl
  childId := fun _ _ _ => rfl
  childId_root := by decide
  root_no_family := Or.inr (Or.inl (by decide))
  isRefinable := fun e _ => by show isRefinable e = true ↔ e.level < maxLevel; simp [isRefinable]
  linearId := linearId_spec
  setLinearId := setLinearId_spec
  successor := successor_spec
  descendants := descendant_spec
  compare := compare_spec
  isAncestor := isAncestor_spec
  ancestorId := fun _ _ he _ hl => congrArg Nat.cast (ancestorId_eq he hl)
  nca := nca_spec
  areFamily := fun fam f0 h0 hlen hv hl => (C06_pyramid_partial fam f0 h0 hlen hv
    (hl f0 (List.mem_of_mem_head? h0))).1
  countLeavesFromRoot := fun L hL h => C09_pyramid_root L hL h

end T8.Pyramid
