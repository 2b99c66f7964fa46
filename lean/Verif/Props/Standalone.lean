/-
C01–C09 for the hypercube classes (vertex, line, quad, hex) of the standalone scheme.

`Valid c.maxLevel e` (Spec/Hypercube.lean) says that `e` is an aligned cube inside of the root cube;
`C01_standalone_reachable` shows that these are exactly the elements that can be created from the root by
taking children.  Refinement trees and the element specifications are in Spec/RTree.lean and
Spec/Element.lean.
-/
import Verif.Lemmas.StandaloneIds

namespace T8.Standalone
open RTree

/-- The refinement tree of a class. Its root, children and parents are those of the model. -/
@[reducible] def Cls.tree (c : Cls) : RTree :=
  treeOf c.dim c.maxLevel (by cases c <;> simp [Cls.dim, Cls.maxLevel])

theorem Cls.bits (c : Cls) : c.dim * c.maxLevel < 64 := by cases c <;> simp [Cls.dim, Cls.maxLevel]

/-- A hex of level 2, used to show that the hypotheses below can be met. -/
def sampleHex : Elem 3 := child 21 (child 21 (root 3) 5) 3

theorem sampleHex_valid : Valid 21 sampleHex :=
  valid_child (by simp) (valid_child (by simp) valid_root (by simp [root]) 5) (by simp [child, root]) 3

/-! ### C01 -/

/-- C01. Parent and child are inverse. -/
theorem C01_standalone (c : Cls) (e : Elem c.dim) (he : Valid c.maxLevel e) :
    (e.level < c.maxLevel → ∀ i, i < numChildren c.dim →
      Valid c.maxLevel (child c.maxLevel e i) ∧
      parent c.maxLevel (child c.maxLevel e i) = e ∧
      childId c.maxLevel (child c.maxLevel e i) = i ∧
      (child c.maxLevel e i).level = e.level + 1) ∧
    (0 < e.level →
      Valid c.maxLevel (parent c.maxLevel e) ∧
      0 ≤ childId c.maxLevel e ∧ childId c.maxLevel e < numChildren c.dim ∧
      child c.maxLevel (parent c.maxLevel e) (childId c.maxLevel e).toNat = e ∧
      (parent c.maxLevel e).level + 1 = e.level) := by
  have h : 0 < c.dim → c.maxLevel < 32 := by cases c <;> simp [Cls.dim, Cls.maxLevel]
  refine ⟨fun hl i hi => ⟨valid_child h he hl i, parent_child h he hl i, ?_, rfl⟩, fun hl => ?_⟩
  · have h1 := childId_child h he hl hi
    have h2 : 0 ≤ childId c.maxLevel (child c.maxLevel e i) := by
      unfold childId; split
      · rename_i h0; simp [child] at h0
      · omega
    omega
  · have h1 := childId_lt (M := c.maxLevel) h hl
    have h2 : 0 ≤ childId c.maxLevel e := by
      unfold childId; split <;> omega
    refine ⟨valid_parent h he hl, h2, ?_, child_parent h he hl, ?_⟩
    · rw [numChildren]; omega
    · simp only [parent]; omega

/-- C01. `element_get_children` lists the children by their child numbers. -/
theorem C01_standalone_children (c : Cls) (e : Elem c.dim) :
    (children c.maxLevel e).length = numChildren c.dim ∧
    ∀ i, i < numChildren c.dim → (children c.maxLevel e)[i]? = some (child c.maxLevel e i) := by
  refine ⟨by simp [children], fun i hi => by simp [children, hi]⟩

/-- C01. The valid elements are exactly those that can be created by repeated refinement of the root. -/
theorem C01_standalone_reachable (c : Cls) (e : Elem c.dim) :
    Valid c.maxLevel e ↔ c.tree.Desc (root c.dim) e :=
  ⟨fun h => desc_root (T := c.tree) h, fun h => Desc.valid (T := c.tree) valid_root h⟩

/-- C01. Different child numbers give different children. -/
theorem C01_standalone_distinct (c : Cls) (e : Elem c.dim) (he : Valid c.maxLevel e)
    (hl : e.level < c.maxLevel) (i j : Nat) (hi : i < numChildren c.dim) (hj : j < numChildren c.dim)
    (h : child c.maxLevel e i = child c.maxLevel e j) : i = j :=
  child_inj (T := c.tree) he hl hi hj h

example : Valid Cls.hex.maxLevel (d := Cls.hex.dim) sampleHex ∧ 0 < sampleHex.level ∧
    sampleHex.level < Cls.hex.maxLevel ∧ 7 < numChildren Cls.hex.dim := ⟨sampleHex_valid, by decide⟩

/-! ### C02 -/

/-- C02. `element_get_linear_id` is the position in the uniform refinement, for all levels. -/
theorem C02_standalone_position (c : Cls) :
    c.tree.LinearIdSpec (fun e L => (linearId c.maxLevel e L).toNat) :=
  linearIdSpec_of fun _ _ he hL => linearId_eq _ c.bits he hL

/-- C02. `element_set_linear_id` constructs the element at a position of the uniform refinement. -/
theorem C02_standalone_set (c : Cls) :
    c.tree.SetLinearIdSpec (fun L id => setLinearId c.dim c.maxLevel L (BitVec.ofNat 64 id)) :=
  setLinearIdSpec_of fun _ _ hL hid => setLinearId_spec _ c.bits hL hid

/-- C02. Every id below the number of elements of a level belongs to exactly one element of this level. -/
theorem C02_standalone_bijection (c : Cls) (L : Nat) (hL : L ≤ c.maxLevel) :
    (∀ id : Nat, id < 2 ^ (c.dim * L) →
      ∃ x, setLinearId c.dim c.maxLevel L (BitVec.ofNat 64 id) = some x ∧ Valid c.maxLevel x ∧ x.level = L ∧
        (linearId c.maxLevel x L).toNat = id) ∧
    (∀ x : Elem c.dim, Valid c.maxLevel x → x.level = L →
      (linearId c.maxLevel x L).toNat < 2 ^ (c.dim * L) ∧
      setLinearId c.dim c.maxLevel L (linearId c.maxLevel x L) = some x) ∧
    (∀ x y : Elem c.dim, Valid c.maxLevel x → Valid c.maxLevel y → x.level = L → y.level = L →
      linearId c.maxLevel x L = linearId c.maxLevel y L → x = y) := by
  have h : 0 < c.dim → c.maxLevel < 32 := by cases c <;> simp [Cls.dim, Cls.maxLevel]
  have hroot : c.tree.count (root c.dim) L = 2 ^ (c.dim * L) := by
    rw [count_eq_pow]; simp [root]
  have hlin : ∀ x : Elem c.dim, Valid c.maxLevel x → x.level = L →
      (linearId c.maxLevel x L).toNat = lid (T := c.tree) x L := by
    intro x hx hxL
    rw [linearId_eq h c.bits hx hL, if_neg (by omega)]
  have hinj : ∀ x y : Elem c.dim, Valid c.maxLevel x → Valid c.maxLevel y → x.level = L → y.level = L →
      lid (T := c.tree) x L = lid (T := c.tree) y L → x = y := fun x y hx hy hxL hyL hxy =>
    lid_inj (T := c.tree) hx hy (hxL.trans hyL.symm) (le_of_eq hxL) hL hxy
  refine ⟨fun id hid => ?_, fun x hx hxL => ?_, fun x y hx hy hxL hyL hxy => ?_⟩
  · obtain ⟨x, h1, h2, h3, h4⟩ := setLinearId_spec h c.bits hL (id := id) (by rw [hroot]; exact hid)
    exact ⟨x, h1, h2, h3, by rw [hlin x h2 h3, h4]⟩
  · have hlt : lid (T := c.tree) x L < 2 ^ (c.dim * L) := by
      have h1 := lid_lt (T := c.tree) hx (L := L) (le_of_eq hxL) hL
      have h2 := count_pos (T := c.tree) hx (L := L) (le_of_eq hxL) hL
      have h3 : c.tree.count c.tree.root L = 2 ^ (c.dim * L) := hroot
      omega
    refine ⟨by rw [hlin x hx hxL]; exact hlt, ?_⟩
    obtain ⟨y, h1, h2, h3, h4⟩ := setLinearId_spec h c.bits hL (id := lid (T := c.tree) x L)
      (by rw [hroot]; exact hlt)
    have : BitVec.ofNat 64 (lid (T := c.tree) x L) = linearId c.maxLevel x L := by
      rw [← hlin x hx hxL]; simp
    rw [this] at h1
    rw [h1, hinj y x h2 hx h3 hxL h4]
  · exact hinj x y hx hy hxL hyL (by rw [← hlin x hx hxL, ← hlin y hy hyL, hxy])

example : Cls.hex.maxLevel ≤ Cls.hex.maxLevel ∧ 5000000000000000000 < 2 ^ (Cls.hex.dim * 21) := by decide

/-! ### C03 -/

/-- C03. The successor is the next element of the uniform refinement. -/
theorem C03_standalone (c : Cls) : c.tree.SuccessorSpec (successor c.maxLevel) :=
  successorSpec_of fun e he hlt => successor_spec _ _ e rfl he hlt

/-- C03. For every element that is not the last one of its level the successor has the same level and the
next linear id. -/
theorem C03_standalone_next (c : Cls) (e : Elem c.dim) (he : Valid c.maxLevel e)
    (hlast : (linearId c.maxLevel e e.level).toNat + 1 < 2 ^ (c.dim * e.level)) :
    ∃ s, successor c.maxLevel e = some s ∧ Valid c.maxLevel s ∧ s.level = e.level ∧
      (linearId c.maxLevel s s.level).toNat = (linearId c.maxLevel e e.level).toNat + 1 := by
  have h : 0 < c.dim → c.maxLevel < 32 := by cases c <;> simp [Cls.dim, Cls.maxLevel]
  have hlin : ∀ x : Elem c.dim, Valid c.maxLevel x →
      (linearId c.maxLevel x x.level).toNat = lid (T := c.tree) x x.level := by
    intro x hx
    rw [linearId_eq h c.bits hx hx.1, if_neg (by omega)]
  have hroot : c.tree.count (root c.dim) e.level = 2 ^ (c.dim * e.level) := by
    rw [count_eq_pow]; simp [root]
  obtain ⟨s, h1, h2, h3, h4⟩ := successor_spec h _ e rfl he (by rw [← hlin e he, hroot]; exact hlast)
  exact ⟨s, h1, h2, h3, by rw [hlin s h2, hlin e he, ← h4, h3]⟩

/-- Every class but the vertex has elements that are not the last one: the sample hex. -/
example : Valid Cls.hex.maxLevel (d := Cls.hex.dim) sampleHex ∧
    (linearId Cls.hex.maxLevel (d := Cls.hex.dim) sampleHex sampleHex.level).toNat + 1 <
      2 ^ (Cls.hex.dim * sampleHex.level) := ⟨sampleHex_valid, by decide +kernel⟩

/-! ### C04 -/

/-- C04. First and last descendant are the ends of the uniform refinement of the element. -/
theorem C04_standalone_ends (c : Cls) :
    c.tree.DescendantSpec firstDescendant (lastDescendant c.maxLevel) := by
  apply descendantSpec_of
  intro e L he hl hL
  obtain ⟨n, rfl⟩ := Nat.exists_eq_add_of_le hl
  rw [Nat.add_sub_cancel_left]
  exact ⟨firstDescendant_eq _ he hL, lastDescendant_eq _ he hL⟩

/-- C04. The descendants of a level are the interval between first and last descendant. -/
theorem C04_standalone_interval (c : Cls) :
    c.tree.DescendantIntervalSpec (fun e L => (linearId c.maxLevel e L).toNat) firstDescendant
      (lastDescendant c.maxLevel) :=
  descendantIntervalSpec_of (C02_standalone_position c) (C04_standalone_ends c)

example : Valid Cls.hex.maxLevel (d := Cls.hex.dim) sampleHex ∧ sampleHex.level ≤ 7 ∧ 7 ≤ Cls.hex.maxLevel :=
  ⟨sampleHex_valid, by decide⟩

/-! ### C05 -/

/-- C05. The nearest common ancestor. -/
theorem C05_standalone (c : Cls) : c.tree.NcaSpec (nca c.maxLevel) := nca_spec _

example : Cls.hex.tree.Valid sampleHex ∧ Cls.hex.tree.Valid (child 21 (root 3) 5) ∧
    (nca 21 sampleHex (child 21 (root 3) 6) = some (root 3)) := by
  refine ⟨sampleHex_valid, valid_child (by simp) valid_root (by simp [root]) 5, by decide +kernel⟩

/-! ### C06 -/

/-- C06. On arrays of valid elements of positive level the family test is exact. -/
theorem C06_standalone_partial (c : Cls) (fam : List (Elem c.dim)) (hlen : fam.length = numChildren c.dim)
    (hv : ∀ x ∈ fam, Valid c.maxLevel x) (h0 : ∀ x ∈ fam, 0 < x.level) :
    ∃ b, areFamily c.maxLevel fam = some b ∧ (b = true ↔ ∃ p, c.tree.IsFamilyOf fam p) :=
  areFamily_spec _ c.bits fam hlen hv h0

/-- C06. The full claim fails for arrays that contain elements of level 0: the documentation says that they
"do not form a family", but the test asks for the parent of the root, which violates an assertion. -/
theorem C06_standalone_level_zero : ∀ c : Cls, areFamily c.maxLevel [root c.dim] = none := by
  intro c; simp [areFamily, root, assertO]

example : ∃ fam : List (Elem Cls.hex.dim), fam.length = numChildren Cls.hex.dim ∧
    (∀ x ∈ fam, Valid Cls.hex.maxLevel x) ∧ (∀ x ∈ fam, 0 < x.level) := by
  refine ⟨children 21 sampleHex, by decide, ?_, ?_⟩
  · intro x hx
    obtain ⟨i, hi, rfl⟩ := List.mem_map.1 hx
    exact valid_child (M := 21) (by simp) sampleHex_valid (by decide) i
  · intro x hx
    obtain ⟨i, hi, rfl⟩ := List.mem_map.1 hx
    simp [child]

/-! ### C07 -/

/-- C07. The comparison decides the order of the space-filling curve … -/
theorem C07_standalone (c : Cls) : c.tree.CompareSpec (compare c.maxLevel) := compare_spec _ c.bits

/-- C07. … which is a strict total order … -/
theorem C07_standalone_total (c : Cls) : c.tree.LtTotalOrder := ltTotalOrder

/-- C07. … in which elements that do not overlap are ordered as their linear ids on any level that is not
coarser than theirs. -/
theorem C07_standalone_linear_id (c : Cls) (x y : Elem c.dim) (hx : Valid c.maxLevel x)
    (hy : Valid c.maxLevel y) (h1 : ¬ c.tree.Desc x y) (h2 : ¬ c.tree.Desc y x) (L : Nat)
    (hL : L ≤ c.maxLevel) (lx : x.level ≤ L) (ly : y.level ≤ L) :
    compare c.maxLevel x y < 0 ↔ (linearId c.maxLevel x L).toNat < (linearId c.maxLevel y L).toNat := by
  have h : 0 < c.dim → c.maxLevel < 32 := by cases c <;> simp [Cls.dim, Cls.maxLevel]
  have e1 := linearId_eq h c.bits hx hL
  have e2 := linearId_eq h c.bits hy hL
  rw [if_neg (by omega)] at e1 e2
  rw [(C07_standalone c x y hx hy).1, e1, e2, lt_iff_lid (T := c.tree) hx hy lx ly hL]
  constructor
  · rintro (h3 | ⟨h3, h4⟩)
    · exact h3
    · exfalso
      apply h1
      rw [desc_iff_lid (T := c.tree) hx hy (le_of_lt h4) ly hL]
      have := count_pos (T := c.tree) hx lx hL
      omega
  · exact Or.inl

example : Cls.hex.tree.Lt (child 21 (root 3) 5) sampleHex :=
  Or.inr ⟨Desc.step (T := Cls.hex.tree) Desc.refl (by decide) (by decide), fun h => absurd (congrArg Elem.level h) (by decide)⟩

/-! ### C08 -/

/-- C08. `element_is_ancestor` is true exactly for ancestors. -/
theorem C08_standalone (c : Cls) : c.tree.IsAncestorSpec (isAncestor c.maxLevel) := isAncestor_spec _

/-- C08. The ancestor of a level is the iterated parent, and `element_get_ancestor_id` its child id. -/
theorem C08_standalone_iterate (c : Cls) (e : Elem c.dim) (he : Valid c.maxLevel e) (l : Nat)
    (hl : l ≤ e.level) :
    ancestor c.maxLevel e l = (parent c.maxLevel)^[e.level - l] e ∧
    ancestorId c.maxLevel e l = childId c.maxLevel ((parent c.maxLevel)^[e.level - l] e) := by
  have h : 0 < c.dim → c.maxLevel < 32 := by cases c <;> simp [Cls.dim, Cls.maxLevel]
  have := ancestor_eq_anc h he hl
  exact ⟨this, by rw [ancestorId, this]; rfl⟩

/-- C08. `a` is an ancestor of `b` exactly if it is obtained by taking the parent `level b - level a`
times. -/
theorem C08_standalone_parent_iterate (c : Cls) (a b : Elem c.dim) (ha : Valid c.maxLevel a)
    (hb : Valid c.maxLevel b) :
    isAncestor c.maxLevel a b = true ↔ ∃ n, n ≤ b.level ∧ (parent c.maxLevel)^[n] b = a := by
  rw [C08_standalone c a b ha hb]
  constructor
  · intro hd
    exact ⟨b.level - a.level, by omega, Desc.anc_eq (T := c.tree) ha hd⟩
  · rintro ⟨n, hn, rfl⟩
    have : c.tree.Desc (c.tree.anc b (b.level - n)) b := desc_anc (T := c.tree) hb
    have hanc : c.tree.anc b (b.level - n) = (parent c.maxLevel)^[n] b := by
      rw [RTree.anc]
      congr 1
      show b.level - (b.level - n) = n
      omega
    rwa [hanc] at this

example : Valid Cls.hex.maxLevel (d := Cls.hex.dim) sampleHex ∧ 1 ≤ sampleHex.level ∧
    isAncestor 21 (child 21 (root 3) 5) sampleHex = true ∧
    isAncestor 21 (child 21 (root 3) 4) sampleHex = false := ⟨sampleHex_valid, by decide +kernel⟩

/-! ### C09 -/

/-- C09. `count` is the number of distinct descendants: the uniform refinement has no duplicates and
contains exactly the descendants of the level. -/
theorem C09_standalone_meaning (c : Cls) (e : Elem c.dim) (he : Valid c.maxLevel e) (L : Nat)
    (hl : e.level ≤ L) (hL : L ≤ c.maxLevel) :
    ∃ xs : List (Elem c.dim), xs.length = c.tree.count e L ∧ xs.Nodup ∧
      ∀ x, x ∈ xs ↔ c.tree.Desc e x ∧ x.level = L := by
  refine ⟨c.tree.uniform e (L - e.level), uniform_length (T := c.tree) hl,
    nodup_uniform (T := c.tree) he (by show e.level + _ ≤ c.maxLevel; omega), fun x => ?_⟩
  rw [mem_uniform (T := c.tree) he (by show e.level + _ ≤ c.maxLevel; omega)]
  have : e.level + (L - e.level) = L := by omega
  show _ ∧ x.level = e.level + (L - e.level) ↔ _
  rw [this]

/-- C09. The leaf count is exact unless the exact value is `2^63`. -/
theorem C09_standalone_partial (c : Cls) (e : Elem c.dim) (L : Nat)
    (hfit : c.dim * (L - e.level) < 63) : (countLeaves e L).toInt = c.tree.count e L := by
  have h : 0 < c.dim → c.maxLevel < 32 := by cases c <;> simp [Cls.dim, Cls.maxLevel]
  show _ = (((treeOf c.dim c.maxLevel h).count e L : Nat) : Int)
  have h1 : (treeOf c.dim c.maxLevel h).count e L < 2 ^ 63 := by
    rw [count_eq_pow]
    split
    · simp
    · exact Nat.pow_lt_pow_right (by omega) hfit
  rw [countLeaves_eq h, BitVec.toInt_eq_toNat_cond, BitVec.toNat_ofNat,
    Nat.mod_eq_of_lt (by omega), if_pos (by omega)]

/-- C09. The count from the root. -/
theorem C09_standalone_root_partial (c : Cls) (L : Nat) (hfit : c.dim * L < 63) :
    (countLeavesFromRoot c.dim L).toInt = c.tree.count (root c.dim) L := by
  rw [← C09_standalone_partial c (root c.dim) L (by simpa [root] using hfit)]
  rw [countLeaves, if_neg (by simp [root]), countLeavesFromRoot, numDescendants, Nat.mul_comm]
  rfl

/-- C09. The count is exact on all elements and levels of the classes vertex, line and quad. -/
theorem C09_standalone_full (c : Cls) (hc : c ≠ Cls.hex) :
    c.tree.CountSpec (fun e L => (countLeaves e L).toInt) := by
  intro e L he hL
  apply C09_standalone_partial
  have : c.dim * c.maxLevel < 63 := by cases c <;> simp_all [Cls.dim, Cls.maxLevel]
  have h2 : c.dim * (L - e.level) ≤ c.dim * c.maxLevel :=
    Nat.mul_le_mul_left _ (by have : L ≤ c.maxLevel := hL; omega)
  omega

/-- C09 is false for hexahedra: the count of the root on the maximum level, `2^63`, does not fit into
`t8_gloidx_t` and is returned as `-2^63`. -/
theorem C09_standalone_hex_overflow :
    (countLeaves (root Cls.hex.dim) Cls.hex.maxLevel).toInt = -2 ^ 63 ∧
    (countLeavesFromRoot Cls.hex.dim Cls.hex.maxLevel).toInt = -2 ^ 63 ∧
    ¬ Cls.hex.tree.CountSpec (fun e L => (countLeaves e L).toInt) := by
  have h1 : (countLeaves (root Cls.hex.dim) Cls.hex.maxLevel).toInt = -2 ^ 63 := by decide +kernel
  refine ⟨h1, by decide +kernel, fun h => ?_⟩
  have := h (root Cls.hex.dim) Cls.hex.maxLevel valid_root (le_refl _)
  simp only [h1] at this
  omega

example : Cls.hex.dim * (20 - sampleHex.level) < 63 ∧ Cls.quad ≠ Cls.hex := by decide

end T8.Standalone
