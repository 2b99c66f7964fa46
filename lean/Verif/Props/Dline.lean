/-
C01–C15 for the lines of the default scheme.

`Valid e` (Spec/Dline.lean) says that `e` is an aligned interval inside of the root interval; `C01_line_reachable`
shows that these are exactly the elements that can be created from the root by taking children.
-/
import Verif.Lemmas.Dline
import Verif.Spec.Scheme
import Verif.Spec.Face

namespace T8.Dline
open T8.RTree T8.Bits

/-- A line of level 3, used to show that the hypotheses below can be met. -/
def sample : Line := child (child (child root 1) 0) 1

theorem sample_valid : Valid sample :=
  valid_child (valid_child (valid_child (toElem_valid.1 Standalone.valid_root) (by decide) (by decide)) (by decide)
    (by decide)) (by decide) (by decide)

/-! ### C01 -/

/-- C01. Parent and child are inverse. -/
theorem C01_line (e : Line) (he : Valid e) :
    (e.level < maxLevel → ∀ i, i < numChildren →
      Valid (child e i) ∧ parent (child e i) = e ∧ childId (child e i) = i ∧ (child e i).level = e.level + 1) ∧
    (0 < e.level →
      Valid (parent e) ∧ 0 ≤ childId e ∧ childId e < numChildren ∧ child (parent e) (childId e).toNat = e ∧
      (parent e).level + 1 = e.level) := by
  refine ⟨fun hl i hi => ⟨valid_child he hl hi, tree.parent_child e i he hl hi, ?_, rfl⟩, fun hl => ?_⟩
  · rw [← childId_nat (valid_child he hl hi)]
    exact congrArg Nat.cast (tree.childId_child e i he hl hi)
  · have h1 : (childId e).toNat < 2 := tree.childId_lt e he hl
    have h2 := childId_nat he
    refine ⟨valid_parent he hl, by omega, ?_, tree.child_parent e he hl, tree.level_parent e he hl⟩
    show childId e < 2
    omega

/-- C01. `element_get_children` lists the children by their child numbers. -/
theorem C01_line_children (e : Line) : children e = (List.range numChildren).map (child e) := by
  simp [children, numChildren, List.range_succ, child]

/-- C01. The valid elements are exactly those that can be created by repeated refinement of the root. -/
theorem C01_line_reachable (e : Line) : Valid e ↔ tree.Desc root e :=
  ⟨fun h => desc_root (T := tree) h, fun h => Desc.valid (T := tree) tree.valid_root h⟩

/-- C01. Different child numbers give different children. -/
theorem C01_line_distinct (e : Line) (he : Valid e) (hl : e.level < maxLevel) (i j : Nat) (hi : i < numChildren)
    (hj : j < numChildren) (h : child e i = child e j) : i = j :=
  child_inj (T := tree) he hl hi hj h

/-- C01. With assertions enabled the child id of a line of maximum level cannot be queried, although the line is
valid and has a parent: `t8_dline_child_id` asserts `level < MAXLEVEL`. -/
theorem C01_line_child_id_debug :
    (∀ e, Valid e → e.level < maxLevel → childIdDebug e = some (childId e)) ∧
    ∃ e, Valid e ∧ 0 < e.level ∧ childIdDebug e = none := by
  refine ⟨fun e _ hl => by rw [childIdDebug, assertO_true hl]; rfl, ⟨0, 30⟩, ?_, by decide, by decide⟩
  refine ⟨le_refl _, by decide, by decide⟩

example : Valid sample ∧ 0 < sample.level ∧ sample.level < maxLevel ∧ childId sample = 1 := ⟨sample_valid, by decide⟩

/-! ### C02 -/

/-- C02. `element_get_linear_id` is the position in the uniform refinement, for all levels. -/
theorem C02_line_position : tree.LinearIdSpec (fun e L => (linearId e L).toNat) := linearId_spec

/-- C02. `element_set_linear_id` constructs the element at a position of the uniform refinement. -/
theorem C02_line_set : tree.SetLinearIdSpec (fun L id => initLinearId L (BitVec.ofNat 64 id)) := setLinearId_spec

/-- C02. Every id below the number of elements of a level belongs to exactly one element of this level. -/
theorem C02_line_bijection (L : Nat) (hL : L ≤ maxLevel) :
    (∀ id : Nat, id < 2 ^ L → ∃ x, initLinearId L (BitVec.ofNat 64 id) = some x ∧ Valid x ∧ x.level = L ∧
      (linearId x L).toNat = id) ∧
    (∀ x, Valid x → x.level = L → (linearId x L).toNat < 2 ^ L ∧ initLinearId L (linearId x L) = some x) := by
  have hlin : ∀ x : Line, Valid x → x.level = L → (linearId x L).toNat = pos (T := tree) x := by
    intro x hx hxL
    rw [linearId_toNat hx, pos_eq x hx, hxL]
  have key : ∀ id : Nat, id < 2 ^ L → ∃ x, initLinearId L (BitVec.ofNat 64 id) = some x ∧ Valid x ∧ x.level = L ∧
      (linearId x L).toNat = id := by
    intro id hid
    have h1 := setLinearId_spec L id hL
      (by rw [regular.uniform_len tree.valid_root (by rw [tree.level_root]; simpa using hL)]; exact hid)
    have hlen : id < (tree.uniform tree.root L).length := by
      rw [regular.uniform_len tree.valid_root (by rw [tree.level_root]; simpa using hL)]; exact hid
    rw [List.getElem?_eq_getElem hlen] at h1
    have hm := (mem_uniform tree.valid_root (by rw [tree.level_root]; simpa using hL)).1 (List.getElem_mem hlen)
    have hv := hm.1.valid tree.valid_root
    have hlv : ((tree.uniform tree.root L)[id] : Line).level = L := by
      have := hm.2
      rw [tree.level_root, Nat.zero_add] at this
      exact this
    refine ⟨_, h1, hv, hlv, ?_⟩
    have h3 := linearId_spec _ L hv hL
    rw [if_pos (le_of_eq hlv.symm), anc_of_level_le (le_of_eq hlv)] at h3
    exact pos_unique (nodup_root hL) h3 (List.getElem?_eq_getElem hlen)
  refine ⟨key, fun x hx hxL => ?_⟩
  have hlt : (linearId x L).toNat < 2 ^ L := by
    rw [hlin x hx hxL, ← hxL]
    exact regular.pos_lt (e := x) hx
  obtain ⟨y, h1, h2, h3, h4⟩ := key _ hlt
  refine ⟨hlt, ?_⟩
  rw [BitVec.ofNat_toNat, BitVec.setWidth_eq] at h1
  rw [h1]
  congr 1
  apply regular.pos_inj h2 hx (h3.trans hxL.symm)
  rw [← hlin y h2 h3, h4, hlin x hx hxL]

example : (linearId sample 3).toNat = 5 ∧ (linearId sample 5).toNat = 20 ∧ (linearId sample 1).toNat = 1 ∧
    initLinearId 3 5 = some sample := by decide +kernel

/-! ### C03 -/

/-- C03. The successor is the next element of the uniform refinement. -/
theorem C03_line : tree.SuccessorSpec (fun e => successor e e.level) := successor_spec

/-- C03. For every element that is not the last one of its level the successor has the same level and the next
linear id. -/
theorem C03_line_next (e : Line) (he : Valid e) (hlast : (linearId e e.level).toNat + 1 < 2 ^ e.level) :
    ∃ s, successor e e.level = some s ∧ Valid s ∧ s.level = e.level ∧
      (linearId s s.level).toNat = (linearId e e.level).toNat + 1 := by
  have hlin : ∀ x : Line, Valid x → (linearId x x.level).toNat = pos (T := tree) x := by
    intro x hx
    rw [linearId_toNat hx, pos_eq x hx]
  rw [hlin e he] at hlast ⊢
  have hlen : pos (T := tree) e + 1 < (tree.uniform tree.root e.level).length := by
    rw [regular.uniform_len tree.valid_root (by rw [tree.level_root]; simpa using he.1)]; exact hlast
  have h2 := uniform_getElem_lid (T := tree) (x := e) he
  have h3 := successor_spec e _ (pos (T := tree) e) he h2 (List.getElem?_eq_getElem hlen)
  have hm := (mem_uniform tree.valid_root (by rw [tree.level_root]; simpa using he.1)).1 (List.getElem_mem hlen)
  have hv := hm.1.valid tree.valid_root
  have hlv : ((tree.uniform tree.root e.level)[pos (T := tree) e + 1] : Line).level = e.level := by
    have := hm.2
    rw [tree.level_root, Nat.zero_add] at this
    exact this
  refine ⟨_, h3, hv, hlv, ?_⟩
  rw [hlin _ hv]
  have h4 := uniform_getElem_lid (T := tree) hv
  have h5 : tree.level ((tree.uniform tree.root e.level)[pos (T := tree) e + 1]) = e.level := hlv
  rw [h5] at h4
  rw [pos, h5]
  exact pos_unique (nodup_root he.1) h4 (List.getElem?_eq_getElem hlen)

example : Valid sample ∧ (linearId sample sample.level).toNat + 1 < 2 ^ sample.level ∧
    successor sample 3 = some (child (child (child root 1) 1) 0) := ⟨sample_valid, by decide +kernel⟩

/-! ### C04 -/

/-- C04. First and last descendant are the ends of the uniform refinement of the element. -/
theorem C04_line_ends : tree.DescendantSpec firstDescendant lastDescendant := descendant_spec

/-- C04. The descendants of a level are the interval between first and last descendant. -/
theorem C04_line_interval :
    tree.DescendantIntervalSpec (fun e L => (linearId e L).toNat) firstDescendant lastDescendant :=
  descendantIntervalSpec_of linearId_spec descendant_spec

example : Valid sample ∧ sample.level ≤ 5 ∧ 5 ≤ maxLevel ∧ (linearId (firstDescendant sample 5) 5).toNat = 20 ∧
    (linearId (lastDescendant sample 5) 5).toNat = 23 := ⟨sample_valid, by decide +kernel⟩

/-! ### C05 -/

/-- C05. The nearest common ancestor. -/
theorem C05_line : tree.NcaSpec nca := nca_spec

example : nca sample (child (child root 1) 1) = some (child root 1) ∧ nca sample (child root 1) = some (child root 1) := by
  decide +kernel

/-! ### C06 -/

/-- C06. The family test is exact on arrays of valid elements of the right length, also if they contain the
root. -/
theorem C06_line (fam : List Line) (hlen : fam.length = numChildren) (hv : ∀ x ∈ fam, Valid x) :
    ∃ b, isFamily fam = some b ∧ (b = true ↔ ∃ p, tree.IsFamilyOf fam p) := by
  obtain ⟨f0, f1, rfl⟩ : ∃ f0 f1, fam = [f0, f1] := by
    match fam, hlen with
    | [a, b], _ => exact ⟨a, b, rfl⟩
  have v0 : Valid f0 := hv f0 (by simp)
  have v1 : Valid f1 := hv f1 (by simp)
  have hfam : (∃ p, tree.IsFamilyOf [f0, f1] p) ↔
      ∃ p : Line, Valid p ∧ p.level < maxLevel ∧ f0 = child p 0 ∧ f1 = child p 1 := by
    constructor
    · rintro ⟨p, h1, h2, h3⟩
      have h3' : [f0, f1] = [child p 0, child p 1] := h3
      simp only [List.cons.injEq, and_true] at h3'
      exact ⟨p, h1, h2, h3'.1, h3'.2⟩
    · rintro ⟨p, h1, h2, h3, h4⟩
      refine ⟨p, h1, h2, ?_⟩
      show [f0, f1] = [child p 0, child p 1]
      rw [h3, h4]
  rw [hfam]
  have h31 : ∀ e : Line, Valid e → e.x.toNat < 2 ^ 31 := fun e he => lt_trans he.2.1 (by decide)
  simp only [isFamily, List.getElem?_cons_zero, List.getElem?_cons_succ, Option.bind_eq_bind, Option.bind_some]
  split
  · rename_i hlev
    refine ⟨false, rfl, by simp, ?_⟩
    rintro ⟨p, _, _, h3, h4⟩
    rw [h3, h4] at hlev
    simp [child] at hlev
  · rename_i hlev
    have hl0 : 0 < f0.level := by omega
    have hl1 : f1.level = f0.level := by omega
    have hm := v0.1
    have hs : ∀ e : Line, Valid e → e.level = f0.level →
        (e.x.sshiftRight (maxLevel - f0.level + 1)).toNat = pos (T := tree) (parent e) := by
      intro e he hel
      rw [toNat_shift _ (h31 e he)]
      have h1 := regular.pos_parent (e := e) he (by show 0 < e.level; omega)
      have h2 := tree.childId_lt e he (by show 0 < e.level; omega)
      have h2' : tree.childId e < 2 := h2
      rw [pos_eq e he] at h1
      have h1' : e.x.toNat / 2 ^ (maxLevel - e.level) = pos (T := tree) (parent e) * 2 + tree.childId e := h1
      rw [← hel, Nat.pow_succ, ← Nat.div_div_eq_div_mul]
      omega
    split
    · rename_i hne
      refine ⟨false, rfl, by simp, ?_⟩
      rintro ⟨p, h1, h2, h3, h4⟩
      exfalso
      apply hne
      apply BitVec.eq_of_toNat_eq
      have q0 : parent f0 = p := by rw [h3]; exact tree.parent_child p 0 h1 h2 Nat.zero_lt_two
      have q1 : parent f1 = p := by rw [h4]; exact tree.parent_child p 1 h1 h2 Nat.one_lt_two
      rw [hs f0 v0 rfl, hs f1 v1 hl1, q0, q1]
    · rename_i hne
      rw [ne_eq, not_not] at hne
      have hpar : parent f0 = parent f1 := by
        apply regular.pos_inj (valid_parent v0 hl0) (valid_parent v1 (by omega))
        · show f0.level - 1 = f1.level - 1
          rw [hl1]
        · rw [← hs f0 v0 rfl, ← hs f1 v1 hl1, hne]
      refine ⟨_, rfl, ?_⟩
      rw [decide_eq_true_eq, ← BitVec.toNat_inj]
      have hadd : (f0.x + len f0.level).toNat = f0.x.toNat + 2 ^ (maxLevel - f0.level) := by
        have := add_le_of_dvd v0.2.2 (pow_dvd (show maxLevel - f0.level ≤ maxLevel by omega)) v0.2.1
        have h3 : 2 ^ maxLevel < 2 ^ 32 := by decide
        rw [BitVec.toNat_add, len_toNat]
        exact Nat.mod_eq_of_lt (by omega)
      rw [hadd]
      have pv := valid_parent v0 hl0
      have pl : (parent f0).level < maxLevel := by simp only [parent]; omega
      have ppl : (parent f0).level + 1 = f0.level := by simp only [parent]; omega
      have c0 : child (parent f0) (childId f0).toNat = f0 := tree.child_parent f0 v0 hl0
      have c1 : child (parent f0) (childId f1).toNat = f1 := by
        rw [hpar]; exact tree.child_parent f1 v1 (by show 0 < f1.level; omega)
      have i0 : (childId f0).toNat < 2 := tree.childId_lt f0 v0 hl0
      have i1 : (childId f1).toNat < 2 := tree.childId_lt f1 v1 (by show 0 < f1.level; omega)
      have x0 := child_x pv pl i0
      have x1 := child_x pv pl i1
      rw [c0, ppl] at x0
      rw [c1, ppl] at x1
      have hp0 := Nat.two_pow_pos (maxLevel - f0.level)
      constructor
      · intro h
        rw [x0, x1] at h
        have hi : (childId f0).toNat = 0 ∧ (childId f1).toNat = 1 := by
          have a0 : (childId f0).toNat = 0 ∨ (childId f0).toNat = 1 := by omega
          have a1 : (childId f1).toNat = 0 ∨ (childId f1).toNat = 1 := by omega
          rcases a0 with a0 | a0 <;> rcases a1 with a1 | a1 <;> rw [a0, a1] at h <;> omega
        refine ⟨parent f0, pv, pl, ?_, ?_⟩
        · rw [← hi.1, c0]
        · rw [← hi.2, c1]
      · rintro ⟨p, h1, h2, h3, h4⟩
        have hx0 := child_x h1 h2 (i := 0) (by omega)
        have hx1 := child_x h1 h2 (i := 1) (by omega)
        rw [← h3] at hx0
        rw [← h4] at hx1
        have : f0.level = p.level + 1 := by rw [h3]; rfl
        rw [this]
        omega

example : isFamily (children sample) = some true ∧ isFamily [root, root] = some false ∧
    isFamily [child (child root 0) 1, child (child root 1) 0] = some false ∧ (children sample).length = numChildren := by
  decide +kernel

/-! ### C07 -/

/-- C07. The comparison decides the order of the space-filling curve … -/
theorem C07_line : tree.CompareSpec compare := compare_spec

/-- C07. … which is a strict total order. -/
theorem C07_line_total : tree.LtTotalOrder := ltTotalOrder

example : compare (child root 1) sample < 0 ∧ compare sample (child root 0) > 0 ∧ compare sample sample = 0 := by
  decide +kernel

/-! ### C08 -/

/-- C08. `element_is_ancestor` is true exactly for ancestors. -/
theorem C08_line : tree.IsAncestorSpec isAncestor := isAncestor_spec

/-- C08. `t8_dline_ancestor` is the iterated parent, and `element_get_ancestor_id` its child id. -/
theorem C08_line_iterate (e : Line) (he : Valid e) (l : Nat) (hl : l ≤ e.level) :
    ancestor e l = parent^[e.level - l] e ∧ (0 < l → ancestorId e l = childId (parent^[e.level - l] e)) := by
  refine ⟨ancestor_eq he hl, fun h0 => ?_⟩
  rw [ancestorId_eq he h0 hl]
  show ((childId (tree.anc e l)).toNat : Int) = _
  rw [childId_nat (valid_anc (T := tree) he l)]
  rfl

example : ancestor sample 1 = child root 1 ∧ ancestorId sample 2 = 0 ∧ isAncestor (child root 1) sample = true ∧
    isAncestor (child root 0) sample = false := by decide +kernel

/-! ### C09 -/

/-- C09. `count` is the number of distinct descendants. -/
theorem C09_line_meaning (e : Line) (he : Valid e) (L : Nat) (hl : e.level ≤ L) (hL : L ≤ maxLevel) :
    ∃ xs : List Line, xs.length = tree.count e L ∧ xs.Nodup ∧ ∀ x, x ∈ xs ↔ tree.Desc e x ∧ x.level = L :=
  Default.count_meaning (T := tree) he hl hL

/-- C09. The leaf count is exact on all elements and levels. -/
theorem C09_line : tree.CountSpec (fun e L => (countLeaves e L).toInt) := by
  intro e L he hL
  have hL' : L ≤ 30 := hL
  exact Default.countLeaves_eq (T := tree) (dim := 1) regular he hL (by show 1 * (L - e.level) < 63; omega)

/-- C09. The count from the root. -/
theorem C09_line_root (L : Nat) (hL : L ≤ maxLevel) :
    (Default.countLeavesFromRoot 1 L).toInt = tree.count root L :=
  Default.countLeaves_root (T := tree) (dim := 1) regular hL (by have : L ≤ 30 := hL; omega)

example : (countLeaves sample 7).toInt = 16 := by decide +kernel

/-! ### C10 -/

theorem side_le {e : Line} (he : Valid e) : e.x.toNat + 2 ^ (maxLevel - e.level) ≤ 2 ^ maxLevel :=
  add_le_of_dvd he.2.2 (pow_dvd (show maxLevel - e.level ≤ maxLevel by omega)) he.2.1

theorem sub_len (l : Nat) : (rootLen - len l).toNat = 2 ^ maxLevel - 2 ^ (maxLevel - l) := by
  have hp := Nat.two_pow_pos (maxLevel - l)
  have hpl : 2 ^ (maxLevel - l) ≤ 2 ^ maxLevel := Nat.pow_le_pow_right (by omega) (by omega)
  have hM : 2 ^ maxLevel < 2 ^ 32 := by decide
  rw [BitVec.toNat_sub, rootLen_toNat, len_toNat, Nat.mod_eq_sub_mod (by omega), Nat.mod_eq_of_lt (by omega)]
  omega

/-- The neighbor across face `f`. -/
theorem neighbor_spec {e : Line} (he : Valid e) {f : Nat} (hf : f < numFaces) :
    (Face e f ⊆ Face root f ∧ faceNeighborInside e f = none) ∨
    (¬ Face e f ⊆ Face root f ∧ ∃ n, faceNeighborInside e f = some (n, 1 - f) ∧ Valid n ∧ n.level = e.level ∧
      n.x.toNat + 2 ^ (maxLevel - e.level) = e.x.toNat + 2 * f * 2 ^ (maxLevel - e.level)) := by
  have hs := side_le he
  have hp := Nat.two_pow_pos (maxLevel - e.level)
  have hM : 2 ^ maxLevel < 2 ^ 31 := by decide
  have hR : rootLen.toInt = ((2 ^ maxLevel : Nat) : Int) := by
    rw [toInt_eq _ (by rw [rootLen_toNat]; exact hM), rootLen_toNat]
  have hroot : root.x.toNat = 0 := rfl
  have hle : 2 ^ (maxLevel - e.level) ≤ 2 ^ maxLevel := Nat.pow_le_pow_right (by omega) (by omega)
  have hf' : f = 0 ∨ f = 1 := by simp only [numFaces] at hf; omega
  rcases hf' with rfl | rfl
  · have hface : Face e 0 ⊆ Face root 0 ↔ e.x.toNat = 0 := by
      simp [Face, hroot]
    rw [hface]
    have hx : (e.x - len e.level).toNat = (2 ^ 32 - 2 ^ (maxLevel - e.level) + e.x.toNat) % 2 ^ 32 := by
      rw [BitVec.toNat_sub, len_toNat]
    by_cases h0 : e.x.toNat = 0
    · left
      refine ⟨h0, ?_⟩
      rw [faceNeighborInside, if_neg]
      simp only [faceNeighbour, if_true, isInsideRoot, decide_eq_true_eq]
      rintro ⟨h1, _⟩
      rw [BitVec.toInt_eq_toNat_cond, hx, h0] at h1
      generalize 2 ^ (maxLevel - e.level) = a at *
      generalize 2 ^ maxLevel = c at *
      split at h1 <;> omega
    · right
      have hge : 2 ^ (maxLevel - e.level) ≤ e.x.toNat := Nat.le_of_dvd (by omega) he.2.2
      have hx' : (e.x - len e.level).toNat = e.x.toNat - 2 ^ (maxLevel - e.level) := by
        rw [hx, Nat.mod_eq_sub_mod (by omega), Nat.mod_eq_of_lt (by omega)]
        omega
      have hv : Valid ⟨e.x - len e.level, e.level⟩ := by
        refine ⟨he.1, ?_, ?_⟩
        · show (e.x - len e.level).toNat < _
          rw [hx']; omega
        · show _ ∣ (e.x - len e.level).toNat
          rw [hx']; exact Nat.dvd_sub he.2.2 (Nat.dvd_refl _)
      refine ⟨h0, ⟨e.x - len e.level, e.level⟩, ?_, hv, rfl, ?_⟩
      · rw [faceNeighborInside, if_pos]
        · rfl
        · simp only [faceNeighbour, if_true, isInsideRoot, decide_eq_true_eq]
          have h2 : (e.x - len e.level).toNat < 2 ^ maxLevel := hv.2.1
          rw [toInt_eq _ (by omega), hR]
          omega
      · show (e.x - len e.level).toNat + _ = _
        rw [hx']; omega
  · have hface : Face e 1 ⊆ Face root 1 ↔ e.x.toNat + 2 ^ (maxLevel - e.level) = 2 ^ maxLevel := by
      have : root.level = 0 := rfl
      simp [Face, hroot, this]
    rw [hface]
    have hx : (e.x + len e.level).toNat = e.x.toNat + 2 ^ (maxLevel - e.level) := by
      rw [BitVec.toNat_add, len_toNat]
      exact Nat.mod_eq_of_lt (by omega)
    by_cases h0 : e.x.toNat + 2 ^ (maxLevel - e.level) = 2 ^ maxLevel
    · left
      refine ⟨h0, ?_⟩
      rw [faceNeighborInside, if_neg]
      simp only [faceNeighbour, Nat.one_ne_zero, if_false, isInsideRoot, decide_eq_true_eq]
      rintro ⟨_, h1⟩
      rw [toInt_eq _ (by omega), hR, hx] at h1
      omega
    · right
      have hv : Valid ⟨e.x + len e.level, e.level⟩ := by
        refine ⟨he.1, ?_, ?_⟩
        · show (e.x + len e.level).toNat < _
          rw [hx]; omega
        · show _ ∣ (e.x + len e.level).toNat
          rw [hx]; exact Nat.dvd_add he.2.2 (Nat.dvd_refl _)
      refine ⟨h0, ⟨e.x + len e.level, e.level⟩, ?_, hv, rfl, ?_⟩
      · rw [faceNeighborInside, if_pos]
        · rfl
        · simp only [faceNeighbour, Nat.one_ne_zero, if_false, isInsideRoot, decide_eq_true_eq]
          have h2 : (e.x + len e.level).toNat < 2 ^ maxLevel := hv.2.1
          rw [toInt_eq _ (by omega), hR]
          omega
      · show (e.x + len e.level).toNat + _ = _
        rw [hx]; omega

/-- C10. If the neighbor across face `f` is inside of the tree, it is an element of the same level with the same
face, and the neighbor relation is mutual. -/
theorem C10_line_mutual (e : Line) (he : Valid e) (f : Nat) (hf : f < numFaces) (n : Line) (g : Nat)
    (hn : faceNeighborInside e f = some (n, g)) :
    Valid n ∧ n.level = e.level ∧ n ≠ e ∧ g < numFaces ∧ Face n g = Face e f ∧ faceNeighborInside n g = some (e, f) := by
  rcases neighbor_spec he hf with ⟨_, h⟩ | ⟨_, n', h1, h2, h3, h4⟩
  · rw [hn] at h; cases h
  · rw [hn] at h1
    simp only [Option.some.injEq, Prod.mk.injEq] at h1
    obtain ⟨rfl, rfl⟩ := h1
    have hf' : f = 0 ∨ f = 1 := by simp only [numFaces] at hf; omega
    have hp := Nat.two_pow_pos (maxLevel - e.level)
    have hsn := side_le h2
    have hse := side_le he
    have hg : 1 - f < numFaces := by simp only [numFaces]; omega
    have hroot : root.x.toNat = 0 := rfl
    have hrl : root.level = 0 := rfl
    refine ⟨h2, h3, ?_, hg, ?_, ?_⟩
    · rintro rfl
      rcases hf' with rfl | rfl <;> omega
    · rw [h3] at hsn
      ext p
      simp only [Face, Set.mem_ofPred_eq, h3]
      rcases hf' with rfl | rfl <;> omega
    · rcases neighbor_spec h2 hg with ⟨k1, _⟩ | ⟨_, n', k1, k2, k3, k4⟩
      · exfalso
        rw [h3] at hsn
        rcases hf' with rfl | rfl
        · have : n.x.toNat + 2 ^ (maxLevel - e.level) = 2 ^ maxLevel := by
            simpa [Face, hroot, hrl, h3] using k1
          have := he.2.1
          omega
        · have : n.x.toNat = 0 := by simpa [Face, hroot, hrl, h3] using k1
          omega
      · rw [k1]
        have hff : 1 - (1 - f) = f := by omega
        rw [hff]
        congr 2
        rw [h3] at k4
        have hx : n'.x = e.x := by
          apply BitVec.eq_of_toNat_eq
          rcases hf' with rfl | rfl <;> omega
        have hl : n'.level = e.level := k3.trans h3
        cases n'; cases e
        simp_all

/-- C10. There is a neighbor inside of the tree exactly if the face is not part of the face of the root, which
is what `element_is_root_boundary` tests. -/
theorem C10_line_inside (e : Line) (he : Valid e) (f : Nat) (hf : f < numFaces) :
    (faceNeighborInside e f = none ↔ Face e f ⊆ Face root f) ∧
    (isRootBoundary e f = true ↔ Face e f ⊆ Face root f) ∧
    ∀ g, g < numFaces → Face e f ⊆ Face root g → treeFace f = g := by
  have hs := side_le he
  have hp := Nat.two_pow_pos (maxLevel - e.level)
  have hroot : root.x.toNat = 0 := rfl
  have hrl : root.level = 0 := rfl
  have hM : 2 ^ maxLevel < 2 ^ 32 := by decide
  have hf' : f = 0 ∨ f = 1 := by simp only [numFaces] at hf; omega
  refine ⟨?_, ?_, ?_⟩
  · rcases neighbor_spec he hf with ⟨h1, h2⟩ | ⟨h1, n, h2, _⟩
    · simp [h1, h2]
    · simp [h1, h2]
  · rcases hf' with rfl | rfl
    · simp only [isRootBoundary, if_true, beq_iff_eq, ← BitVec.toNat_inj]
      simp [Face, hroot]
    · have hsub : (rootLen - len e.level).toNat = 2 ^ maxLevel - 2 ^ (maxLevel - e.level) := sub_len e.level
      simp only [isRootBoundary, Nat.one_ne_zero, if_false, beq_iff_eq, ← BitVec.toNat_inj, hsub]
      simp only [Face, hroot, hrl, Set.ofPred_eq_eq_singleton, Set.singleton_subset_iff, Set.mem_singleton_iff,
        Nat.one_mul, Nat.zero_add, Nat.sub_zero]
      omega
  · intro g hg h
    have hg' : g = 0 ∨ g = 1 := by simp only [numFaces] at hg; omega
    have hx := he.2.1
    have h' : e.x.toNat + f * 2 ^ (maxLevel - e.level) = g * 2 ^ maxLevel := by
      simpa [Face, hroot, hrl] using h
    rw [treeFace]
    rcases hf' with rfl | rfl <;> rcases hg' with rfl | rfl <;> omega

/-- C10. The neighbor is the only other element of the level that contains the face. -/
theorem C10_line_unique (e y : Line) (he : Valid e) (hy : Valid y) (f : Nat) (hf : f < numFaces)
    (hl : y.level = e.level) (hne : y ≠ e) (hsub : Face e f ⊆ Points y) :
    faceNeighborInside e f = some (y, 1 - f) := by
  have hf' : f = 0 ∨ f = 1 := by simp only [numFaces] at hf; omega
  have hp := Nat.two_pow_pos (maxLevel - e.level)
  have hsy := side_le hy
  have hxne : y.x.toNat ≠ e.x.toNat := by
    intro h
    apply hne
    have := BitVec.eq_of_toNat_eq h
    cases y; cases e; simp_all
  have hin : y.x.toNat ≤ e.x.toNat + f * 2 ^ (maxLevel - e.level) ∧
      e.x.toNat + f * 2 ^ (maxLevel - e.level) ≤ y.x.toNat + 2 ^ (maxLevel - e.level) := by
    have : e.x.toNat + f * 2 ^ (maxLevel - e.level) ∈ Points y := hsub rfl
    simpa [Points, hl] using this
  have hdy : 2 ^ (maxLevel - e.level) ∣ y.x.toNat := by rw [← hl]; exact hy.2.2
  have hdis : y.x.toNat + 2 ^ (maxLevel - e.level) ≤ e.x.toNat ∨ e.x.toNat + 2 ^ (maxLevel - e.level) ≤ y.x.toNat := by
    rcases Nat.lt_or_ge y.x.toNat e.x.toNat with h | h
    · exact Or.inl (add_le_of_dvd hdy he.2.2 h)
    · exact Or.inr (add_le_of_dvd he.2.2 hdy (by omega))
  rw [hl] at hsy
  rcases neighbor_spec he hf with ⟨h1, _⟩ | ⟨_, n, h1, h2, h3, h4⟩
  · exfalso
    have hroot : root.x.toNat = 0 := rfl
    have hrl : root.level = 0 := rfl
    have h' : e.x.toNat + f * 2 ^ (maxLevel - e.level) = f * 2 ^ maxLevel := by
      simpa [Face, hroot, hrl] using h1
    rcases hf' with rfl | rfl <;> omega
  · rw [h1]
    congr 2
    have hx : n.x = y.x := by
      apply BitVec.eq_of_toNat_eq
      rcases hf' with rfl | rfl <;> omega
    have hl' : n.level = y.level := h3.trans hl.symm
    cases n; cases y
    simp_all

example : Valid sample ∧ (0 : Nat) < numFaces ∧ faceNeighborInside sample 0 = some (child (child (child root 1) 0) 0, 1) ∧
    faceNeighborInside (child root 1) 1 = none := ⟨sample_valid, by decide +kernel⟩

/-! ### C11 -/

theorem vertex_at {l : Nat} (hle : l ≤ Dvertex.maxLevel) : Dvertex.setLinearId l 0 = some ⟨l⟩ := by
  simp only [Dvertex.setLinearId, assertO, hle, if_true, Option.bind_eq_bind, Option.bind_some]

/-- C11. The vertex at a face of an element at the boundary of the root; extruding it gives back the element and
the face number. -/
theorem C11_line_extrude_boundary (e : Line) (he : Valid e) (f : Nat) (hf : f < numFaces)
    (hb : Face e f ⊆ Face root f) :
    ∃ b, boundaryFace e f = some b ∧ b.level = e.level ∧ b.level ≤ Dvertex.maxLevel ∧ extrudeFace b f = (e, f) := by
  have hm : e.level ≤ 30 := he.1
  have hs := side_le he
  have hroot : root.x.toNat = 0 := rfl
  have hrl : root.level = 0 := rfl
  have hle : e.level ≤ Dvertex.maxLevel := by simp only [Dvertex.maxLevel]; omega
  refine ⟨⟨e.level⟩, ?_, rfl, hle, ?_⟩
  · exact vertex_at hle
  · have hf' : f = 0 ∨ f = 1 := by simp only [numFaces] at hf; omega
    have hx : (extrudeFace ⟨e.level⟩ f).1.x = e.x := by
      apply BitVec.eq_of_toNat_eq
      rcases hf' with rfl | rfl
      · have : e.x.toNat = 0 := by simpa [Face, hroot, hrl] using hb
        simp [extrudeFace, this]
      · have h1 : e.x.toNat + 2 ^ (maxLevel - e.level) = 2 ^ maxLevel := by simpa [Face, hroot, hrl] using hb
        show (rootLen - len e.level).toNat = _
        rw [sub_len]
        omega
    have hl : (extrudeFace ⟨e.level⟩ f).1.level = e.level := rfl
    have h2 : (extrudeFace ⟨e.level⟩ f).2 = f := rfl
    generalize extrudeFace ⟨e.level⟩ f = y at hx hl h2
    obtain ⟨⟨yx, yl⟩, yf⟩ := y
    cases e
    cases hx; cases hl; cases h2
    rfl

/-- C11. Extruding a vertex gives an element at the face of the root, whose face is the vertex. -/
theorem C11_line_boundary_extrude (b : Dvertex.Vertex) (hl : b.level ≤ maxLevel) (f : Nat) (hf : f < numFaces) :
    Valid (extrudeFace b f).1 ∧ (extrudeFace b f).1.level = b.level ∧ (extrudeFace b f).2 = f ∧
    Face (extrudeFace b f).1 f ⊆ Face root f ∧ boundaryFace (extrudeFace b f).1 f = some b := by
  have hle : b.level ≤ Dvertex.maxLevel := by simp only [Dvertex.maxLevel, maxLevel] at *; omega
  have hf' : f = 0 ∨ f = 1 := by simp only [numFaces] at hf; omega
  have hroot : root.x.toNat = 0 := rfl
  have hrl : root.level = 0 := rfl
  have hp := Nat.two_pow_pos (maxLevel - b.level)
  have hpl : 2 ^ (maxLevel - b.level) ≤ 2 ^ maxLevel := Nat.pow_le_pow_right (by omega) (by omega)
  have hpd : 2 ^ (maxLevel - b.level) ∣ 2 ^ maxLevel := pow_dvd (by omega)
  have hM : 2 ^ maxLevel < 2 ^ 32 := by decide
  have hsub : (rootLen - len b.level).toNat = 2 ^ maxLevel - 2 ^ (maxLevel - b.level) := sub_len b.level
  have hbd : boundaryFace (extrudeFace b f).1 f = some b := vertex_at hle
  refine ⟨⟨hl, ?_⟩, rfl, rfl, ?_, hbd⟩
  · rcases hf' with rfl | rfl
    · simp [extrudeFace]
    · simp only [extrudeFace, Nat.one_ne_zero, if_false, hsub]
      exact ⟨by omega, Nat.dvd_sub hpd (Nat.dvd_refl _)⟩
  · rcases hf' with rfl | rfl
    · simp [Face, extrudeFace, hroot]
    · simp only [Face, extrudeFace, Nat.one_ne_zero, if_false, hsub, hroot, hrl, Set.ofPred_eq_eq_singleton,
        Set.singleton_subset_iff, Set.mem_singleton_iff, Nat.one_mul, Nat.zero_add, Nat.sub_zero]
      omega

example : extrudeFace ⟨2⟩ 1 = (child (child root 1) 1, 1) ∧ boundaryFace (child (child root 1) 1) 1 = some ⟨2⟩ := by
  decide +kernel

/-! ### C12 -/

/-- C12. The transformation with orientation `o` is its own inverse, gives valid elements of the same level, maps
parents to parents, and for `o = 1` mirrors the line. -/
theorem C12_line (e : Line) (he : Valid e) (o : Nat) :
    Valid (transformFace e o) ∧ (transformFace e o).level = e.level ∧ transformFace (transformFace e o) o = e ∧
    (0 < e.level → transformFace (parent e) o = parent (transformFace e o)) ∧
    (∀ p, p ≤ 2 ^ maxLevel → (p ∈ Points e ↔ (if o = 0 then p else 2 ^ maxLevel - p) ∈ Points (transformFace e o))) := by
  have hM : 2 ^ maxLevel < 2 ^ 31 := by decide
  by_cases ho : o = 0
  · subst ho
    have : ∀ e : Line, transformFace e 0 = e := fun e => by simp [transformFace]
    simp only [this, if_true, he, implies_true, and_self]
  · have hx : ∀ e : Line, Valid e → (rootLen - e.x - len e.level).toNat =
        2 ^ maxLevel - e.x.toNat - 2 ^ (maxLevel - e.level) := by
      intro e he
      have := side_le he
      have h : (rootLen - e.x).toNat = 2 ^ maxLevel - e.x.toNat := by
        rw [BitVec.toNat_sub_of_le (BitVec.le_def.2 (by rw [rootLen_toNat]; exact he.2.1.le)), rootLen_toNat]
      rw [BitVec.toNat_sub_of_le (BitVec.le_def.2 (by rw [len_toNat, h]; exact Nat.le_sub_of_add_le' this)), h,
        len_toNat]
    have ht : ∀ e : Line, transformFace e o = ⟨rootLen - e.x - len e.level, e.level⟩ := fun e => by
      simp [transformFace, ho]
    have hv : ∀ e : Line, Valid e → Valid (transformFace e o) := by
      intro e he
      have hs := side_le he
      have hp := Nat.two_pow_pos (maxLevel - e.level)
      rw [ht]
      refine ⟨he.1, ?_, ?_⟩
      · show (rootLen - e.x - len e.level).toNat < _
        rw [hx e he]; omega
      · show _ ∣ (rootLen - e.x - len e.level).toNat
        rw [hx e he]
        exact Nat.dvd_sub (Nat.dvd_sub (pow_dvd (by omega)) he.2.2) (Nat.dvd_refl _)
    have hxt : ∀ e : Line, Valid e → (transformFace e o).x.toNat =
        2 ^ maxLevel - e.x.toNat - 2 ^ (maxLevel - e.level) := by
      intro e he; rw [ht]; exact hx e he
    have hlt : ∀ e : Line, (transformFace e o).level = e.level := by intro e; rw [ht]
    have hs := side_le he
    refine ⟨hv e he, hlt e, ?_, ?_, ?_⟩
    · have h1 := hxt _ (hv e he)
      rw [hxt e he, hlt] at h1
      have hx' : (transformFace (transformFace e o) o).x = e.x := by
        apply BitVec.eq_of_toNat_eq
        rw [h1]; omega
      have hl' : (transformFace (transformFace e o) o).level = e.level := by rw [hlt, hlt]
      generalize transformFace (transformFace e o) o = y at hx' hl'
      cases y; cases e; simp_all
    · intro hl
      have pv := valid_parent he hl
      have pl : (parent e).level < maxLevel := by have := he.1; simp only [parent]; omega
      have ppl : (parent e).level + 1 = e.level := by simp only [parent]; omega
      have i0 : (childId e).toNat < 2 := tree.childId_lt e he hl
      have c0 : child (parent e) (childId e).toNat = e := tree.child_parent e he hl
      have x0 := child_x pv pl i0
      rw [c0, ppl] at x0
      have hpow : 2 ^ (maxLevel - (parent e).level) = 2 * 2 ^ (maxLevel - e.level) := by
        rw [Nat.mul_comm, ← Nat.pow_succ]; congr 1; omega
      have hsp := side_le pv
      -- the transformed parent has the transformed element as a child
      have hq := tree.parent_child (transformFace (parent e) o) (1 - (childId e).toNat) (hv _ pv)
        (by show (transformFace (parent e) o).level < _; rw [hlt]; exact pl) (by show _ < 2; omega)
      rw [← hq]
      show parent (child (transformFace (parent e) o) (1 - (childId e).toNat)) = parent (transformFace e o)
      congr 1
      have y0 := child_x (hv _ pv) (by rw [hlt]; exact pl) (i := 1 - (childId e).toNat) (by omega)
      rw [hlt, hxt _ pv, ppl, hpow] at y0
      have hxx : (child (transformFace (parent e) o) (1 - (childId e).toNat)).x = (transformFace e o).x := by
        apply BitVec.eq_of_toNat_eq
        rw [y0, hxt e he]
        have : (childId e).toNat = 0 ∨ (childId e).toNat = 1 := by omega
        rcases this with a | a <;> rw [a] at x0 ⊢ <;> omega
      have hll : (child (transformFace (parent e) o) (1 - (childId e).toNat)).level = (transformFace e o).level := by
        rw [hlt]
        show (transformFace (parent e) o).level + 1 = _
        rw [hlt]; exact ppl
      generalize child (transformFace (parent e) o) (1 - (childId e).toNat) = y at hxx hll
      generalize transformFace e o = z at hxx hll
      cases y; cases z; simp_all
    · intro p hp
      simp only [Points, Set.mem_ofPred_eq, hxt e he, hlt, ho, if_false]
      omega

example : transformFace sample 1 = child (child (child root 0) 1) 0 := by decide +kernel

/-! ### C13 -/

/-- C13. The child at a face is the one that has a face inside of the face of the element. -/
theorem C13_line_children (e : Line) (he : Valid e) (hl : e.level < maxLevel) (f : Nat) (hf : f < numFaces) :
    (childrenAtFaceIds f).Pairwise (· < ·) ∧ (childrenAtFaceIds f).length = numFaceChildren ∧
    (∀ i, i ∈ childrenAtFaceIds f ↔ i < numChildren ∧ ∃ g, g < numFaces ∧ Face (child e i) g ⊆ Face e f) ∧
    childrenAtFace e f = (childrenAtFaceIds f).map (child e) ∧
    (∀ i ∈ childrenAtFaceIds f, ∀ g, g < numFaces → (Face (child e i) g ⊆ Face e f ↔ g = faceChildFace f 0)) := by
  have hpow : 2 ^ (maxLevel - e.level) = 2 * 2 ^ (maxLevel - (e.level + 1)) := by
    rw [Nat.mul_comm, ← Nat.pow_succ]; congr 1; omega
  have hp := Nat.two_pow_pos (maxLevel - (e.level + 1))
  have hf' : f = 0 ∨ f = 1 := by simp only [numFaces] at hf; omega
  have key : ∀ i, i < 2 → ∀ g, g < 2 → (Face (child e i) g ⊆ Face e f ↔ i = f ∧ g = f) := by
    intro i hi g hg
    have hcl : (child e i).level = e.level + 1 := rfl
    simp only [Face, Set.ofPred_eq_eq_singleton, Set.singleton_subset_iff, Set.mem_singleton_iff, hcl,
      child_x he hl hi, hpow]
    have hi' : i = 0 ∨ i = 1 := by omega
    have hg' : g = 0 ∨ g = 1 := by omega
    rcases hf' with rfl | rfl <;> rcases hi' with rfl | rfl <;> rcases hg' with rfl | rfl <;> simp <;> omega
  refine ⟨by simp [childrenAtFaceIds], rfl, fun i => ?_, rfl, ?_⟩
  · simp only [childrenAtFaceIds, List.mem_singleton, numChildren, numFaces]
    constructor
    · rintro rfl
      exact ⟨by omega, i, by omega, (key i (by omega) i (by omega)).2 ⟨rfl, rfl⟩⟩
    · rintro ⟨h1, g, h2, h3⟩
      exact ((key i h1 g h2).1 h3).1
  · intro i hi g hg
    simp only [childrenAtFaceIds, List.mem_singleton] at hi
    subst hi
    simp only [numFaces] at hg
    rw [key i (by omega) g hg, faceChildFace]
    simp

/-- C13. `element_face_get_parent_face` returns the number of the face of the parent that contains the face, no
number if there is none, and for the root the face itself. -/
theorem C13_line_parent_face (e : Line) (he : Valid e) (f : Nat) (hf : f < numFaces) (g : Nat) :
    (0 < e.level → (faceParentFace e f = some g ↔ g < numFaces ∧ Face e f ⊆ Face (parent e) g)) ∧
    (e.level = 0 → faceParentFace e f = some f) := by
  refine ⟨fun hl => ?_, fun hl => by simp [faceParentFace, hl]⟩
  have hf' : f = 0 ∨ f = 1 := by simp only [numFaces] at hf; omega
  have pv := valid_parent he hl
  have pl : (parent e).level < maxLevel := by have := he.1; simp only [parent]; omega
  have ppl : (parent e).level + 1 = e.level := by simp only [parent]; omega
  have i0 : (childId e).toNat < 2 := tree.childId_lt e he hl
  have c0 : child (parent e) (childId e).toNat = e := tree.child_parent e he hl
  have x0 := child_x pv pl i0
  rw [c0, ppl] at x0
  have hpow : 2 ^ (maxLevel - (parent e).level) = 2 * 2 ^ (maxLevel - e.level) := by
    rw [Nat.mul_comm, ← Nat.pow_succ]; congr 1; omega
  have hp := Nat.two_pow_pos (maxLevel - e.level)
  have hc := childId_nat he
  have hin : Face e f ⊆ Face (parent e) g ↔
      e.x.toNat + f * 2 ^ (maxLevel - e.level) = (parent e).x.toNat + g * (2 * 2 ^ (maxLevel - e.level)) := by
    simp only [Face, Set.ofPred_eq_eq_singleton, Set.singleton_subset_iff, Set.mem_singleton_iff, hpow]
  rw [hin, x0]
  generalize hk : (childId e).toNat = k at *
  have hk' : k = 0 ∨ k = 1 := by omega
  rw [faceParentFace, if_neg (by omega), ← hc]
  simp only [numFaces]
  rcases hf' with rfl | rfl <;> rcases hk' with rfl | rfl
  · simp only [Nat.cast_zero, if_true, Option.some.injEq]
    constructor
    · rintro rfl; omega
    · rintro ⟨h1, h2⟩
      have : g = 0 ∨ g = 1 := by omega
      rcases this with rfl | rfl <;> omega
  · simp only [Nat.cast_one, Nat.cast_zero]
    constructor
    · intro h; simp at h
    · rintro ⟨h1, h2⟩
      have : g = 0 ∨ g = 1 := by omega
      rcases this with rfl | rfl <;> omega
  · simp only [Nat.cast_one, Nat.cast_zero]
    constructor
    · intro h; simp at h
    · rintro ⟨h1, h2⟩
      have : g = 0 ∨ g = 1 := by omega
      rcases this with rfl | rfl <;> omega
  · simp only [Nat.cast_one, if_true, Option.some.injEq]
    constructor
    · rintro rfl; omega
    · rintro ⟨h1, h2⟩
      have : g = 0 ∨ g = 1 := by omega
      rcases this with rfl | rfl <;> omega

example : faceParentFace sample 1 = some 1 ∧ faceParentFace sample 0 = none ∧ faceParentFace root 1 = some 1 ∧
    sample.level < maxLevel := by decide +kernel

/-! ### C14 -/

/-- C14. First and last descendant at a face: the descendant of the level whose face is in the face. Each face has
exactly one. -/
theorem C14_line (e : Line) (he : Valid e) (f : Nat) (hf : f < numFaces) (L : Nat) (hL : e.level ≤ L)
    (hLM : L ≤ maxLevel) :
    firstDescendantFace e f L = lastDescendantFace e f L ∧
    tree.Desc e (firstDescendantFace e f L) ∧ (firstDescendantFace e f L).level = L ∧
    Face (firstDescendantFace e f L) f ⊆ Face e f ∧
    ∀ y g, tree.Desc e y → y.level = L → g < numFaces → Face y g ⊆ Face e f →
      y = firstDescendantFace e f L ∧ g = f := by
  have hf' : f = 0 ∨ f = 1 := by simp only [numFaces] at hf; omega
  have hds := descendant_spec e L he hL hLM
  have hsub : e.level + (L - e.level) = L := by omega
  have hmem : ∀ y : Line, y ∈ tree.uniform e (L - e.level) ↔ tree.Desc e y ∧ y.level = L := by
    intro y
    rw [mem_uniform (T := tree) he (by show e.level + _ ≤ maxLevel; omega)]
    show _ ∧ y.level = e.level + (L - e.level) ↔ _
    rw [hsub]
  have hF := (hmem _).1 (List.mem_of_mem_head? hds.1)
  have hLa := (hmem _).1 (List.mem_of_getLast? hds.2)
  have hpl : 2 ^ (maxLevel - L) ≤ 2 ^ (maxLevel - e.level) := Nat.pow_le_pow_right (by omega) (by omega)
  have hp := Nat.two_pow_pos (maxLevel - L)
  have hlx := lastDescendant_x he hL
  have hbnd : ∀ y : Line, tree.Desc e y → y.level = L →
      e.x.toNat ≤ y.x.toNat ∧ y.x.toNat + 2 ^ (maxLevel - L) ≤ e.x.toNat + 2 ^ (maxLevel - e.level) := by
    intro y hd hyL
    have hy : Valid y := hd.valid he
    obtain ⟨_, h2⟩ := (regular.desc_iff he hy).1 hd
    rw [pos_eq e he, pos_eq y hy, Nat.div_div_eq_div_mul, ← Nat.pow_add,
      show maxLevel - y.level + (tree.level y - tree.level e) = maxLevel - e.level by
        show maxLevel - y.level + (y.level - e.level) = _
        omega] at h2
    have h3 := Nat.div_mul_cancel he.2.2
    have hpp := Nat.two_pow_pos (maxLevel - e.level)
    rw [h2] at h3
    have h5 := Nat.div_add_mod y.x.toNat (2 ^ (maxLevel - e.level))
    have h6 := Nat.mod_lt y.x.toNat hpp
    rw [Nat.mul_comm] at h5
    have hdy : 2 ^ (maxLevel - L) ∣ y.x.toNat := by rw [← hyL]; exact hy.2.2
    have hde : 2 ^ (maxLevel - L) ∣ e.x.toNat + 2 ^ (maxLevel - e.level) :=
      Nat.dvd_add (dvd_trans (pow_dvd (by omega)) he.2.2) (pow_dvd (by omega))
    exact ⟨by omega, add_le_of_dvd hdy hde (by omega)⟩
  have hfin : ∀ y : Line, tree.Desc e y → y.level = L → ∀ g, g < numFaces → Face y g ⊆ Face e f →
      y.x.toNat = (firstDescendantFace e f L).x.toNat ∧ g = f := by
    intro y hd hyL g hg h
    have hb := hbnd y hd hyL
    have hg' : g = 0 ∨ g = 1 := by simp only [numFaces] at hg; omega
    have h' : y.x.toNat + g * 2 ^ (maxLevel - L) = e.x.toNat + f * 2 ^ (maxLevel - e.level) := by
      simpa [Face, hyL] using h
    rcases hf' with rfl | rfl
    · simp only [firstDescendantFace, if_true, firstDescendant]
      rcases hg' with rfl | rfl <;> omega
    · simp only [firstDescendantFace, Nat.one_ne_zero, if_false, hlx]
      rcases hg' with rfl | rfl <;> omega
  have hfirst : tree.Desc e (firstDescendantFace e f L) ∧ (firstDescendantFace e f L).level = L := by
    rcases hf' with rfl | rfl
    · exact hF
    · exact hLa
  refine ⟨rfl, hfirst.1, hfirst.2, ?_, ?_⟩
  · have : (firstDescendantFace e f L).x.toNat + f * 2 ^ (maxLevel - L) = e.x.toNat + f * 2 ^ (maxLevel - e.level) := by
      rcases hf' with rfl | rfl
      · simp [firstDescendantFace, firstDescendant]
      · simp only [firstDescendantFace, Nat.one_ne_zero, if_false, hlx]; omega
    simpa [Face, hfirst.2] using this
  · intro y g hd hyL hg h
    obtain ⟨h1, h2⟩ := hfin y hd hyL g hg h
    refine ⟨?_, h2⟩
    have h3 := BitVec.eq_of_toNat_eq h1
    have h4 : y.level = (firstDescendantFace e f L).level := hyL.trans hfirst.2.symm
    generalize firstDescendantFace e f L = z at h3 h4
    cases y; cases z; simp_all

example : Valid sample ∧ firstDescendantFace sample 1 5 = child (child sample 1) 1 := ⟨sample_valid, by decide +kernel⟩

/-! ### C15 -/

/-- C15. Unpacking a buffer that begins with packed elements gives back the elements, in order, and leaves exactly
the rest of the buffer. -/
theorem C15_line (es : List Line) (rest : List Standalone.Word) :
    unpack es.length (pack es ++ rest) = some (es, rest) := by
  induction es with
  | nil => rfl
  | cons e es ih =>
    have h1 : pack (e :: es) ++ rest = Standalone.Word.int e.x :: Standalone.Word.int8 e.level :: (pack es ++ rest) := by
      simp [pack]
    rw [List.length_cons, h1, unpack]
    simp only [Standalone.unpackInt, Standalone.unpackInt8, Option.bind_eq_bind, Option.bind_some, ih]

/-- C15. The size of the buffer that `element_MPI_Pack_size` provides for is exactly what is written. -/
theorem C15_line_size (es : List Line) :
    ((pack es).countP (fun w => w matches .int _), (pack es).countP (fun w => w matches .int8 _)) =
      packSize es.length := by
  induction es with
  | nil => simp [pack, packSize]
  | cons e es ih =>
    have h : pack (e :: es) = [Standalone.Word.int e.x, Standalone.Word.int8 e.level] ++ pack es := by simp [pack]
    simp only [packSize, Prod.mk.injEq] at ih ⊢
    rw [h, List.countP_append, List.countP_append, ih.1, ih.2, List.length_cons]
    simp [List.countP_cons]
    omega

example : pack [sample, root] ≠ [] := by decide

/-! ### The scheme as the forest algorithms use it -/

theorem isEqual_iff (e f : Line) : isEqual e f = true ↔ e = f := by
  cases e; cases f
  simp [isEqual, and_comm]

/-- The functions of the default scheme for lines. -/
def scheme : Scheme tree where
  isEqual := isEqual
  numSiblings := fun _ => Default.numSiblings 1
  childId := childId
  isRefinable := isRefinable
  linearId := fun e L => (linearId e L).toNat
  setLinearId := fun L id => initLinearId L (BitVec.ofNat 64 id)
  successor := fun e => successor e e.level
  firstDescendant := firstDescendant
  lastDescendant := lastDescendant
  compare := compare
  isAncestor := isAncestor
  ancestorId := ancestorId
  nca := nca
  areFamily := isFamily
  countLeavesFromRoot := fun L => (Default.countLeavesFromRoot 1 L).toInt

/-- The default scheme for lines is lawful, so every theorem about forests over lawful schemes applies to it. -/
theorem scheme_lawful : scheme.Lawful where
  isEqual := fun x y _ _ => isEqual_iff x y
  numSiblings_pos := fun _ _ => by show 0 < 2; omega
  numSiblings := fun _ _ _ => rfl
  childId := fun _ he _ => (childId_nat he).symm
  childId_root := by show childId root ≤ 0; decide
  root_no_family := Or.inr (Or.inl (by show 2 ≠ 1; omega))
  isRefinable := fun e _ => by show isRefinable e = true ↔ e.level < maxLevel; simp [isRefinable]
  linearId := linearId_spec
  setLinearId := setLinearId_spec
  successor := successor_spec
  descendants := descendant_spec
  compare := compare_spec
  isAncestor := isAncestor_spec
  ancestorId := fun _ _ he h0 hl => ancestorId_eq he h0 hl
  nca := nca_spec
  areFamily := fun fam _ _ hlen hv _ => by
    obtain ⟨b, h1, h2⟩ := C06_line fam hlen hv
    exact ⟨b, h1, fun _ => h2⟩
  countLeavesFromRoot := fun L hL _ => C09_line_root L hL

theorem scheme_exact : scheme.ExactFamilies := fun fam _ _ hlen hv _ => C06_line fam hlen hv

/-- The face functions of the default scheme for lines. -/
def faceScheme : FaceScheme tree where
  numFaces _ := numFaces
  numFaceChildren _ _ := numFaceChildren
  childrenAtFace e f := childrenAtFace e f
  childIdsAtFace _ f := childrenAtFaceIds f
  childFace _ f k := faceChildFace f k
  firstDescendantFace e f L := firstDescendantFace e f L
  lastDescendantFace e f L := lastDescendantFace e f L

/-- Face `g` of `x` lies in face `f` of `e`. -/
def InFace (x : Line) (g : Nat) (e : Line) (f : Nat) : Prop := g < numFaces ∧ f < numFaces ∧ Face x g ⊆ Face e f

theorem inFace_eq {e y : Line} (he : Valid e) (hd : tree.Desc e y) {g f : Nat} (h : InFace y g e f) :
    y = firstDescendantFace e f y.level ∧ g = f := by
  have hl : e.level ≤ y.level := hd.level_le he
  exact (C14_line e he f h.2.1 y.level hl (hd.valid he).1).2.2.2.2 y g hd rfl h.1 h.2.2

theorem faceScheme_lawful : faceScheme.Lawful InFace where
  bounds _ _ _ _ h := ⟨h.1, h.2.1⟩
  refl _ _ _ hf := ⟨hf, hf, fun _ h => h⟩
  trans _ _ _ _ _ _ h1 h2 := ⟨h1.1, h2.2.1, fun _ h => h2.2.2 (h1.2.2 h)⟩
  unique x g g' e f he hd h1 h2 := by rw [(inFace_eq he hd h1).2, (inFace_eq he hd h2).2]
  between x g y e f he hdy hdx h := by
    obtain ⟨hx, rfl⟩ := inFace_eq he (hdy.trans hdx) h
    have hy : Valid y := hdy.valid he
    have hxv : Valid x := hdx.valid hy
    have hly : e.level ≤ y.level := hdy.level_le he
    have hlx : y.level ≤ x.level := hdx.level_le hy
    -- the descendant of `y` at the face has the same end point
    obtain ⟨_, a1, a2, a3, _⟩ := C14_line e he g h.1 y.level hly hy.1
    obtain ⟨_, b1, b2, b3, _⟩ := C14_line _ (a1.valid he) g h.1 x.level (by rw [a2]; exact hlx) hxv.1
    have hxe := (C14_line e he g h.1 x.level (le_trans hly hlx) hxv.1).2.2.2.2 _ g (a1.trans b1) b2 h.1
      (fun p hp => a3 (b3 hp))
    have heq : firstDescendantFace (firstDescendantFace e g y.level) g x.level = x := hxe.1.trans hx.symm
    rw [heq] at b1 b3
    have hyy : firstDescendantFace e g y.level = y := by
      have c1 := Desc.anc_eq (T := tree) (a1.valid he) b1
      have c2 := Desc.anc_eq (T := tree) hy hdx
      have : tree.level (firstDescendantFace e g y.level) = tree.level y := a2
      rw [this] at c1
      exact c1.symm.trans c2
    rw [hyy] at a3 b3
    exact ⟨g, ⟨h.1, h.1, a3⟩, ⟨h.1, h.1, b3⟩⟩
  childIds_sorted e f he hl hf := (C13_line_children e he hl f hf).1
  childIds_length e f he hl hf := (C13_line_children e he hl f hf).2.1
  childIds_mem e f he hl hf i := by
    have := (C13_line_children e he hl f hf).2.2.1 i
    refine this.trans (and_congr_right fun _ => exists_congr fun g => ?_)
    constructor
    · rintro ⟨h1, h2⟩; exact ⟨h1, hf, h2⟩
    · rintro ⟨h1, _, h2⟩; exact ⟨h1, h2⟩
  children e f he hl hf := (C13_line_children e he hl f hf).2.2.2.1
  childFace e f k i he hl hf hk := by
    have := (C13_line_children e he hl f hf).2.2.2.2 i (List.mem_of_getElem? hk) f hf
    exact ⟨hf, hf, this.2 rfl⟩
  firstDescendantFace e f L he hf hL hLM := by
    obtain ⟨_, h2, h3, h4, h5⟩ := C14_line e he f hf L hL hLM
    exact ⟨h2, h3, ⟨f, hf, hf, h4⟩, fun x g hd hxL hin => Or.inl (h5 x g hd hxL hin.1 hin.2.2).1⟩
  lastDescendantFace e f L he hf hL hLM := by
    obtain ⟨_, h2, h3, h4, h5⟩ := C14_line e he f hf L hL hLM
    exact ⟨h2, h3, ⟨f, hf, hf, h4⟩, fun x g hd hxL hin => Or.inl (h5 x g hd hxL hin.1 hin.2.2).1⟩

end T8.Dline
