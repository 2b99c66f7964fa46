/-
Lemmas about the default pyramids: ancestors and linear ids.
-/
import Verif.Lemmas.Pyramid

namespace T8.Pyramid
open T8.RTree T8.Bits
open T8.Simplex (look Cls)

/-! ### Ancestors -/

theorem anc_level {e : Elem} (he : Valid e) {l : Nat} (hl : l ≤ e.level) : (tree.anc e l).level = l :=
  level_anc (T := tree) he hl

theorem valid_anc' {e : Elem} (he : Valid e) (l : Nat) : Valid (tree.anc e l) := valid_anc (T := tree) he l

theorem anc_self (e : Elem) : tree.anc e e.level = e := anc_of_level_le (T := tree) (le_refl _)

theorem anc_cube {e : Elem} (he : Valid e) {l : Nat} (hl : l ≤ e.level) :
    (tree.anc e l).cube = Standalone.ancestor 21 e.cube l := by
  induction hk : e.level - l generalizing l with
  | zero =>
    have : l = e.level := by omega
    subst this
    rw [anc_self, Standalone.ancestor, if_pos (show e.cube.level = e.level from rfl)]
  | succ k ih =>
    have h1 := ih (l := l + 1) (by omega) (by omega)
    have h2 : parent (tree.anc e (l + 1)) = tree.anc e l := parent_anc (T := tree) (e := e) (by show l < e.level; omega)
    rw [← h2, parent_cube, h1, Standalone.parent_ancestor h32 he.good.cube (by show l < e.level; omega)]

theorem anc_bit {e : Elem} (he : Valid e) {l : Nat} (hl : l ≤ e.level) (i : Fin 3) (k : Nat) :
    ((tree.anc e l).tet.x i).getLsbD k = ((e.tet.x i).getLsbD k && decide (21 - l ≤ k)) := by
  have h1 := congrArg (fun z : Standalone.Elem 3 => (z.coords i).getLsbD k) (anc_cube he hl)
  simp only [Standalone.ancestor_bit he.good.cube (show l ≤ e.cube.level from hl) h32] at h1
  exact h1

theorem cid_ext {a b : Nat} (ha : a < 8) (hb : b < 8) (h : ∀ i : Fin 3, a.testBit i = b.testBit i) : a = b :=
  Simplex.cid_ext (c := .tet) ha hb h

/-- The cube ids of ancestors can be read off the element. -/
theorem cubeid_anc {e : Elem} (he : Valid e) {l k : Nat} (hl : l ≤ e.level) (hk : k ≤ l) :
    computeCubeid (tree.anc e l) k = computeCubeid e k := by
  rcases Nat.eq_zero_or_pos k with rfl | h0
  · rfl
  · refine cid_ext (cubeid_lt _ _) (cubeid_lt _ _) fun i => ?_
    rw [cubeid_testBit _ (by omega), cubeid_testBit _ (by omega), anc_bit he hl]
    have : 21 - l ≤ 21 - k := by omega
    simp [this]

/-- How shape, type and switch level change from an element to its parent. -/
theorem parent_shape {e : Elem} (he : Valid e) (h0 : 0 < e.level) :
    (6 ≤ e.type → 6 ≤ (parent e).type ∧ look cidTypeToParenttype (computeCubeid e e.level) e.type = (parent e).type) ∧
    (¬ 6 ≤ e.type → e.switch = e.level → 6 ≤ (parent e).type ∧ (e.type = 0 ∨ e.type = 3)) ∧
    (¬ 6 ≤ e.type → e.switch ≠ e.level → ¬ 6 ≤ (parent e).type ∧ (parent e).switch = e.switch ∧
      look cidTypeToParenttype (computeCubeid e e.level) e.type = (parent e).type) := by
  obtain ⟨p, i, h1, h2, h3, rfl⟩ := valid_cases he h0
  have hg := h1.good
  have hcid := cubeid_child hg h2 h3
  obtain ⟨_, hty, _⟩ := child_cube hg h2 h3
  rw [parent_child hg h2 h3, child_level, hcid, hty]
  rw [numChildren_eq] at h3
  by_cases h : 6 ≤ p.type
  · rw [if_pos h] at h3
    have ht := child_table p.type (hg.pyra h).1 i h3
    have hs := (child_pyra h i).2.2
    refine ⟨fun h6 => ⟨h, (ht.2.2.2.1 h6).2⟩, fun h6 _ => ⟨h, (ht.2.2.2.2 h6).1⟩, fun h6 hne => ?_⟩
    rw [if_neg h6] at hs
    exact absurd hs hne
  · rw [if_neg h] at h3
    have ha := hg.aligned h
    have hb := hg.tet h
    have hc := Simplex.child_table .tet p.tet.type ha.2 i h3
    have htt := (tet_tables p.type hb.1).2 i h3
    have hlt : look parenttypeIlocToType p.type i < 6 := by
      rw [htt.2, hc.2.2.2.2.2.2.1]; exact hc.2.2.2.1
    rw [child_tet h]
    refine ⟨fun h6 => absurd h6 (by omega), fun _ h' => ?_, fun _ _ => ⟨h, rfl, ?_⟩⟩
    · have : p.switch = ((p.level + 1 : Nat) : Int) := h'
      omega
    · rw [(tet_tables _ hlt).1 _ (by rw [htt.1]; exact hc.2.2.1), htt.1, htt.2, hc.2.2.2.2.2.2.1]
      exact hc.2.2.2.2.1

/-- The shapes of the ancestors. -/
theorem anc_shape {e : Elem} (he : Valid e) {l : Nat} (hl : l ≤ e.level) :
    (6 ≤ e.type → 6 ≤ (tree.anc e l).type) ∧
    (¬ 6 ≤ e.type → e.switch ≤ (l : Int) → ¬ 6 ≤ (tree.anc e l).type ∧ (tree.anc e l).switch = e.switch) ∧
    (¬ 6 ≤ e.type → ¬ e.switch ≤ (l : Int) → 6 ≤ (tree.anc e l).type) := by
  induction hk : e.level - l generalizing l with
  | zero =>
    have : l = e.level := by omega
    subst this
    rw [anc_self]
    exact ⟨id, fun h _ => ⟨h, rfl⟩, fun h hs => absurd (he.good.tet h).2.2 hs⟩
  | succ k ih =>
    obtain ⟨i1, i2, i3⟩ := ih (l := l + 1) (by omega) (by omega)
    have h2 : parent (tree.anc e (l + 1)) = tree.anc e l := parent_anc (T := tree) (e := e) (by show l < e.level; omega)
    have hlv := anc_level he (l := l + 1) (by omega)
    obtain ⟨p1, p2, p3⟩ := parent_shape (valid_anc' he (l + 1)) (by omega)
    rw [h2] at p1 p2 p3
    rw [hlv] at p2 p3
    refine ⟨fun h => (p1 (i1 h)).1, fun h hs => ?_, fun h hs => ?_⟩
    · obtain ⟨j1, j2⟩ := i2 h (by omega)
      obtain ⟨q1, q2, _⟩ := p3 j1 (by omega)
      exact ⟨q1, q2.trans j2⟩
    · by_cases hs' : e.switch ≤ ((l + 1 : Nat) : Int)
      · obtain ⟨j1, j2⟩ := i2 h hs'
        exact (p2 j1 (by omega)).1
      · exact (p1 (i3 h hs')).1

/-- One step of the computation of types. -/
theorem anc_type_step {e : Elem} (he : Valid e) {l : Nat} (hl : l < e.level)
    (hs : 6 ≤ (tree.anc e (l + 1)).type ∨ e.switch ≤ (l : Int)) :
    look cidTypeToParenttype (computeCubeid e (l + 1)) (tree.anc e (l + 1)).type = (tree.anc e l).type := by
  have h2 : parent (tree.anc e (l + 1)) = tree.anc e l := parent_anc (T := tree) (e := e) hl
  have hlv := anc_level he (l := l + 1) (by omega)
  obtain ⟨p1, p2, p3⟩ := parent_shape (valid_anc' he (l + 1)) (by omega)
  rw [h2, hlv, cubeid_anc he (by omega) (le_refl _)] at p1 p3
  by_cases h6 : 6 ≤ (tree.anc e (l + 1)).type
  · exact (p1 h6).2
  · have hs' := hs.resolve_left h6
    have hnp : ¬ 6 ≤ e.type := fun h => h6 ((anc_shape he (by omega)).1 h)
    obtain ⟨j1, j2⟩ := (anc_shape he (l := l + 1) (by omega)).2.1 hnp (by omega)
    exact (p3 h6 (by omega)).2.2

theorem typeLoop_eq {e : Elem} (he : Valid e) {l i : Nat} (hli : l ≤ i) (hi : i ≤ e.level)
    (hs : 6 ≤ (tree.anc e i).type ∨ e.switch ≤ (l : Int)) :
    typeLoop e l i (tree.anc e i).type = (tree.anc e l).type := by
  induction i with
  | zero => rw [show l = 0 by omega]; rfl
  | succ i ih =>
    rw [typeLoop]
    split
    · rw [anc_type_step he (by omega) (hs.imp_right (by omega))]
      refine ih (by omega) (by omega) (hs.imp_left fun h => ?_)
      have h3 := (anc_shape (valid_anc' he (i + 1)) (l := i) (by rw [anc_level he hi]; omega)).1 h
      rw [anc_anc (T := tree) he (by omega) hi] at h3
      exact h3
    · rw [show l = i + 1 by omega]

theorem anc_zero' {e : Elem} (he : Valid e) : tree.anc e 0 = root := anc_zero (T := tree) he

theorem typeSameShapeExt_eq {e : Elem} (he : Valid e) {l k : Nat} (hlk : l ≤ k) (hk : k ≤ e.level)
    (hs : 6 ≤ (tree.anc e k).type ∨ e.switch ≤ (l : Int)) :
    typeSameShapeExt e l (tree.anc e k).type k = (tree.anc e l).type := by
  rw [typeSameShapeExt]
  split
  · rename_i h; rw [h]
  · split
    · rename_i h; rw [h, anc_zero' he]; rfl
    · exact typeLoop_eq he hlk hk hs

theorem typeSameShape_eq {e : Elem} (he : Valid e) {l : Nat} (hl : l ≤ e.level)
    (hs : 6 ≤ e.type ∨ e.switch ≤ (l : Int)) : typeSameShape e l = (tree.anc e l).type := by
  have := typeSameShapeExt_eq he hl (le_refl _) (by rw [anc_self]; exact hs)
  rw [anc_self] at this
  exact this

/-- Cutting the coordinates gives the cube of the ancestor. -/
theorem cut_bit (p : Elem) (n : Nat) (i : Fin 3) {k : Nat} (hk : k < 32) :
    ((cutCoordinates p n).tet.x i).getLsbD k = ((p.tet.x i).getLsbD k && decide (n ≤ k)) := by
  show ((p.tet.x i).sshiftRight n <<< n).getLsbD k = _
  rw [BitVec.getLsbD_shiftLeft, BitVec.getLsbD_sshiftRight]
  by_cases h : n ≤ k
  · have h1 : n + (k - n) = k := by omega
    have h2 : k - n < 32 := by omega
    have h3 : ¬ k < n := by omega
    simp [h, hk, h1, h2, h3]
  · have h3 : k < n := by omega
    simp [h, h3]

theorem cut_anc {e : Elem} (he : Valid e) {l : Nat} (hl : l ≤ e.level) :
    (cutCoordinates e (21 - l)).tet.x = (tree.anc e l).tet.x := by
  funext i
  apply BitVec.eq_of_getLsbD_eq
  intro k hk
  rw [cut_bit _ _ _ hk, anc_bit he hl]

/-- The switch level of an ancestor. -/
theorem anc_switch {e : Elem} (he : Valid e) {l : Nat} (hl : l ≤ e.level) :
    (tree.anc e l).switch = if 6 ≤ (tree.anc e l).type then -1 else e.switch := by
  split
  · rename_i h
    exact ((valid_anc' he l).good.pyra h).2
  · rename_i h
    obtain ⟨h1, h2, h3⟩ := anc_shape he hl
    have hn : ¬ 6 ≤ e.type := fun h' => h (h1 h')
    by_cases hs : e.switch ≤ (l : Int)
    · exact (h2 hn hs).2
    · exact absurd (h3 hn hs) h

theorem anc_pred {e : Elem} (_ : Valid e) {l : Nat} (hl : l + 1 = e.level) : parent e = tree.anc e l := by
  have := parent_anc (T := tree) (e := e) (l := l) (by show l < e.level; omega)
  rw [hl, anc_self] at this
  exact this

theorem ancestorWith_eq {typeAt : Elem → Nat → Nat} {e : Elem} (he : Valid e) {l : Nat} (hl : l ≤ e.level)
    (ht : typeAt e l = (tree.anc e l).type) : ancestorWith typeAt e l = tree.anc e l := by
  rw [ancestorWith]
  split
  · rename_i h
    rw [← h, anc_self]
  · split
    · rename_i h
      exact anc_pred he h
    · rw [ht]
      refine Elem.ext' (Standalone.Elem.ext' (fun i => ?_) ?_) rfl (anc_switch he hl).symm
      · exact congrFun (cut_anc he hl) i
      · exact (anc_level he hl).symm

theorem typeAtLevel_eq {e : Elem} (he : Valid e) {l : Nat} (hl : l ≤ e.level) : typeAtLevel e l = (tree.anc e l).type := by
  rw [typeAtLevel]
  split
  · rename_i h
    rw [show l = e.level by omega, anc_self]
  · rename_i h
    simp only [isPyra_iff]
    split
    · rename_i h1
      exact typeSameShape_eq he hl h1
    · rename_i h1
      rw [not_or] at h1
      obtain ⟨s1, s2⟩ := (he.good.tet h1.1).2
      have hsl : e.switch.toNat ≤ e.level := by omega
      have hsc : ((e.switch.toNat : Nat) : Int) = e.switch := by omega
      have ha : ancestorWith (fun p l => if p.level ≤ l then p.type else typeSameShape p l) e e.switch.toNat =
          tree.anc e e.switch.toNat := by
        apply ancestorWith_eq he hsl
        split
        · rename_i h2
          rw [show e.switch.toNat = e.level by omega, anc_self]
        · exact typeSameShape_eq he hsl (Or.inr (by omega))
      obtain ⟨m, hm⟩ : ∃ m, e.switch.toNat = m + 1 := ⟨e.switch.toNat - 1, by omega⟩
      have hpar : parent (tree.anc e e.switch.toNat) = tree.anc e m := by
        rw [hm]; exact parent_anc (T := tree) (e := e) (by show m < e.level; omega)
      simp only [ha, hpar]
      rw [anc_level he (by omega)]
      split
      · rename_i h2; rw [h2]
      · have h3 := (anc_shape he (l := m) (by omega)).2.2 h1.1 (by omega)
        have h4 := typeSameShape_eq (valid_anc' he m) (l := l) (by rw [anc_level he (by omega)]; omega) (Or.inl h3)
        rw [h4, anc_anc (T := tree) he (by omega) (by show m ≤ e.level; omega)]

/-- `t8_dpyramid_ancestor` computes the ancestor. -/
theorem ancestor_eq {e : Elem} (he : Valid e) {l : Nat} (hl : l ≤ e.level) : ancestor e l = tree.anc e l :=
  ancestorWith_eq he hl (typeAtLevel_eq he hl)

/-! ### Numbers of descendants -/

/-- The number of descendants of pyramids and tetrahedra that are `n` levels finer. -/
def cnt (t n : Nat) : Nat := if 6 ≤ t then 2 * 8 ^ n - 6 ^ n else 8 ^ n

theorem six_le (n : Nat) : 6 ^ n ≤ 8 ^ n := Nat.pow_le_pow_left (by omega) n

theorem sum_cnt (b i n : Nat) : ((List.range i).map (fun j => cnt (look parenttypeIlocToType b j) n)).sum =
    (List.range i).countP (fun j => decide (6 ≤ look parenttypeIlocToType b j)) * (2 * 8 ^ n - 6 ^ n) +
    (List.range i).countP (fun j => decide (look parenttypeIlocToType b j < 6)) * 8 ^ n := by
  induction i with
  | zero => simp
  | succ i ih =>
    rw [List.range_succ, List.map_append, List.sum_append, ih, List.countP_append, List.countP_append]
    by_cases h : 6 ≤ look parenttypeIlocToType b i
    · simp [cnt, h, Nat.add_mul, Nat.not_lt.2 h]
      omega
    · simp [cnt, h, Nat.add_mul, Nat.lt_of_not_le h]
      omega

theorem count_table : ∀ b < 8, 
    (List.range (if 6 ≤ b then 10 else 8)).countP (fun j => decide (6 ≤ look parenttypeIlocToType b j)) =
      (if 6 ≤ b then 6 else 0) ∧
    (List.range (if 6 ≤ b then 10 else 8)).countP (fun j => decide (look parenttypeIlocToType b j < 6)) =
      (if 6 ≤ b then 4 else 8) := by decide +kernel

theorem type_lt {e : Elem} (he : Good e) : e.type < 8 := by
  rcases he.shape with h | h <;> omega

theorem count_eq {e : Elem} (he : Valid e) {n : Nat} (hn : e.level + n ≤ 21) :
    tree.count e (e.level + n) = cnt e.type n := by
  induction n generalizing e with
  | zero => rw [Nat.add_zero, count_self' (T := tree) rfl, cnt]; split <;> rfl
  | succ n ih =>
    have h1 := count_children (T := tree) he (L := e.level + (n + 1)) (by show e.level < _; omega) hn
    rw [h1]
    have h2 : (List.range (tree.nc e)).map (fun i => tree.count (tree.child e i) (e.level + (n + 1))) =
        (List.range (tree.nc e)).map (fun i => cnt (look parenttypeIlocToType e.type i) n) := by
      refine List.map_congr_left fun i hi => ?_
      have hi' : i < numChildren e := List.mem_range.1 hi
      have h3 := ih (valid_child he (by omega) hi') (by rw [child_level]; omega)
      rw [child_level, (child_cube he.good (by omega) hi').2.1] at h3
      rw [← h3]
      show tree.count (child e i) _ = tree.count (child e i) _
      congr 1
      omega
    rw [h2, sum_cnt, show tree.nc e = if 6 ≤ e.type then 10 else 8 from numChildren_eq e,
      (count_table e.type (type_lt he.good)).1, (count_table e.type (type_lt he.good)).2, cnt]
    have := six_le n
    split
    · rw [Nat.pow_succ, Nat.pow_succ]; omega
    · rw [Nat.pow_succ]; omega

theorem count_eq' {e : Elem} (he : Valid e) {L : Nat} (hl : e.level ≤ L) (hL : L ≤ 21) :
    tree.count e L = cnt e.type (L - e.level) := by
  have := count_eq he (n := L - e.level) (by omega)
  rw [show e.level + (L - e.level) = L by omega] at this
  exact this

theorem count_root_eq {L : Nat} (hL : L ≤ 21) : tree.count root L = 2 * 8 ^ L - 6 ^ L :=
  count_eq' Valid.root (Nat.zero_le _) hL

theorem lid_child_eq {e : Elem} (he : Valid e) {i : Nat} (hi : i < numChildren e) {L : Nat} (hl : e.level < L)
    (hL : L ≤ 21) : lid (T := tree) (child e i) L = lid (T := tree) e L +
      ((List.range i).map (fun j => cnt (look parenttypeIlocToType e.type j) (L - e.level - 1))).sum := by
  have h1 := lid_child (T := tree) he (by show e.level < 21; omega) hi (L := L)
  rw [show tree.child e i = child e i from rfl] at h1
  rw [h1]
  congr 2
  refine List.map_congr_left fun j hj => ?_
  have hj' : j < numChildren e := lt_trans (List.mem_range.1 hj) hi
  have h3 := count_eq' (valid_child he (by omega) hj') (L := L) (by rw [child_level]; omega) hL
  rw [child_level, (child_cube he.good (by omega) hj').2.1, ← Nat.sub_sub] at h3
  exact h3

end T8.Pyramid
