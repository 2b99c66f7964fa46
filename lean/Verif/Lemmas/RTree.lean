/-
Theory of refinement trees: everything here follows from the laws of `RTree`.
-/
import Verif.Spec.RTree
import Mathlib.Tactic.Linarith
import Mathlib.Algebra.BigOperators.Group.List.Basic
import Mathlib.Order.Lattice.Nat

namespace T8.RTree
variable {T : RTree}

/-! ### Ancestors -/

theorem valid_level_iter {e : T.E} (he : T.Valid e) :
    ∀ k, k ≤ T.level e → T.Valid (T.parent^[k] e) ∧ T.level (T.parent^[k] e) = T.level e - k := by
  intro k
  induction k with
  | zero => intro _; exact ⟨he, by simp⟩
  | succ k ih =>
    intro hk
    obtain ⟨h1, h2⟩ := ih (by omega)
    rw [Function.iterate_succ_apply']
    refine ⟨T.valid_parent _ h1 (by omega), ?_⟩
    have := T.level_parent _ h1 (by omega)
    omega

theorem valid_anc {e : T.E} (he : T.Valid e) (l : Nat) : T.Valid (T.anc e l) :=
  (valid_level_iter he _ (by omega)).1

theorem level_anc {e : T.E} (he : T.Valid e) {l : Nat} (hl : l ≤ T.level e) : T.level (T.anc e l) = l := by
  have := (valid_level_iter he (T.level e - l) (by omega)).2
  rw [anc, this]; omega

@[simp] theorem anc_self (e : T.E) : T.anc e (T.level e) = e := by simp [anc]

theorem anc_of_level_le {e : T.E} {l : Nat} (h : T.level e ≤ l) : T.anc e l = e := by
  simp [anc, Nat.sub_eq_zero_of_le h]

theorem anc_zero {e : T.E} (he : T.Valid e) : T.anc e 0 = T.root :=
  T.root_unique _ (valid_anc he 0) (level_anc he (by omega))

theorem anc_anc {e : T.E} (he : T.Valid e) {l m : Nat} (hl : l ≤ m) (hm : m ≤ T.level e) :
    T.anc (T.anc e m) l = T.anc e l := by
  have h := level_anc he hm
  rw [anc, h, anc, ← Function.iterate_add_apply, anc]
  congr 1
  omega

theorem anc_child {e : T.E} (he : T.Valid e) (hm : T.level e < T.maxLevel) {i : Nat} (hi : i < T.nc e)
    {l : Nat} (hl : l ≤ T.level e) : T.anc (T.child e i) l = T.anc e l := by
  have h := T.level_child e i he hm hi
  rw [anc, h, show T.level e + 1 - l = (T.level e - l) + 1 by omega, Function.iterate_succ_apply,
    T.parent_child e i he hm hi]
  rfl

theorem parent_anc {e : T.E} {l : Nat} (hl : l < T.level e) :
    T.parent (T.anc e (l + 1)) = T.anc e l := by
  rw [anc, anc, ← Function.iterate_succ_apply' T.parent, show (T.level e - (l + 1)).succ = T.level e - l by omega]

theorem parent_eq_anc {e : T.E} (h : 0 < T.level e) : T.parent e = T.anc e (T.level e - 1) := by
  rw [anc, show T.level e - (T.level e - 1) = 1 by omega]; rfl

theorem anc_parent {e : T.E} (he : T.Valid e) (h : 0 < T.level e) {l : Nat} (hl : l < T.level e) :
    T.anc (T.parent e) l = T.anc e l := by
  rw [parent_eq_anc h, anc_anc he (by omega) (by omega)]

/-- An ancestor is a child of the next coarser ancestor. -/
theorem anc_succ_eq_child {e : T.E} (he : T.Valid e) {l : Nat} (hl : l < T.level e) :
    T.childId (T.anc e (l + 1)) < T.nc (T.anc e l) ∧
    T.anc e (l + 1) = T.child (T.anc e l) (T.childId (T.anc e (l + 1))) := by
  have hv := valid_anc he (l + 1)
  have hlev := level_anc he (l := l + 1) hl
  have h1 := T.childId_lt _ hv (by omega)
  have h2 := T.child_parent _ hv (by omega)
  rw [parent_anc hl] at h1 h2
  exact ⟨h1, h2.symm⟩

/-- Induction over the elements of a tree. -/
theorem valid_induction {P : T.E → Prop} (h0 : P T.root)
    (h1 : ∀ e i, T.Valid e → T.level e < T.maxLevel → i < T.nc e → P e → P (T.child e i)) :
    ∀ e, T.Valid e → P e := by
  have : ∀ n e, T.level e = n → T.Valid e → P e := by
    intro n
    induction n with
    | zero => intro e hl he; rw [T.root_unique e he hl]; exact h0
    | succ n ih =>
      intro e hl he
      have hp := T.valid_parent e he (by omega)
      have hpl := T.level_parent e he (by omega)
      have hid := T.childId_lt e he (by omega)
      have := T.level_le e he
      rw [← T.child_parent e he (by omega)]
      exact h1 _ _ hp (by omega) hid (ih _ (by omega) hp)
  exact fun e he => this _ e rfl he

/-! ### Descendants -/

theorem Desc.trans {a b c : T.E} (h1 : T.Desc a b) (h2 : T.Desc b c) : T.Desc a c := by
  induction h2 with
  | refl => exact h1
  | step _ hl hi ih => exact Desc.step ih hl hi

theorem Desc.ind {a x : T.E} {P : T.E → Prop} (h : T.Desc a x) (h0 : P a)
    (h1 : ∀ x i, T.Desc a x → T.level x < T.maxLevel → i < T.nc x → P x → P (T.child x i)) : P x := by
  induction h with
  | refl => exact h0
  | step hd hl hi ih => exact h1 _ _ hd hl hi ih

theorem Desc.child_self {a : T.E} {i : Nat} (hl : T.level a < T.maxLevel) (hi : i < T.nc a) :
    T.Desc a (T.child a i) := Desc.step Desc.refl hl hi

theorem Desc.valid {a x : T.E} (ha : T.Valid a) (h : T.Desc a x) : T.Valid x := by
  induction h with
  | refl => exact ha
  | step _ hl hi ih => exact T.valid_child _ _ ih hl hi

theorem Desc.level_le {a x : T.E} (ha : T.Valid a) (h : T.Desc a x) : T.level a ≤ T.level x := by
  induction h with
  | refl => exact le_rfl
  | step hd hl hi ih => rw [T.level_child _ _ (hd.valid ha) hl hi]; omega

theorem Desc.anc_eq {a x : T.E} (ha : T.Valid a) (h : T.Desc a x) : T.anc x (T.level a) = a := by
  induction h with
  | refl => simp
  | step hd hl hi ih => rw [anc_child (hd.valid ha) hl hi (hd.level_le ha), ih]

theorem desc_anc {x : T.E} (hx : T.Valid x) {l : Nat} : T.Desc (T.anc x l) x := by
  rcases Nat.lt_or_ge (T.level x) l with h | h
  · rw [anc_of_level_le h.le]; exact Desc.refl
  · induction hk : T.level x - l generalizing l with
    | zero => rw [show l = T.level x by omega, anc_self]; exact Desc.refl
    | succ k ih =>
      have h2 := ih (l := l + 1) (by omega) (by omega)
      obtain ⟨h3, h4⟩ := anc_succ_eq_child hx (l := l) (by omega)
      refine Desc.trans ?_ h2
      rw [h4]
      refine Desc.child_self ?_ h3
      rw [level_anc hx (by omega)]
      have := T.level_le x hx
      omega

theorem desc_iff {a x : T.E} (ha : T.Valid a) (hx : T.Valid x) :
    T.Desc a x ↔ T.level a ≤ T.level x ∧ T.anc x (T.level a) = a :=
  ⟨fun h => ⟨h.level_le ha, h.anc_eq ha⟩, fun ⟨_, h⟩ => h ▸ desc_anc hx⟩

theorem Desc.eq_of_level {a x : T.E} (ha : T.Valid a) (h : T.Desc a x) (hl : T.level x ≤ T.level a) :
    x = a := by
  have h1 := h.anc_eq ha
  rwa [anc_of_level_le hl] at h1

theorem desc_root {x : T.E} (hx : T.Valid x) : T.Desc T.root x := by
  rw [← anc_zero hx]; exact desc_anc hx

theorem Desc.anc_eq' {a x : T.E} (ha : T.Valid a) (h : T.Desc a x) {l : Nat} (hl : l ≤ T.level a) :
    T.anc x l = T.anc a l := by
  have h1 := h.anc_eq ha
  have h2 := h.level_le ha
  rw [← anc_anc (h.valid ha) hl h2, h1]

/-- Two ancestors of the same element are comparable. -/
theorem desc_comparable {a b x : T.E} (ha : T.Valid a) (hb : T.Valid b) (h1 : T.Desc a x) (h2 : T.Desc b x)
    (hl : T.level a ≤ T.level b) : T.Desc a b := by
  rw [desc_iff ha hb]
  refine ⟨hl, ?_⟩
  rw [← h2.anc_eq' hb hl, h1.anc_eq ha]

/-- A proper descendant is a descendant of exactly one child. -/
theorem desc_cases {a x : T.E} (ha : T.Valid a) (h : T.Desc a x) :
    x = a ∨ (T.level a < T.maxLevel ∧ ∃ i, i < T.nc a ∧ T.Desc (T.child a i) x) := by
  have hx := h.valid ha
  rcases Nat.lt_or_ge (T.level a) (T.level x) with hl | hl
  · right
    have := T.level_le x hx
    obtain ⟨h3, h4⟩ := anc_succ_eq_child hx hl
    rw [h.anc_eq ha] at h3 h4
    exact ⟨by omega, _, h3, h4 ▸ desc_anc hx⟩
  · left; exact h.eq_of_level ha hl

theorem child_inj {a : T.E} (ha : T.Valid a) (hl : T.level a < T.maxLevel) {i j : Nat} (hi : i < T.nc a)
    (hj : j < T.nc a) (h : T.child a i = T.child a j) : i = j := by
  rw [← T.childId_child a i ha hl hi, h, T.childId_child a j ha hl hj]

theorem desc_child_unique {a x : T.E} (ha : T.Valid a) (hl : T.level a < T.maxLevel) {i j : Nat}
    (hi : i < T.nc a) (hj : j < T.nc a) (h1 : T.Desc (T.child a i) x) (h2 : T.Desc (T.child a j) x) :
    i = j := by
  have e1 := h1.anc_eq (T.valid_child _ _ ha hl hi)
  have e2 := h2.anc_eq (T.valid_child _ _ ha hl hj)
  rw [T.level_child _ _ ha hl hi] at e1
  rw [T.level_child _ _ ha hl hj] at e2
  exact child_inj ha hl hi hj (e1.symm.trans e2)

/-- The position of two elements relative to each other. -/
theorem position_cases {x y : T.E} (hx : T.Valid x) (hy : T.Valid y) :
    T.Desc x y ∨ T.Desc y x ∨ T.Before x y ∨ T.Before y x := by
  classical
  -- the finest level on which the ancestors agree
  let n := min (T.level x) (T.level y)
  have hex : ∃ m, m ≤ n ∧ T.anc x m = T.anc y m := ⟨0, by omega, by rw [anc_zero hx, anc_zero hy]⟩
  obtain ⟨m, ⟨hm, hanc⟩, hmax⟩ : ∃ m, (m ≤ n ∧ T.anc x m = T.anc y m) ∧
      ∀ k, k ≤ n → T.anc x k = T.anc y k → k ≤ m := by
    refine ⟨Nat.findGreatest (fun m => T.anc x m = T.anc y m) n, ⟨Nat.findGreatest_le _, ?_⟩, ?_⟩
    · exact Nat.findGreatest_spec (P := fun m => T.anc x m = T.anc y m) (Nat.zero_le n)
        (by rw [anc_zero hx, anc_zero hy])
    · intro k hk h
      exact Nat.le_findGreatest hk h
  rcases eq_or_ne m (T.level x) with h1 | h1
  · left
    rw [desc_iff hx hy]
    refine ⟨by omega, ?_⟩
    rw [← h1, ← hanc, h1, anc_self]
  · rcases eq_or_ne m (T.level y) with h2 | h2
    · right; left
      rw [desc_iff hy hx]
      refine ⟨by omega, ?_⟩
      rw [← h2, hanc, h2, anc_self]
    · right; right
      obtain ⟨h3, h4⟩ := anc_succ_eq_child hx (l := m) (by omega)
      obtain ⟨h5, h6⟩ := anc_succ_eq_child hy (l := m) (by omega)
      rw [← hanc] at h5 h6
      have hne : T.childId (T.anc x (m + 1)) ≠ T.childId (T.anc y (m + 1)) := by
        intro heq
        have := hmax (m + 1) (by omega) (by rw [h4, h6, heq])
        omega
      have hla : T.level (T.anc x m) < T.maxLevel := by
        rw [level_anc hx (by omega)]
        have := T.level_le x hx
        omega
      have d1 : T.Desc (T.child (T.anc x m) (T.childId (T.anc x (m + 1)))) x := h4 ▸ desc_anc hx
      have d2 : T.Desc (T.child (T.anc x m) (T.childId (T.anc y (m + 1)))) y := h6 ▸ desc_anc hy
      rcases lt_or_gt_of_ne hne with h | h
      · left
        exact ⟨_, _, _, valid_anc hx m, hla, h, h5, d1, d2⟩
      · right
        exact ⟨_, _, _, valid_anc hx m, hla, h, h3, d2, d1⟩

/-! ### Uniform refinements -/

theorem range_split {n i : Nat} (h : i < n) :
    List.range n = List.range i ++ i :: (List.range (n - i - 1)).map (fun k => i + 1 + k) := by
  have h1 : n = (i + 1) + (n - i - 1) := by omega
  conv_lhs => rw [h1, List.range_add, List.range_succ]
  simp

theorem uniform_succ (e : T.E) (n : Nat) :
    T.uniform e (n + 1) = (List.range (T.nc e)).flatMap (fun i => T.uniform (T.child e i) n) := rfl

theorem uniform_pos {e : T.E} (he : T.Valid e) {n : Nat} (h : T.level e + n ≤ T.maxLevel) :
    0 < (T.uniform e n).length := by
  induction n generalizing e with
  | zero => simp [uniform]
  | succ n ih =>
    have h0 := T.nc_pos e he
    have h1 := T.level_child e 0 he (by omega) h0
    have h2 := ih (T.valid_child e 0 he (by omega) h0) (by omega)
    rw [uniform_succ, range_split h0]
    simp only [List.flatMap_append, List.flatMap_cons, List.length_append]
    omega

theorem mem_uniform {e : T.E} (he : T.Valid e) {n : Nat} (h : T.level e + n ≤ T.maxLevel) {x : T.E} :
    x ∈ T.uniform e n ↔ T.Desc e x ∧ T.level x = T.level e + n := by
  induction n generalizing e with
  | zero =>
    simp only [uniform, List.mem_singleton]
    constructor
    · rintro rfl; exact ⟨Desc.refl, rfl⟩
    · rintro ⟨h1, h2⟩; exact h1.eq_of_level he (by omega)
  | succ n ih =>
    rw [uniform_succ]
    simp only [List.mem_flatMap, List.mem_range]
    constructor
    · rintro ⟨i, hi, hx⟩
      have hl := T.level_child e i he (by omega) hi
      rw [ih (T.valid_child e i he (by omega) hi) (by omega)] at hx
      exact ⟨(Desc.child_self (by omega) hi).trans hx.1, by omega⟩
    · rintro ⟨h1, h2⟩
      rcases desc_cases he h1 with rfl | ⟨hl, i, hi, hd⟩
      · omega
      · have hl := T.level_child e i he (by omega) hi
        refine ⟨i, hi, ?_⟩
        rw [ih (T.valid_child e i he (by omega) hi) (by omega)]
        exact ⟨hd, by omega⟩

theorem nodup_uniform {e : T.E} (he : T.Valid e) {n : Nat} (h : T.level e + n ≤ T.maxLevel) :
    (T.uniform e n).Nodup := by
  induction n generalizing e with
  | zero => simp [uniform]
  | succ n ih =>
    rw [uniform_succ, List.nodup_flatMap]
    constructor
    · intro i hi
      rw [List.mem_range] at hi
      exact ih (T.valid_child e i he (by omega) hi) (by rw [T.level_child e i he (by omega) hi]; omega)
    · refine List.Nodup.pairwise_of_forall_ne List.nodup_range ?_
      intro i hi j hj hij
      rw [List.mem_range] at hi hj
      intro x hx hx'
      rw [mem_uniform (T.valid_child e i he (by omega) hi)
        (by rw [T.level_child e i he (by omega) hi]; omega)] at hx
      rw [mem_uniform (T.valid_child e j he (by omega) hj)
        (by rw [T.level_child e j he (by omega) hj]; omega)] at hx'
      exact hij (desc_child_unique he (by omega) hi hj hx.1 hx'.1)

theorem count_self (e : T.E) : T.count e (T.level e) = 1 := by simp [count, uniform]

theorem count_self' {e : T.E} {L : Nat} (h : T.level e = L) : T.count e L = 1 := h ▸ count_self e

theorem count_of_lt {e : T.E} {L : Nat} (h : L < T.level e) : T.count e L = 0 := by simp [count, h]

theorem count_eq {e : T.E} {n : Nat} : T.count e (T.level e + n) = (T.uniform e n).length := by
  simp [count]

theorem count_pos {e : T.E} (he : T.Valid e) {L : Nat} (h : T.level e ≤ L) (hL : L ≤ T.maxLevel) :
    0 < T.count e L := by
  obtain ⟨n, rfl⟩ := Nat.exists_eq_add_of_le h
  rw [count_eq]
  exact uniform_pos he hL

/-- The number of descendants is the sum over the children. -/
theorem count_children {e : T.E} (he : T.Valid e) {L : Nat} (h : T.level e < L) (hL : L ≤ T.maxLevel) :
    T.count e L = ((List.range (T.nc e)).map (fun i => T.count (T.child e i) L)).sum := by
  obtain ⟨n, rfl⟩ := Nat.exists_eq_add_of_le (Nat.succ_le_of_lt h)
  rw [show (T.level e).succ + n = T.level e + (n + 1) by omega, count_eq, uniform_succ, List.length_flatMap]
  congr 1
  refine List.map_congr_left ?_
  intro i hi
  rw [List.mem_range] at hi
  have hl := T.level_child e i he (by omega) hi
  rw [show T.level e + (n + 1) = T.level (T.child e i) + n by omega, count_eq]

/-! ### Positions on the space-filling curve -/

/-- The number of elements of level `L` before `e` below its parent, plus recursively those before the
parent. `lid e L = lidAux L (level e) e`. -/
def lidAux (T : RTree) (L : Nat) : Nat → T.E → Nat
  | 0, _ => 0
  | k + 1, e => lidAux T L k (T.parent e) +
      ((List.range (T.childId e)).map (fun j => T.count (T.child (T.parent e) j) L)).sum

/-- The position of (the first descendant of) `e` in the uniform refinement of level `L`. -/
def lid (e : T.E) (L : Nat) : Nat := lidAux T L (T.level e) e

theorem lid_root (L : Nat) : lid T.root L = 0 := by simp [lid, T.level_root, lidAux]

theorem lid_child {e : T.E} (he : T.Valid e) (hm : T.level e < T.maxLevel) {i : Nat} (hi : i < T.nc e)
    (L : Nat) : lid (T.child e i) L = lid e L +
      ((List.range i).map (fun j => T.count (T.child e j) L)).sum := by
  rw [lid, T.level_child e i he hm hi, lidAux, T.parent_child e i he hm hi, T.childId_child e i he hm hi]
  rfl

/-- The level `L` descendants of `x` form a block in those of any ancestor. -/
theorem uniform_block {a x : T.E} (ha : T.Valid a) (h : T.Desc a x) {L : Nat} (hx : T.level x ≤ L)
    (_hL : L ≤ T.maxLevel) :
    ∃ pre post, T.uniform a (L - T.level a) = pre ++ T.uniform x (L - T.level x) ++ post ∧
      lid a L + pre.length = lid x L := by
  induction h with
  | refl => exact ⟨[], [], by simp, by simp⟩
  | @step x i hd hl hi ih =>
    have hv := hd.valid ha
    have hlc := T.level_child x i hv hl hi
    obtain ⟨pre, post, h1, h2⟩ := ih (by omega)
    have h3 : T.uniform x (L - T.level x) =
        (List.range (T.nc x)).flatMap (fun i => T.uniform (T.child x i) (L - T.level x - 1)) := by
      rw [← uniform_succ]; congr 1; omega
    have h4 : ∀ j, j < T.nc x →
        (T.uniform (T.child x j) (L - T.level x - 1)).length = T.count (T.child x j) L := by
      intro j hj
      have := T.level_child x j hv hl hj
      rw [count, if_neg (by omega), this]
      congr 2
    rw [h3, range_split hi] at h1
    simp only [List.flatMap_append, List.flatMap_cons] at h1
    refine ⟨pre ++ (List.range i).flatMap (fun i => T.uniform (T.child x i) (L - T.level x - 1)),
      ((List.range (T.nc x - i - 1)).map (fun k => i + 1 + k)).flatMap
        (fun i => T.uniform (T.child x i) (L - T.level x - 1)) ++ post, ?_, ?_⟩
    · rw [h1, show L - T.level (T.child x i) = L - T.level x - 1 by omega]
      simp only [List.append_assoc]
    · rw [lid_child hv hl hi, List.length_append, List.length_flatMap, ← h2]
      have : (List.range i).map (fun i => (T.uniform (T.child x i) (L - T.level x - 1)).length) =
          (List.range i).map (fun j => T.count (T.child x j) L) := by
        refine List.map_congr_left ?_
        intro j hj
        rw [List.mem_range] at hj
        exact h4 j (by omega)
      rw [this]; omega

theorem uniform_length {e : T.E} {L : Nat} (h : T.level e ≤ L) :
    (T.uniform e (L - T.level e)).length = T.count e L := by
  rw [count, if_neg (by omega)]

/-- The interval of positions of a descendant lies in that of the ancestor. -/
theorem Desc.lid_bounds {a x : T.E} (ha : T.Valid a) (h : T.Desc a x) {L : Nat} (hx : T.level x ≤ L)
    (hL : L ≤ T.maxLevel) :
    lid a L ≤ lid x L ∧ lid x L + T.count x L ≤ lid a L + T.count a L := by
  obtain ⟨pre, post, h1, h2⟩ := uniform_block ha h hx hL
  have h3 := congrArg List.length h1
  have := h.level_le ha
  rw [List.length_append, List.length_append, uniform_length (by omega), uniform_length hx] at h3
  omega

theorem lid_lt {x : T.E} (hx : T.Valid x) {L : Nat} (hl : T.level x ≤ L) (hL : L ≤ T.maxLevel) :
    lid x L + T.count x L ≤ T.count T.root L := by
  have h := ((desc_root hx).lid_bounds T.valid_root hl hL).2
  rwa [lid_root, Nat.zero_add] at h

theorem sum_range_succ_le {f : Nat → Nat} {i j : Nat} (h : i < j) :
    ((List.range i).map f).sum + f i ≤ ((List.range j).map f).sum := by
  rw [range_split h]
  simp only [List.map_append, List.map_cons, List.sum_append, List.sum_cons]
  omega

/-- Elements that come before have smaller positions, and the intervals do not meet. -/
theorem Before.lid_le {x y : T.E} (h : T.Before x y) {L : Nat} (hx : T.level x ≤ L) (hy : T.level y ≤ L)
    (hL : L ≤ T.maxLevel) : lid x L + T.count x L ≤ lid y L := by
  obtain ⟨a, i, j, ha, hl, hij, hj, h1, h2⟩ := h
  have vi := T.valid_child a i ha hl (by omega)
  have vj := T.valid_child a j ha hl hj
  have b1 := h1.lid_bounds vi hx hL
  have b2 := h2.lid_bounds vj hy hL
  rw [lid_child ha hl (by omega)] at b1
  rw [lid_child ha hl hj] at b2
  have := sum_range_succ_le (f := fun j => T.count (T.child a j) L) hij
  omega

theorem before_iff {x y : T.E} (vx : T.Valid x) (vy : T.Valid y) {L : Nat} (hx : T.level x ≤ L)
    (hy : T.level y ≤ L) (hL : L ≤ T.maxLevel) :
    T.Before x y ↔ lid x L + T.count x L ≤ lid y L := by
  refine ⟨fun h => h.lid_le hx hy hL, fun h => ?_⟩
  have c1 := count_pos vx hx hL
  have c2 := count_pos vy hy hL
  rcases position_cases vx vy with h1 | h1 | h1 | h1
  · have := h1.lid_bounds vx hy hL; omega
  · have := h1.lid_bounds vy hx hL; omega
  · exact h1
  · have := h1.lid_le hy hx hL; omega

theorem desc_iff_lid {a x : T.E} (va : T.Valid a) (vx : T.Valid x) {L : Nat} (hl : T.level a ≤ T.level x)
    (hx : T.level x ≤ L) (hL : L ≤ T.maxLevel) :
    T.Desc a x ↔ lid a L ≤ lid x L ∧ lid x L < lid a L + T.count a L := by
  have c2 := count_pos vx hx hL
  have c1 := count_pos va (hl.trans hx) hL
  constructor
  · intro h
    have := h.lid_bounds va hx hL
    omega
  · rintro ⟨h1, h2⟩
    rcases position_cases va vx with h | h | h | h
    · exact h
    · rw [h.eq_of_level vx hl]; exact Desc.refl
    · have := h.lid_le (hl.trans hx) hx hL; omega
    · have := h.lid_le hx (hl.trans hx) hL; omega

theorem Before.trans {x y z : T.E} (vx : T.Valid x) (vy : T.Valid y) (vz : T.Valid z)
    (h1 : T.Before x y) (h2 : T.Before y z) : T.Before x z := by
  have lx := T.level_le x vx
  have ly := T.level_le y vy
  have lz := T.level_le z vz
  rw [before_iff vx vz lx lz le_rfl]
  rw [before_iff vx vy lx ly le_rfl] at h1
  rw [before_iff vy vz ly lz le_rfl] at h2
  omega

theorem Before.valid {x y : T.E} (h : T.Before x y) : T.Valid x ∧ T.Valid y := by
  obtain ⟨a, i, j, ha, hl, hij, hj, h1, h2⟩ := h
  exact ⟨h1.valid (T.valid_child a i ha hl (by omega)), h2.valid (T.valid_child a j ha hl hj)⟩

theorem Before.irrefl {x : T.E} : ¬ T.Before x x := by
  intro h
  have hv := h.valid.1
  have := h.lid_le (L := T.maxLevel) (T.level_le x hv) (T.level_le x hv) le_rfl
  have := count_pos hv (T.level_le x hv) le_rfl
  omega

theorem Before.asymm {x y : T.E} (h : T.Before x y) : ¬ T.Before y x :=
  fun h' => (h.trans h.valid.1 h.valid.2 h.valid.1 h').irrefl

theorem Before.not_desc {x y : T.E} (h : T.Before x y) : ¬ T.Desc x y ∧ ¬ T.Desc y x := by
  obtain ⟨vx, vy⟩ := h.valid
  have lx := T.level_le x vx
  have ly := T.level_le y vy
  have hl := h.lid_le lx ly le_rfl
  have c1 := count_pos vx lx le_rfl
  have c2 := count_pos vy ly le_rfl
  refine ⟨fun h' => ?_, fun h' => ?_⟩
  · have := h'.lid_bounds vx ly le_rfl; omega
  · have := h'.lid_bounds vy lx le_rfl; omega

/-- Descendants inherit `Before`. -/
theorem Before.desc {x y x' y' : T.E} (h : T.Before x y) (hx : T.Desc x x') (hy : T.Desc y y') :
    T.Before x' y' := by
  obtain ⟨a, i, j, ha, hl, hij, hj, h1, h2⟩ := h
  exact ⟨a, i, j, ha, hl, hij, hj, h1.trans hx, h2.trans hy⟩

theorem before_children {a : T.E} (ha : T.Valid a) (hl : T.level a < T.maxLevel) {i j : Nat} (hij : i < j)
    (hj : j < T.nc a) : T.Before (T.child a i) (T.child a j) :=
  ⟨a, i, j, ha, hl, hij, hj, Desc.refl, Desc.refl⟩

/-- Positions at the own level determine the element. -/
theorem lid_inj {x y : T.E} (vx : T.Valid x) (vy : T.Valid y) (hl : T.level x = T.level y) {L : Nat}
    (hL : T.level x ≤ L) (hL' : L ≤ T.maxLevel) (h : lid x L = lid y L) : x = y := by
  have c1 := count_pos vx hL hL'
  have c2 := count_pos vy (hl ▸ hL) hL'
  have : T.Desc x y := (desc_iff_lid vx vy hl.le (hl ▸ hL) hL').2 ⟨by omega, by omega⟩
  exact (this.eq_of_level vx hl.ge).symm

/-! ### First and last descendants -/

theorem firstDesc_spec {e : T.E} (he : T.Valid e) {n : Nat} (h : T.level e + n ≤ T.maxLevel) :
    T.Desc e (T.firstDesc e n) ∧ T.level (T.firstDesc e n) = T.level e + n ∧
      ∀ L, lid (T.firstDesc e n) L = lid e L := by
  induction n generalizing e with
  | zero => exact ⟨Desc.refl, rfl, fun _ => rfl⟩
  | succ n ih =>
    have h0 := T.nc_pos e he
    have hl := T.level_child e 0 he (by omega) h0
    obtain ⟨h1, h2, h3⟩ := ih (T.valid_child e 0 he (by omega) h0) (by omega)
    refine ⟨(Desc.child_self (by omega) h0).trans h1, by rw [firstDesc, h2]; omega, fun L => ?_⟩
    rw [firstDesc, h3, lid_child he (by omega) h0]
    simp

theorem lastDesc_spec {e : T.E} (he : T.Valid e) {n : Nat} (h : T.level e + n ≤ T.maxLevel) :
    T.Desc e (T.lastDesc e n) ∧ T.level (T.lastDesc e n) = T.level e + n ∧
      ∀ L, T.level e + n ≤ L → L ≤ T.maxLevel →
        lid (T.lastDesc e n) L + T.count (T.lastDesc e n) L = lid e L + T.count e L := by
  induction n generalizing e with
  | zero => exact ⟨Desc.refl, rfl, fun _ _ _ => rfl⟩
  | succ n ih =>
    have h0 := T.nc_pos e he
    have hi : T.nc e - 1 < T.nc e := by omega
    have hl := T.level_child e _ he (by omega) hi
    obtain ⟨h1, h2, h3⟩ := ih (T.valid_child e _ he (by omega) hi) (by omega)
    refine ⟨(Desc.child_self (by omega) hi).trans h1, by rw [lastDesc, h2]; omega, fun L hL hL' => ?_⟩
    rw [lastDesc, h3 L (by omega) hL', lid_child he (by omega) hi, count_children he (by omega) hL',
      range_split hi, show T.nc e - (T.nc e - 1) - 1 = 0 by omega]
    simp [Nat.add_assoc]

theorem uniform_getElem_lid {x : T.E} (hx : T.Valid x) :
    (T.uniform T.root (T.level x))[lid x (T.level x)]? = some x := by
  obtain ⟨pre, post, h1, h2⟩ := uniform_block T.valid_root (desc_root hx) (L := T.level x) le_rfl
    (T.level_le x hx)
  rw [T.level_root, Nat.sub_zero, Nat.sub_self] at h1
  rw [lid_root, Nat.zero_add] at h2
  rw [h1, ← h2, uniform]
  simp

/-- Position of the first descendant. -/
theorem uniform_getElem_lid' {x : T.E} (hx : T.Valid x) {L : Nat} (h : T.level x ≤ L)
    (hL : L ≤ T.maxLevel) :
    (T.uniform T.root L)[lid x L]? = some (T.firstDesc x (L - T.level x)) := by
  obtain ⟨h1, h2, h3⟩ := firstDesc_spec hx (n := L - T.level x) (by omega)
  have := uniform_getElem_lid (h1.valid hx)
  rw [h2, show T.level x + (L - T.level x) = L by omega, h3] at this
  exact this

/-! ### Tilings -/

theorem Tiles.desc {e : T.E} (he : T.Valid e) {ls : List T.E} (h : T.Tiles e ls) :
    ∀ x ∈ ls, T.Desc e x := by
  induction h with
  | leaf e => intro x hx; rw [List.mem_singleton] at hx; rw [hx]; exact Desc.refl
  | node e ls hl _ ih =>
    intro x hx
    rw [List.mem_flatMap] at hx
    obtain ⟨i, hi, hx⟩ := hx
    rw [List.mem_range] at hi
    exact (Desc.child_self hl hi).trans (ih i hi (T.valid_child e i he hl hi) x hx)

theorem Tiles.uniform {e : T.E} (he : T.Valid e) {n : Nat} (h : T.level e + n ≤ T.maxLevel) :
    T.Tiles e (T.uniform e n) := by
  induction n generalizing e with
  | zero => exact Tiles.leaf e
  | succ n ih =>
    rw [uniform_succ]
    refine Tiles.node e _ (by omega) fun i hi => ?_
    exact ih (T.valid_child e i he (by omega) hi) (by rw [T.level_child e i he (by omega) hi]; omega)

/-- The elements of a tiling are pairwise disjoint and ordered along the curve. -/
theorem Tiles.pairwise {e : T.E} (he : T.Valid e) {ls : List T.E} (h : T.Tiles e ls) :
    ls.Pairwise T.Before := by
  induction h with
  | leaf e => simp
  | node e ls hl h ih =>
    rw [List.pairwise_flatMap]
    refine ⟨fun i hi => ?_, ?_⟩
    · rw [List.mem_range] at hi
      exact ih i hi (T.valid_child e i he hl hi)
    · have : ∀ n, n ≤ T.nc e → (List.range n).Pairwise (fun i j => ∀ x ∈ ls i, ∀ y ∈ ls j, T.Before x y) := by
        intro n hn
        induction n with
        | zero => simp
        | succ n ihn =>
          rw [List.range_succ, List.pairwise_append]
          refine ⟨ihn (by omega), by simp, ?_⟩
          intro i hi j hj x hx y hy
          rw [List.mem_range] at hi
          rw [List.mem_singleton] at hj
          subst hj
          exact (before_children he hl hi (by omega)).desc
            ((h i (by omega)).desc (T.valid_child e i he hl (by omega)) x hx)
            ((h j (by omega)).desc (T.valid_child e j he hl (by omega)) y hy)
      exact this _ le_rfl

theorem Tiles.ne_nil {e : T.E} (he : T.Valid e) {ls : List T.E} (h : T.Tiles e ls) : ls ≠ [] := by
  induction h with
  | leaf e => simp
  | node e ls hl h ih =>
    have h0 := T.nc_pos e he
    have := ih 0 h0 (T.valid_child e 0 he hl h0)
    rw [range_split h0]
    simp [this]

/-- Every element below `e` either contains, or lies in, an element of a tiling of `e`. In particular a
tiling covers `e`. -/
theorem Tiles.covers {e : T.E} (he : T.Valid e) {ls : List T.E} (h : T.Tiles e ls) {x : T.E}
    (hx : T.Desc e x) : ∃ y ∈ ls, T.Desc y x ∨ T.Desc x y := by
  induction h with
  | leaf e => exact ⟨e, by simp, Or.inl hx⟩
  | node e ls hl h ih =>
    rcases desc_cases he hx with rfl | ⟨_, i, hi, hd⟩
    · -- x = e: any element of the tiling
      have ht := Tiles.node x ls hl h
      obtain ⟨y, hy⟩ := List.exists_mem_of_ne_nil _ (ht.ne_nil he)
      exact ⟨y, hy, Or.inr (ht.desc he y hy)⟩
    · obtain ⟨y, hy, hy'⟩ := ih i hi (T.valid_child e i he hl hi) hd
      refine ⟨y, ?_, hy'⟩
      rw [List.mem_flatMap]; exact ⟨i, by simpa using hi, hy⟩

end T8.RTree
