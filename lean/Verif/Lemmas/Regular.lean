/-
Refinement trees in which every element has the same number of children: the position of an element on its
level is the number whose digits are the child ids on the way from the root. Also general facts about
schemes that derive their functions from the linear id.
-/
import Verif.Lemmas.Element

namespace T8.RTree
variable {T : RTree}

/-- Every element has `N` children. -/
def Regular (T : RTree) (N : Nat) : Prop := ∀ e, T.Valid e → T.nc e = N

/-- The position of `e` on its own level. -/
def pos (e : T.E) : Nat := lid e (T.level e)

variable {N : Nat}

theorem sum_rep (n a : Nat) : (List.replicate n a).sum = n * a := by
  induction n with
  | zero => simp
  | succ n ih => rw [List.replicate_succ, List.sum_cons, ih, Nat.add_mul, Nat.one_mul, Nat.add_comm]

theorem Regular.uniform_len (h : T.Regular N) {e : T.E} (he : T.Valid e) {n : Nat}
    (hn : T.level e + n ≤ T.maxLevel) : (T.uniform e n).length = N ^ n := by
  induction n generalizing e with
  | zero => simp [uniform]
  | succ n ih =>
    rw [uniform_succ, List.length_flatMap]
    have : (List.range (T.nc e)).map (fun i => (T.uniform (T.child e i) n).length) =
        List.replicate N (N ^ n) := by
      rw [h e he]
      refine List.eq_replicate_iff.2 ⟨by simp, fun b hb => ?_⟩
      obtain ⟨i, hi, rfl⟩ := List.mem_map.1 hb
      rw [List.mem_range] at hi
      have hi' : i < T.nc e := by rw [h e he]; exact hi
      have hl : T.level e < T.maxLevel := by omega
      exact ih (T.valid_child e i he hl hi') (by rw [T.level_child e i he hl hi']; omega)
    rw [this, sum_rep, Nat.pow_succ, Nat.mul_comm]

theorem Regular.count (h : T.Regular N) {e : T.E} (he : T.Valid e) {L : Nat} (hl : T.level e ≤ L)
    (hL : L ≤ T.maxLevel) : T.count e L = N ^ (L - T.level e) := by
  rw [← uniform_length hl, h.uniform_len he (by omega)]

theorem Regular.count_root (h : T.Regular N) {L : Nat} (hL : L ≤ T.maxLevel) : T.count T.root L = N ^ L := by
  rw [h.count T.valid_root (by rw [T.level_root]; omega) hL, T.level_root, Nat.sub_zero]

theorem Regular.pos_base (h : T.Regular N) : 0 < N := by
  have := T.nc_pos _ T.valid_root
  rwa [h _ T.valid_root] at this

/-- Sum of the counts of the first `i` children. -/
theorem Regular.child_sum (h : T.Regular N) {e : T.E} (he : T.Valid e) {L i : Nat} (hl : T.level e < L)
    (hL : L ≤ T.maxLevel) (hi : i ≤ N) :
    ((List.range i).map (fun j => T.count (T.child e j) L)).sum = i * N ^ (L - T.level e - 1) := by
  have : (List.range i).map (fun j => T.count (T.child e j) L) = List.replicate i (N ^ (L - T.level e - 1)) := by
    refine List.eq_replicate_iff.2 ⟨by simp, fun b hb => ?_⟩
    obtain ⟨j, hj, rfl⟩ := List.mem_map.1 hb
    rw [List.mem_range] at hj
    have hj' : j < T.nc e := by rw [h e he]; omega
    have h1 : T.level e < T.maxLevel := by omega
    have h2 := T.level_child e j he h1 hj'
    rw [h.count (T.valid_child e j he h1 hj') (by omega) hL, h2]
    congr 1
  rw [this, sum_rep]

theorem Regular.lid_child (h : T.Regular N) {e : T.E} (he : T.Valid e) {L i : Nat} (hl : T.level e < L)
    (hL : L ≤ T.maxLevel) (hi : i < N) :
    lid (T.child e i) L = lid e L + i * N ^ (L - T.level e - 1) := by
  rw [RTree.lid_child he (by omega) (by rw [h e he]; exact hi), h.child_sum he hl hL hi.le]

theorem Regular.lid_succ (h : T.Regular N) : ∀ e, T.Valid e → ∀ m, T.level e ≤ m → m < T.maxLevel →
    lid e (m + 1) = lid e m * N := by
  apply valid_induction
  · intro m _ _; rw [lid_root, lid_root, Nat.zero_mul]
  · intro e i he hm hi ih m hlm hmm
    have hi' : i < N := by rw [← h e he]; exact hi
    have h1 := T.level_child e i he hm hi
    rw [h.lid_child he (by omega) (by omega) hi', h.lid_child he (by omega) (by omega) hi',
      ih m (by omega) hmm, Nat.add_mul, Nat.mul_assoc i, ← Nat.pow_succ]
    congr 3
    omega

/-- Positions on finer levels. -/
theorem Regular.lid_eq (h : T.Regular N) {e : T.E} (he : T.Valid e) {L : Nat} (hl : T.level e ≤ L)
    (hL : L ≤ T.maxLevel) : lid e L = pos e * N ^ (L - T.level e) := by
  obtain ⟨n, rfl⟩ := Nat.exists_eq_add_of_le hl
  rw [Nat.add_sub_cancel_left]
  induction n with
  | zero => simp [pos]
  | succ n ih =>
    rw [← Nat.add_assoc, h.lid_succ e he _ (by omega) (by omega), ih (by omega) (by omega), Nat.pow_succ,
      Nat.mul_assoc]

/-- The position is the number with the child ids as digits. -/
theorem Regular.pos_child (h : T.Regular N) {e : T.E} (he : T.Valid e) {i : Nat} (hm : T.level e < T.maxLevel)
    (hi : i < N) : pos (T.child e i) = pos e * N + i := by
  have hi' : i < T.nc e := by rw [h e he]; exact hi
  rw [pos, T.level_child e i he hm hi', h.lid_child he (by omega) (by omega) hi,
    h.lid_eq he (by omega) (by omega), show T.level e + 1 - T.level e = 1 by omega]
  simp

theorem Regular.pos_parent (h : T.Regular N) {e : T.E} (he : T.Valid e) (hl : 0 < T.level e) :
    pos e = pos (T.parent e) * N + T.childId e := by
  have h1 := T.level_parent e he hl
  have h2 := T.level_le e he
  have hp := T.valid_parent e he hl
  have h3 := T.childId_lt e he hl
  rw [h _ hp] at h3
  rw [← h.pos_child hp (by omega) h3, T.child_parent e he hl]

theorem pos_root : pos T.root = 0 := lid_root _

theorem Regular.pos_lt (h : T.Regular N) {e : T.E} (he : T.Valid e) : pos e < N ^ T.level e := by
  have h1 := lid_lt he (le_refl _) (T.level_le e he)
  rw [count_self, h.count_root (T.level_le e he)] at h1
  exact h1

theorem Regular.pos_inj (_h : T.Regular N) {x y : T.E} (hx : T.Valid x) (hy : T.Valid y)
    (hl : T.level x = T.level y) (hp : pos x = pos y) : x = y := by
  refine lid_inj hx hy hl (L := T.level x) (le_refl _) (T.level_le x hx) ?_
  rw [pos, pos, ← hl] at hp
  exact hp

/-- The position of an ancestor. -/
theorem Regular.pos_anc (h : T.Regular N) {e : T.E} (he : T.Valid e) {l : Nat} (hl : l ≤ T.level e) :
    pos (T.anc e l) = pos e / N ^ (T.level e - l) := by
  have hN := h.pos_base
  induction hk : T.level e - l generalizing l with
  | zero => rw [anc_of_level_le (by omega)]; simp
  | succ k ih =>
    have h1 := ih (l := l + 1) (by omega) (by omega)
    have h2 := h.pos_parent (valid_anc he (l + 1)) (by rw [level_anc he (by omega)]; omega)
    rw [parent_anc (by omega), h1] at h2
    have h3 := (anc_succ_eq_child he (l := l) (by omega)).1
    rw [h _ (valid_anc he l)] at h3
    rw [Nat.pow_succ, ← Nat.div_div_eq_div_mul, h2, Nat.add_comm, Nat.add_mul_div_right _ _ hN,
      Nat.div_eq_of_lt h3, Nat.zero_add]

/-- The child id of an ancestor is a digit of the position. -/
theorem Regular.childId_anc (h : T.Regular N) {e : T.E} (he : T.Valid e) {l : Nat} (hl0 : 0 < l) (hl : l ≤ T.level e) :
    T.childId (T.anc e l) = pos e / N ^ (T.level e - l) % N := by
  have h1 := h.pos_parent (valid_anc he l) (by rw [level_anc he hl]; exact hl0)
  have hp := T.valid_parent _ (valid_anc he l) (by rw [level_anc he hl]; exact hl0)
  have h3 := T.childId_lt _ (valid_anc he l) (by rw [level_anc he hl]; exact hl0)
  rw [h _ hp] at h3
  rw [← h.pos_anc he hl, h1, Nat.add_comm, Nat.add_mul_mod_self_right, Nat.mod_eq_of_lt h3]

/-- Descendants in terms of positions. -/
theorem Regular.desc_iff (h : T.Regular N) {a x : T.E} (ha : T.Valid a) (hx : T.Valid x) :
    T.Desc a x ↔ T.level a ≤ T.level x ∧ pos a = pos x / N ^ (T.level x - T.level a) := by
  rw [RTree.desc_iff ha hx]
  refine and_congr_right fun hl => ?_
  rw [← h.pos_anc hx hl]
  exact ⟨fun h' => by rw [h'], fun h' => (h.pos_inj ha (valid_anc hx _) (by rw [level_anc hx hl]) h').symm⟩

/-- Linear ids by positions. -/
theorem Regular.linearIdSpec (h : T.Regular N) {lin : T.E → Nat → Nat}
    (h1 : ∀ e L, T.Valid e → L ≤ T.level e → lin e L = pos e / N ^ (T.level e - L))
    (h2 : ∀ e L, T.Valid e → T.level e < L → L ≤ T.maxLevel → lin e L = pos e * N ^ (L - T.level e)) :
    T.LinearIdSpec lin := by
  apply linearIdSpec_of
  intro e L he hL
  split
  · rename_i hlt
    have hlv := level_anc he hlt.le
    rw [h1 e L he hlt.le, ← h.pos_anc he hlt.le, pos, hlv]
  · rename_i hge
    rcases Nat.lt_or_ge (T.level e) L with hlt | hle
    · rw [h2 e L he hlt hL, h.lid_eq he hlt.le hL]
    · have : T.level e = L := by omega
      subst this
      rw [h1 e _ he (le_refl _), Nat.sub_self, Nat.pow_zero, Nat.div_one, pos]

/-- Conversely. -/
theorem Regular.lin_eq (h : T.Regular N) {lin : T.E → Nat → Nat} (hlin : T.LinearIdSpec lin) {e : T.E} {L : Nat}
    (he : T.Valid e) (hL : L ≤ T.maxLevel) :
    lin e L = if L ≤ T.level e then pos e / N ^ (T.level e - L) else pos e * N ^ (L - T.level e) := by
  have hs := hlin e L he hL
  split
  · rename_i hle
    rw [if_pos hle] at hs
    have h2 := uniform_getElem_lid (valid_anc he L)
    rw [level_anc he hle] at h2
    have h3 : lin e L = lid (T.anc e L) L := pos_unique (nodup_root hL) hs h2
    rw [h3, ← h.pos_anc he hle, pos, level_anc he hle]
  · rename_i hgt
    rw [hlin.eq he (by omega) hL, h.lid_eq he (by omega) hL]

/-- Setting by positions. -/
theorem Regular.setLinearIdSpec (h : T.Regular N) {setLin : Nat → Nat → Option T.E}
    (h1 : ∀ L id, L ≤ T.maxLevel → id < N ^ L →
      ∃ x, setLin L id = some x ∧ T.Valid x ∧ T.level x = L ∧ pos x = id) : T.SetLinearIdSpec setLin := by
  apply setLinearIdSpec_of
  intro L id hL hid
  rw [h.count_root hL] at hid
  obtain ⟨x, h2, h3, h4, h5⟩ := h1 L id hL hid
  exact ⟨x, h2, h3, h4, by rw [← h5, pos, h4]⟩

/-- Successors by positions. -/
theorem Regular.successorSpec (h : T.Regular N) {succ : T.E → Option T.E}
    (h1 : ∀ e, T.Valid e → pos e + 1 < N ^ T.level e →
      ∃ s, succ e = some s ∧ T.Valid s ∧ T.level s = T.level e ∧ pos s = pos e + 1) : T.SuccessorSpec succ := by
  apply successorSpec_of
  intro e he hlt
  rw [h.count_root (T.level_le e he)] at hlt
  obtain ⟨s, h2, h3, h4, h5⟩ := h1 e he hlt
  refine ⟨s, h2, h3, h4, ?_⟩
  rw [pos, pos, h4] at h5
  exact h5

/-- Descendants by positions. -/
theorem Regular.descendantSpec (h : T.Regular N) {first last : T.E → Nat → T.E}
    (h1 : ∀ e L, T.Valid e → T.level e ≤ L → L ≤ T.maxLevel →
      T.Valid (first e L) ∧ T.level (first e L) = L ∧ pos (first e L) = pos e * N ^ (L - T.level e))
    (h2 : ∀ e L, T.Valid e → T.level e ≤ L → L ≤ T.maxLevel →
      T.Valid (last e L) ∧ T.level (last e L) = L ∧ pos (last e L) + 1 = (pos e + 1) * N ^ (L - T.level e)) :
    T.DescendantSpec first last := by
  apply descendantSpec_of
  intro e L he hl hL
  obtain ⟨a1, a2, a3⟩ := h1 e L he hl hL
  obtain ⟨b1, b2, b3⟩ := h2 e L he hl hL
  constructor
  · have := eq_firstDesc he a1 (by omega) (by
      rw [a2, h.lid_eq he hl hL]
      rw [pos, a2] at a3
      exact a3)
    rw [a2] at this
    exact this
  · have := eq_lastDesc he b1 (by omega) (by
      rw [b2, h.lid_eq he hl hL, h.count he hl hL]
      rw [pos, b2, Nat.add_mul, Nat.one_mul] at b3
      exact b3)
    rw [b2] at this
    exact this

/-- The test for ancestors by linear ids. -/
theorem isAncestorSpec_of_lin {lin : T.E → Nat → Nat} (hlin : T.LinearIdSpec lin) {isAnc : T.E → T.E → Bool}
    (h : ∀ a x, T.Valid a → T.Valid x →
      (isAnc a x = true ↔ T.level a ≤ T.level x ∧ lin a (T.level a) = lin x (T.level a))) :
    T.IsAncestorSpec isAnc := by
  intro a x ha hx
  rw [h a x ha hx, RTree.desc_iff ha hx]
  refine and_congr_right fun hl => ?_
  have ha' := T.level_le a ha
  have s1 := hlin a (T.level a) ha ha'
  have s2 := hlin x (T.level a) hx ha'
  rw [if_pos (le_refl _), anc_of_level_le (le_refl _)] at s1
  rw [if_pos hl] at s2
  constructor
  · intro h1
    rw [h1, s2] at s1
    exact Option.some.inj s1
  · intro h1
    rw [h1] at s2
    exact pos_unique (nodup_root ha') s1 s2

/-- The comparison by linear ids on the finer of the two levels, then by levels. -/
theorem compareSpec_of_lin {lin : T.E → Nat → Nat} (hlin : T.LinearIdSpec lin) {cmp : T.E → T.E → Int}
    (h : ∀ x y, T.Valid x → T.Valid y →
      (cmp x y < 0 ↔ lin x (max (T.level x) (T.level y)) < lin y (max (T.level x) (T.level y)) ∨
        (lin x (max (T.level x) (T.level y)) = lin y (max (T.level x) (T.level y)) ∧ T.level x < T.level y)) ∧
      (cmp x y = 0 ↔ lin x (max (T.level x) (T.level y)) = lin y (max (T.level x) (T.level y)) ∧
        T.level x = T.level y)) : T.CompareSpec cmp := by
  apply compareSpec_of
  intro x y hx hy
  have lx := T.level_le x hx
  have ly := T.level_le y hy
  rw [← hlin.eq hx (L := max (T.level x) (T.level y)) (by omega) (by omega),
    ← hlin.eq hy (L := max (T.level x) (T.level y)) (by omega) (by omega)]
  exact h x y hx hy

end T8.RTree
