/-
Lemmas on the families that `t8_forest_adapt` finds, in complete and in incomplete trees.
-/
import Verif.Lemmas.AdaptCoarsen2
import Verif.Spec.Adapt

namespace T8

namespace RTree
variable {T : RTree}

/-- An element that overlaps no member of a family is not in the parent. -/
theorem IsFamilyOf.not_desc {g : List T.E} {p x : T.E} (h : T.IsFamilyOf g p)
    (hx : ∀ y ∈ g, T.Before x y ∨ T.Before y x) : ¬ T.Desc p x := by
  obtain ⟨hp, hl, hg⟩ := h
  intro hd
  have hmem : ∀ i, i < T.nc p → T.child p i ∈ g := fun i hi => by
    rw [hg]; exact List.mem_map.2 ⟨i, List.mem_range.2 hi, rfl⟩
  have hout : ∀ i, i < T.nc p → ¬ T.Desc (T.child p i) x ∧ ¬ T.Desc x (T.child p i) := by
    intro i hi
    rcases hx _ (hmem i hi) with h' | h'
    · exact ⟨h'.not_desc.2, h'.not_desc.1⟩
    · exact ⟨h'.not_desc.1, h'.not_desc.2⟩
  rcases desc_cases hp hd with rfl | ⟨_, i, hi, hdi⟩
  · exact (hout 0 (T.nc_pos _ hp)).2 (Desc.child_self hl (T.nc_pos _ hp))
  · exact (hout i hi).1 hdi

/-- The root is the only element of its leaf list. -/
theorem Ordered.level_pos {ls : List T.E} (h : T.Ordered ls) {e : T.E} (he : e ∈ ls) (h0 : 0 < T.level e) :
    ∀ x ∈ ls, 0 < T.level x := by
  intro x hx
  by_contra hcon
  have hr := T.root_unique x (h.1 x hx) (by omega)
  have hne : x ≠ e := by rintro rfl; omega
  have hd : T.Desc x e := by rw [hr]; exact desc_root (h.1 e he)
  obtain ⟨i, hi⟩ := List.mem_iff_getElem?.1 hx
  obtain ⟨j, hj⟩ := List.mem_iff_getElem?.1 he
  rcases Nat.lt_trichotomy i j with hij | rfl | hij
  · exact (Adapt.pairwise_getElem? h.2 hij hi hj).not_desc.1 hd
  · rw [hi] at hj; exact hne (Option.some.inj hj)
  · exact (Adapt.pairwise_getElem? h.2 hij hj hi).not_desc.2 hd

theorem Ordered.root_alone {ls : List T.E} (h : T.Ordered ls) (he : T.root ∈ ls) : ls = [T.root] := by
  have hall : ∀ x ∈ ls, x = T.root := by
    intro x hx
    by_contra hne
    have h0 : 0 < T.level x := by
      rcases Nat.eq_zero_or_pos (T.level x) with h' | h'
      · exact absurd (T.root_unique x (h.1 x hx) h') hne
      · exact h'
    have := h.level_pos hx h0 T.root he
    rw [T.level_root] at this
    omega
  cases ls with
  | nil => simp at he
  | cons a as =>
    cases as with
    | nil => rw [hall a (by simp)]
    | cons b bs =>
      have h2 := (List.pairwise_cons.1 h.2).1 b (by simp)
      rw [hall a (by simp), hall b (by simp)] at h2
      exact absurd h2 Before.irrefl

end RTree

namespace Adapt
open RTree
variable {T : RTree} {S : Scheme T} {σ : Type}

theorem loadFamily_incomplete (ns : Nat) : ∀ (l : List T.E) (zz : Nat), zz ≤ ns →
    loadFamily S false ns l zz = min ns (zz + l.length) := by
  intro l
  induction l with
  | nil => intro zz h; simp [loadFamily]; omega
  | cons e es ih =>
    intro zz h
    rw [loadFamily]
    by_cases hlt : zz < ns
    · rw [if_pos hlt, if_neg (by simp), ih (zz + 1) (by omega), List.length_cons]; congr 1; omega
    · rw [if_neg hlt, List.length_cons]; omega

theorem loadFamily_complete (ns : Nat) : ∀ (l : List T.E) (zz : Nat), zz ≤ ns →
    loadFamily S true ns l zz ≤ ns ∧ loadFamily S true ns l zz ≤ zz + l.length ∧
    (loadFamily S true ns l zz = ns ↔ (∀ i, zz + i < ns → ∃ x : T.E, l[i]? = some x ∧ S.childId x = ((zz + i : Nat) : Int))) := by
  intro l
  induction l with
  | nil =>
    intro zz h
    refine ⟨by simpa [loadFamily] using h, by simp [loadFamily], ?_⟩
    simp only [loadFamily]
    constructor
    · rintro rfl i hi; omega
    · intro h'
      by_contra hne
      obtain ⟨x, hx, _⟩ := h' 0 (by omega)
      simp at hx
  | cons e es ih =>
    intro zz h
    rw [loadFamily]
    by_cases hlt : zz < ns
    · rw [if_pos hlt]
      by_cases hid : S.childId e = (zz : Int)
      · rw [if_neg (by simp [hid])]
        obtain ⟨i1, i2, i3⟩ := ih (zz + 1) (by omega)
        refine ⟨i1, by rw [List.length_cons]; omega, i3.trans ?_⟩
        constructor
        · intro h' i hi
          cases i with
          | zero => exact ⟨e, rfl, by simpa using hid⟩
          | succ i =>
            obtain ⟨x, hx, hx'⟩ := h' i (by omega)
            exact ⟨x, by simpa using hx, by rw [hx']; push_cast; omega⟩
        · intro h' i hi
          obtain ⟨x, hx, hx'⟩ := h' (i + 1) (by omega)
          exact ⟨x, by simpa using hx, by rw [hx']; push_cast; omega⟩
      · rw [if_pos ⟨rfl, hid⟩]
        refine ⟨h, by omega, ?_⟩
        constructor
        · intro h'; omega
        · intro h'
          obtain ⟨x, hx, hx'⟩ := h' 0 (by omega)
          simp only [List.getElem?_cons_zero, Option.some.injEq] at hx
          subst hx
          exact absurd (by simpa using hx') hid
    · rw [if_neg hlt]
      refine ⟨h, by omega, ?_⟩
      constructor
      · intro _ i hi; omega
      · intro _; omega

theorem reduceFamily_spec (hS : S.Lawful) {lc : Nat} {p : T.E} (hlc : 0 < lc) (hp : T.Valid p) :
    ∀ (es : List T.E) (iter : Nat), (∀ x ∈ es, T.Valid x) → ∃ k, k ≤ es.length ∧ reduceFamily S lc p es iter = iter + k ∧
      (∀ x ∈ es.take k, T.level x = lc ∧ T.parent x = p) ∧
      (∀ x : T.E, es[k]? = some x → ¬ (T.level x = lc ∧ T.parent x = p)) := by
  intro es
  induction es with
  | nil => intro iter _; exact ⟨0, by simp, rfl, by simp, by simp⟩
  | cons e es ih =>
    intro iter hv
    have ve := hv e (by simp)
    rw [reduceFamily]
    by_cases hl : T.level e = lc
    · rw [if_neg (by simp [hl])]
      have hiff := hS.isEqual p (T.parent e) hp (T.valid_parent e ve (by omega))
      by_cases heq : S.isEqual p (T.parent e) = true
      · rw [if_pos heq]
        obtain ⟨k, k1, k2, k3, k4⟩ := ih (iter + 1) (fun x hx => hv x (by simp [hx]))
        refine ⟨k + 1, by simpa using k1, by rw [k2]; omega, ?_, ?_⟩
        · intro x hx
          rw [List.take_succ_cons] at hx
          rcases List.mem_cons.1 hx with rfl | hx
          · exact ⟨hl, (hiff.1 heq).symm⟩
          · exact k3 x hx
        · intro x hx
          exact k4 x (by simpa using hx)
      · rw [if_neg heq]
        refine ⟨0, by simp, rfl, by simp, ?_⟩
        intro x hx ⟨_, h2⟩
        simp only [List.getElem?_cons_zero, Option.some.injEq] at hx
        subst hx
        exact heq (hiff.2 h2.symm)
    · rw [if_pos hl]
      refine ⟨0, by simp, rfl, by simp, ?_⟩
      intro x hx ⟨h1, _⟩
      simp only [List.getElem?_cons_zero, Option.some.injEq] at hx
      subst hx
      exact hl h1

theorem overlapped_spec (hS : S.Lawful) {lc m : Nat} {p x : T.E} (hp : T.Valid p) (hx : T.Valid x)
    (hl : T.level p + 1 = lc) :
    ∃ b, overlapped S lc p m x = some b ∧ (b = true ↔ m ≤ T.level x ∧ T.Desc p x) := by
  rw [overlapped]
  by_cases hm : T.level x ≥ m
  · rw [if_pos hm]
    obtain ⟨a, ha, va, hn⟩ := hS.nca p x hp hx
    have hle := hn.1.level_le va
    simp only [Option.bind_eq_bind, ha, Option.bind_some]
    rw [show assertO (T.level a + 1 ≤ lc) = some () from assertO_true (by omega), Option.bind_some]
    refine ⟨_, rfl, ?_⟩
    rw [decide_eq_true_eq]
    constructor
    · intro h
      refine ⟨hm, ?_⟩
      have : p = a := hn.1.eq_of_level va (by omega)
      rw [this]; exact hn.2.1
    · rintro ⟨_, hd⟩
      have := (hn.2.2 p hp Desc.refl hd).level_le hp
      omega
  · rw [if_neg hm]
    exact ⟨false, rfl, by simp; omega⟩

/-- The environment of a process: leaves of the same tree on earlier and later processes exist only for the first and the
last local tree. -/
structure Env (cfg : Cfg) (ltree : Nat) {E : Type} (pre post : List E) : Prop where
  pre : pre ≠ [] → ltree = 0 ∧ 0 < cfg.mpirank
  post : post ≠ [] → ltree + 1 = cfg.numTrees ∧ cfg.mpirank + 1 < cfg.mpisize

theorem _root_.T8.RTree.GroupAt.weaken {pre leaves post : List T.E} {i n : Nat} {p : T.E} (h : GroupAt pre leaves post i n p) :
    GroupAt [] leaves [] i n p :=
  ⟨h.pos, h.le, h.valid, h.level, h.all, fun x hx => h.before x (List.mem_append_right _ (by simpa using hx)),
    fun x hx => h.after x (List.mem_append_left _ (by simpa using hx))⟩

theorem mem_drop_of_getElem? {α : Type} {l : List α} {n k : Nat} {x : α} (h : l[k]? = some x) (hn : n ≤ k) :
    x ∈ l.drop n := by
  rw [List.mem_iff_getElem?]
  exact ⟨k - n, by rw [List.getElem?_drop, show n + (k - n) = k by omega, h]⟩

theorem mem_take_of_getElem? {α : Type} {l : List α} {n k : Nat} {x : α} (h : l[k]? = some x) (hn : k < n) :
    x ∈ l.take n := by
  rw [List.mem_iff_getElem?]
  exact ⟨k, by rw [List.getElem?_take, if_pos hn, h]⟩

theorem mem_group {α : Type} {l : List α} {i n : Nat} {x : α} (h : x ∈ (l.drop i).take n) :
    ∃ k, i ≤ k ∧ k < i + n ∧ l[k]? = some x := by
  obtain ⟨j, hj, hx⟩ := mem_take_getElem? h
  rw [List.getElem?_drop] at hx
  exact ⟨i + j, by omega, by omega, hx⟩

theorem mem_group_of {α : Type} {l : List α} {i n k : Nat} {x : α} (h : l[k]? = some x) (h1 : i ≤ k) (h2 : k < i + n) :
    x ∈ (l.drop i).take n :=
  mem_take_of_getElem? (l := l.drop i) (k := k - i)
    (by rw [List.getElem?_drop, show i + (k - i) = k by omega, h]) (by omega)

theorem _root_.T8.RTree.GroupAt.parent_eq {pre leaves post : List T.E} {i n : Nat} {p e : T.E} (h : GroupAt pre leaves post i n p)
    (he : leaves[i]? = some e) : T.parent e = p ∧ T.level e = T.level p + 1 :=
  h.all e (mem_group_of he le_rfl (by have := h.pos; omega))

set_option maxHeartbeats 1000000 in
/-- The incomplete family test finds exactly the groups that can be coarsened. -/
theorem isIncompleteFamily_spec (hS : S.Lawful) {cfg : Cfg} {lt : Nat} {pre leaves post : List T.E}
    (ho : T.Ordered (pre ++ leaves ++ post)) (env : Env cfg lt pre post) {i : Nat} {e : T.E} (he : leaves[i]? = some e) :
    ∃ n, isIncompleteFamily S cfg lt leaves i (min (S.numSiblings e) (leaves.length - i)) = some n ∧
      n ≤ S.numSiblings e ∧
      (0 < n → 0 < T.level e ∧ GroupAt pre leaves post i n (T.parent e)) ∧
      (∀ n' p, GroupAt [] leaves [] i n' p → ¬ (i = 0 ∧ 0 < T.childId e ∧ lt = 0 ∧ 0 < cfg.mpirank) →
        ¬ (leaves.length < i + T.nc p ∧ lt + 1 = cfg.numTrees ∧ cfg.mpirank + 1 < cfg.mpisize) → n = n') := by
  have hi : i < leaves.length := (List.getElem?_eq_some_iff.1 he).1
  have hpw := ho.2
  rw [List.pairwise_append, List.pairwise_append] at hpw
  obtain ⟨⟨_, hl, hprel⟩, _, hpost⟩ := hpw
  have hv : ∀ x ∈ leaves, T.Valid x := fun x hx => ho.1 x (by simp [hx])
  have hem := List.mem_of_getElem? he
  have ve := hv e hem
  have hns := hS.numSiblings_pos e ve
  set m := min (S.numSiblings e) (leaves.length - i) with hm
  simp only [isIncompleteFamily, he, Option.bind_eq_bind, Option.bind_some]
  rw [show assertO (0 < m ∧ i + m ≤ leaves.length) = some () from assertO_true (by omega), Option.bind_some]
  by_cases h0 : T.level e = 0
  · rw [if_pos h0]
    refine ⟨0, rfl, by omega, by omega, ?_⟩
    intro n' p hg
    have := (hg.parent_eq he).2
    omega
  · rw [if_neg h0]
    have h0' : 0 < T.level e := by omega
    have vp : T.Valid (T.parent e) := T.valid_parent e ve h0'
    have lp := T.level_parent e ve h0'
    have lm := T.level_le e ve
    have hde : T.Desc (T.parent e) e := desc_parent ve h0'
    have hcid := hS.childId e ve h0'
    have hnsp := hS.numSiblings e ve h0'
    generalize hpdef : T.parent e = p at vp lp hde hnsp ⊢
    -- the element before
    have hbefore : ∃ b, (if 0 < S.childId e ∧ 0 < i then (leaves[i - 1]?).bind fun prev =>
          overlapped S (T.level e) p (T.level e) prev else some false) = some b ∧
        (b = true ↔ 0 < T.childId e ∧ 0 < i ∧ ∃ x, leaves[i - 1]? = some x ∧ T.Desc p x) := by
      by_cases hc : 0 < S.childId e ∧ 0 < i
      · rw [if_pos hc]
        obtain ⟨x, hx⟩ : ∃ x : T.E, leaves[i - 1]? = some x := ⟨leaves[i - 1], List.getElem?_eq_getElem (by omega)⟩
        have vx := hv x (List.mem_of_getElem? hx)
        rw [hx, Option.bind_some]
        obtain ⟨b, hb, hbi⟩ := overlapped_spec (lc := T.level e) (m := T.level e) hS vp vx lp
        refine ⟨b, hb, hbi.trans ?_⟩
        have hbe : T.Before x e := pairwise_getElem? hl (by omega) hx he
        constructor
        · rintro ⟨_, hd⟩
          exact ⟨by omega, hc.2, x, rfl, hd⟩
        · rintro ⟨_, _, y, hy, hd⟩
          obtain rfl := Option.some.inj hy
          refine ⟨?_, hd⟩
          by_contra hcon
          have hxp : x = p := hd.eq_of_level vp (by omega)
          rw [hxp] at hbe
          exact hbe.not_desc.1 hde
      · rw [if_neg hc]
        refine ⟨false, rfl, ?_⟩
        simp only [Bool.false_eq_true, false_iff]
        rintro ⟨h1, h2, _⟩
        exact hc ⟨by omega, h2⟩
    obtain ⟨b, hb, hbi⟩ := hbefore
    rw [hb, Option.bind_some]
    cases b with
    | true =>
      rw [if_pos rfl]
      obtain ⟨_, hi0, x, hx, hd⟩ := hbi.1 rfl
      refine ⟨0, rfl, by omega, by omega, ?_⟩
      intro n' p' hg _ _
      have := (hg.parent_eq he).1.symm.trans hpdef
      rw [this] at hg
      exact absurd hd (hg.before x (by simpa using mem_take_of_getElem? hx (by omega)))
    | false =>
      rw [if_neg (by decide)]
      have hbefore' : ∀ y ∈ leaves.take i, ¬ T.Desc p y := by
        intro y hy hd
        obtain ⟨j, hj, hyj⟩ := mem_take_getElem? hy
        rcases Nat.eq_zero_or_pos (T.childId e) with hc | hc
        · exact not_desc_before_first vp ve h0' hpdef hc (pairwise_getElem? hl hj hyj he) hd
        · obtain ⟨x, hx⟩ : ∃ x : T.E, leaves[i - 1]? = some x := ⟨leaves[i - 1], List.getElem?_eq_getElem (by omega)⟩
          have hnx : ¬ T.Desc p x := fun hdx => by
            have := hbi.2 ⟨hc, by omega, x, hx, hdx⟩
            simp at this
          rcases Nat.lt_or_ge j (i - 1) with h | h
          · exact hnx (desc_between vp (pairwise_getElem? hl h hyj hx) (pairwise_getElem? hl (by omega) hx he) hd hde)
          · have : j = i - 1 := by omega
            subst this
            rw [hx] at hyj
            obtain rfl := Option.some.inj hyj
            exact hnx hd
      -- the size of the group
      have hdrop : leaves.drop i = e :: leaves.drop (i + 1) := by
        rw [List.drop_eq_getElem_cons hi]
        congr 1
        rw [List.getElem?_eq_getElem hi] at he
        exact Option.some.inj he
      have htail : ((leaves.drop i).take m).tail = (leaves.drop (i + 1)).take (m - 1) := by
        rw [hdrop]
        obtain ⟨m', hm'⟩ : ∃ m', m = m' + 1 := ⟨m - 1, by omega⟩
        rw [hm', List.take_succ_cons]; rfl
      obtain ⟨k, k1, k2, k3, k4⟩ := reduceFamily_spec hS h0' vp ((leaves.drop (i + 1)).take (m - 1)) 1
        (fun x hx => hv x (List.mem_of_mem_drop (List.mem_of_mem_take hx)))
      have hk : 1 + k ≤ m := by
        have : ((leaves.drop (i + 1)).take (m - 1)).length = m - 1 := by
          rw [List.length_take, List.length_drop]; omega
        omega
      rw [htail, k2, show assertO (0 < 1 + k ∧ 1 + k ≤ m) = some () from assertO_true (by omega), Option.bind_some]
      have hall : ∀ x ∈ (leaves.drop i).take (1 + k), T.parent x = p ∧ T.level x = T.level p + 1 := by
        intro x hx
        rw [hdrop, Nat.add_comm, List.take_succ_cons] at hx
        rcases List.mem_cons.1 hx with rfl | hx
        · exact ⟨hpdef, by omega⟩
        · have := k3 x (by rw [List.take_take, Nat.min_eq_left (by omega)]; exact hx)
          exact ⟨this.2, by omega⟩
      have hnext : ∀ x, leaves[i + (1 + k)]? = some x → 1 + k < m → ¬ (T.level x = T.level e ∧ T.parent x = p) := by
        intro x hx hlt
        refine k4 x ?_
        rw [List.getElem?_take, if_pos (by omega), List.getElem?_drop, show i + 1 + k = i + (1 + k) by omega]
        exact hx
      -- the element behind
      have hbehind : ∃ b, (if 1 + k < m then (((leaves.drop i).take m)[1 + k]?).bind fun next =>
            overlapped S (T.level e) p (T.level e + 1) next else some false) = some b ∧
          (b = true ↔ 1 + k < m ∧ ∃ x, leaves[i + (1 + k)]? = some x ∧ T.Desc p x) := by
        by_cases hc : 1 + k < m
        · rw [if_pos hc]
          obtain ⟨x, hx⟩ : ∃ x : T.E, leaves[i + (1 + k)]? = some x :=
            ⟨leaves[i + (1 + k)], List.getElem?_eq_getElem (by omega)⟩
          have vx := hv x (List.mem_of_getElem? hx)
          rw [List.getElem?_take, if_pos hc, List.getElem?_drop, hx, Option.bind_some]
          obtain ⟨b, hb, hbi⟩ := overlapped_spec (lc := T.level e) (m := T.level e + 1) hS vp vx lp
          refine ⟨b, hb, hbi.trans ?_⟩
          constructor
          · rintro ⟨_, hd⟩
            exact ⟨hc, x, rfl, hd⟩
          · rintro ⟨_, y, hy, hd⟩
            obtain rfl := Option.some.inj hy
            refine ⟨?_, hd⟩
            by_contra hcon
            have hbe : T.Before e x := pairwise_getElem? hl (by omega) he hx
            have hle := hd.level_le vp
            rcases Nat.lt_or_ge (T.level x) (T.level e) with h | h
            · have hxp : x = p := hd.eq_of_level vp (by omega)
              rw [hxp] at hbe
              exact hbe.not_desc.2 hde
            · exact hnext x hx hc ⟨by omega, hd.parent_eq vp (by omega)⟩
        · rw [if_neg hc]
          refine ⟨false, rfl, ?_⟩
          simp [hc]
      obtain ⟨b', hb', hbi'⟩ := hbehind
      rw [hb', Option.bind_some]
      cases b' with
      | true =>
        rw [if_pos rfl]
        obtain ⟨hlt, x, hx, hd⟩ := hbi'.1 rfl
        refine ⟨0, rfl, by omega, by omega, ?_⟩
        intro n' p' hg _ _
        have hpp := (hg.parent_eq he).1.symm.trans hpdef
        rw [hpp] at hg
        exfalso
        rcases Nat.lt_or_ge (1 + k) n' with h | h
        · have := hg.all x (mem_group_of hx (by omega) (by omega))
          exact hnext x hx hlt ⟨by omega, this.1⟩
        · exact hg.after x (by simpa using mem_drop_of_getElem? hx (by omega)) hd
      | false =>
        rw [if_neg (by decide), show assertO (1 + k ≤ S.numSiblings e) = some () from assertO_true (by omega), Option.bind_some]
        -- exactness for both remaining cases
        have hexact : ∀ n' p', GroupAt [] leaves [] i n' p' → n' = 1 + k := by
          intro n' p' hg
          have hpp := (hg.parent_eq he).1.symm.trans hpdef
          rw [hpp] at hg
          have hle := hg.le
          have hsz : n' ≤ T.nc p := by
            have h' := (siblings_length (g := (leaves.drop i).take n') (p := p)
              (fun x hx => hv x (List.mem_of_mem_drop (List.mem_of_mem_take hx)))
              (hl.sublist ((List.take_sublist _ _).trans (List.drop_sublist _ _)))
              (fun x hx => ⟨(hg.all x hx).1, by rw [(hg.all x hx).2]; omega⟩)).1
            rw [List.length_take, List.length_drop] at h'
            omega
          rcases Nat.lt_trichotomy n' (1 + k) with h | h | h
          · obtain ⟨x, hx⟩ : ∃ x : T.E, leaves[i + n']? = some x := ⟨leaves[i + n'], List.getElem?_eq_getElem (by omega)⟩
            have h1 := hall x (mem_group_of hx (by omega) (by omega))
            refine absurd ?_ (hg.after x (by simpa using mem_drop_of_getElem? hx le_rfl))
            show T.Desc p x
            rw [← h1.1]
            exact desc_parent (hv x (List.mem_of_getElem? hx)) (by omega)
          · exact h
          · obtain ⟨x, hx⟩ : ∃ x : T.E, leaves[i + (1 + k)]? = some x :=
              ⟨leaves[i + (1 + k)], List.getElem?_eq_getElem (by omega)⟩
            have h1 := hg.all x (mem_group_of hx (by omega) (by omega))
            exact absurd ⟨by omega, h1.1⟩ (hnext x hx (by omega))
        by_cases hc1 : i = 0 ∧ 0 < S.childId e ∧ lt = 0 ∧ 0 < cfg.mpirank
        · rw [if_pos hc1]
          refine ⟨0, rfl, by omega, by omega, ?_⟩
          intro n' p' hg hno _
          exact absurd ⟨hc1.1, by omega, hc1.2.2⟩ hno
        · rw [if_neg hc1]
          by_cases hc2 : (i : Int) > (leaves.length : Int) - (S.numSiblings e : Int) ∧ lt + 1 = cfg.numTrees ∧
              cfg.mpirank + 1 < cfg.mpisize
          · rw [if_pos hc2]
            refine ⟨0, rfl, by omega, by omega, ?_⟩
            intro n' p' hg _ hno
            have hpp := (hg.parent_eq he).1.symm.trans hpdef
            rw [hpp] at hno
            exact absurd ⟨by show leaves.length < i + T.nc p; omega, hc2.2⟩ hno
          · rw [if_neg hc2]
            refine ⟨1 + k, rfl, by omega, fun _ => ⟨h0', by omega, by omega, vp, by omega, hall, ?_, ?_⟩,
              fun n' p' hg _ _ => (hexact n' p' hg).symm⟩
            · intro x hx
              rcases List.mem_append.1 hx with hx | hx
              · intro hd
                rcases Nat.eq_zero_or_pos (T.childId e) with hc | hc
                · exact not_desc_before_first vp ve h0' hpdef hc (hprel x hx e hem) hd
                · obtain ⟨e1, e2⟩ := env.pre (List.ne_nil_of_mem hx)
                  have hi0 : 0 < i := by
                    by_contra hcon
                    exact hc1 ⟨by omega, by omega, e1, e2⟩
                  obtain ⟨y, hy⟩ : ∃ y : T.E, leaves[i - 1]? = some y :=
                    ⟨leaves[i - 1], List.getElem?_eq_getElem (by omega)⟩
                  exact hbefore' y (mem_take_of_getElem? hy (by omega))
                    (desc_between vp (hprel x hx y (List.mem_of_getElem? hy)) (pairwise_getElem? hl (by omega) hy he) hd hde)
              · exact hbefore' x hx
            · intro x hx
              have hlater : ∀ y j, leaves[j]? = some y → j < i + (1 + k) → T.Before y x := by
                intro y j hy hj
                rcases List.mem_append.1 hx with hx | hx
                · obtain ⟨j', hj', hx'⟩ := mem_drop_getElem? hx
                  exact pairwise_getElem? hl (by omega) hy hx'
                · exact hpost y (by simp [List.mem_of_getElem? hy]) x hx
              rcases Nat.lt_or_ge (1 + k) m with h | h
              · obtain ⟨y, hy⟩ : ∃ y : T.E, leaves[i + (1 + k)]? = some y :=
                  ⟨leaves[i + (1 + k)], List.getElem?_eq_getElem (by omega)⟩
                have hny : ¬ T.Desc p y := fun hd => by
                  have := hbi'.2 ⟨h, y, hy, hd⟩
                  simp at this
                intro hd
                rcases List.mem_append.1 hx with hx | hx
                · obtain ⟨j', hj', hx'⟩ := mem_drop_getElem? hx
                  rcases Nat.lt_or_ge (i + (1 + k)) j' with h' | h'
                  · exact hny (desc_between vp (pairwise_getElem? hl (by omega) he hy) (pairwise_getElem? hl h' hy hx') hde hd)
                  · have : j' = i + (1 + k) := by omega
                    subst this
                    rw [hy] at hx'
                    obtain rfl := Option.some.inj hx'
                    exact hny hd
                · exact hny (desc_between vp (pairwise_getElem? hl (by omega) he hy)
                    (hpost y (by simp [List.mem_of_getElem? hy]) x hx) hde hd)
              · rcases Nat.lt_or_ge (1 + k) (S.numSiblings e) with h' | h'
                · -- the group ends the local leaves
                  exfalso
                  rcases List.mem_append.1 hx with hx | hx
                  · rw [List.drop_eq_nil_of_le (by omega)] at hx
                    simp at hx
                  · obtain ⟨e1, e2⟩ := env.post (List.ne_nil_of_mem hx)
                    exact hc2 ⟨by omega, e1, e2⟩
                · have hfam : T.IsFamilyOf ((leaves.drop i).take (1 + k)) p := by
                    refine siblings_full (fun x hx => hv x (List.mem_of_mem_drop (List.mem_of_mem_take hx)))
                      (hl.sublist ((List.take_sublist _ _).trans (List.drop_sublist _ _)))
                      (fun x hx => ⟨(hall x hx).1, by rw [(hall x hx).2]; omega⟩) ?_ vp (by omega)
                    rw [List.length_take, List.length_drop]
                    omega
                  refine hfam.not_desc fun y hy => Or.inr ?_
                  obtain ⟨j, _, hj, hy'⟩ := mem_group hy
                  exact hlater y j hy' hj

/-- What the family test of a forest that is not marked as incomplete needs: the leaves are neighbors in a complete tree, or the
test is right for all arrays. -/
def Covered (S : Scheme T) (cfg : Cfg) (leaves : List T.E) : Prop :=
  cfg.incomplete = false → S.ExactFamilies ∨ T.Segment leaves

/-- The families that adapt finds. -/
theorem familySize_spec (hS : S.Lawful) {cfg : Cfg} {lt : Nat} {pre leaves post : List T.E}
    (ho : T.Ordered (pre ++ leaves ++ post)) (env : Env cfg lt pre post) (hc : Covered S cfg leaves) {i : Nat} {e : T.E}
    (he : leaves[i]? = some e) :
    ∃ n, familySize S cfg lt leaves i (S.numSiblings e) = some n ∧ n ≤ S.numSiblings e ∧
      (0 < n → 0 < T.level e ∧ GroupAt pre leaves post i n (T.parent e) ∧
        (cfg.incomplete = false → T.IsFamilyOf ((leaves.drop i).take n) (T.parent e))) ∧
      (cfg.incomplete = false → ∀ p, T.IsFamilyOf ((leaves.drop i).take (T.nc p)) p → n = T.nc p) ∧
      (cfg.incomplete = true → ∀ n' p, GroupAt [] leaves [] i n' p →
        ¬ (i = 0 ∧ 0 < T.childId e ∧ lt = 0 ∧ 0 < cfg.mpirank) →
        ¬ (leaves.length < i + T.nc p ∧ lt + 1 = cfg.numTrees ∧ cfg.mpirank + 1 < cfg.mpisize) → n = n') := by
  have hi : i < leaves.length := (List.getElem?_eq_some_iff.1 he).1
  have hpw := ho.2
  rw [List.pairwise_append, List.pairwise_append] at hpw
  obtain ⟨⟨_, hl, hprel⟩, _, hpost⟩ := hpw
  have hv : ∀ x ∈ leaves, T.Valid x := fun x hx => ho.1 x (by simp [hx])
  have hem := List.mem_of_getElem? he
  have ve := hv e hem
  have hns := hS.numSiblings_pos e ve
  have hdrop : leaves.drop i = e :: leaves.drop (i + 1) := by
    rw [List.drop_eq_getElem_cons hi]
    congr 1
    rw [List.getElem?_eq_getElem hi] at he
    exact Option.some.inj he
  rw [familySize]
  cases hinc : cfg.incomplete with
  | true =>
    rw [if_pos rfl, Bool.not_true, loadFamily_incomplete _ _ _ (by omega), Nat.zero_add, List.length_drop]
    obtain ⟨n, h1, h2, h3, h4⟩ := isIncompleteFamily_spec hS ho env he
    exact ⟨n, h1, h2, fun h => ⟨(h3 h).1, (h3 h).2, by simp⟩, by simp, fun _ => h4⟩
  | false =>
    rw [if_neg (by decide), Bool.not_false]
    obtain ⟨z1, z2, z3⟩ := loadFamily_complete (S := S) (S.numSiblings e) (leaves.drop i) 0 (by omega)
    by_cases hzz : loadFamily S true (S.numSiblings e) (leaves.drop i) 0 = S.numSiblings e
    · rw [if_pos hzz]
      have hlen : S.numSiblings e ≤ leaves.length - i := by
        rw [List.length_drop] at z2; omega
      rcases Nat.eq_zero_or_pos (T.level e) with h | h0
      · -- the root alone is not a family
        have her := T.root_unique e ve h
        have hroot := ho.root_alone (by simp [← her, hem])
        have hlen1 : leaves.length = 1 := by
          have h5 := congrArg List.length hroot
          simp only [List.length_append, List.length_singleton] at h5
          omega
        have hid := z3.1 hzz 0 (by omega)
        rw [hdrop] at hid
        obtain ⟨x, hx, hx'⟩ := hid
        simp only [List.getElem?_cons_zero, Option.some.injEq] at hx
        subst hx
        have htake : (leaves.drop i).take (S.numSiblings e) = [T.root] := by
          rw [hdrop, List.drop_eq_nil_of_le (by omega), show S.numSiblings e = 1 by omega, her]; rfl
        have hno : S.areFamily [T.root] = some false := by
          rcases hS.root_no_family with h' | h' | h'
          · exact absurd (by rw [← her]; simpa using hx') h'
          · exact absurd (by rw [← her]; omega) h'
          · exact h'
        rw [htake, hno]
        refine ⟨0, rfl, by omega, by omega, ?_, by simp⟩
        intro _ p hp
        exfalso
        have hem' : e ∈ (leaves.drop i).take (T.nc p) := by
          rw [hdrop]
          obtain ⟨m, hm⟩ : ∃ m, T.nc p = m + 1 := ⟨T.nc p - 1, by have := T.nc_pos p hp.1; omega⟩
          rw [hm, List.take_succ_cons]; simp
        obtain ⟨g1, g2, g3⟩ := hp
        rw [g3] at hem'
        obtain ⟨j, hj, rfl⟩ := List.mem_map.1 hem'
        have := T.level_child p j g1 g2 (List.mem_range.1 hj)
        omega
      have hallpos := (ho.level_pos (by simp [hem]) h0)
      have hmem : ∀ x ∈ (leaves.drop i).take (S.numSiblings e), x ∈ leaves :=
        fun x hx => List.mem_of_mem_drop (List.mem_of_mem_take hx)
      have hlen' : ((leaves.drop i).take (S.numSiblings e)).length = S.numSiblings e := by
        rw [List.length_take, List.length_drop]; omega
      have hhead : ((leaves.drop i).take (S.numSiblings e)).head? = some e := by
        rw [hdrop]
        obtain ⟨m, hm⟩ : ∃ m, S.numSiblings e = m + 1 := ⟨S.numSiblings e - 1, by omega⟩
        rw [hm, List.take_succ_cons]; rfl
      obtain ⟨b, hb, hbi⟩ := hS.family hhead hlen' (fun x hx => hv x (hmem x hx))
        (fun x hx => hallpos x (by simp [hmem x hx])) ((hc hinc).imp_right fun h => h.part i _)
      rw [hb]
      have hnsp := hS.numSiblings e ve h0
      cases b with
      | false =>
        refine ⟨0, rfl, by omega, by omega, ?_, by simp⟩
        intro _ p hp
        exfalso
        have hem' : e ∈ (leaves.drop i).take (T.nc p) := by
          rw [hdrop]
          obtain ⟨m, hm⟩ : ∃ m, T.nc p = m + 1 := ⟨T.nc p - 1, by have := T.nc_pos p hp.1; omega⟩
          rw [hm, List.take_succ_cons]; simp
        have hpar : T.parent e = p := by
          obtain ⟨g1, g2, g3⟩ := hp
          rw [g3] at hem'
          obtain ⟨j, hj, rfl⟩ := List.mem_map.1 hem'
          exact T.parent_child p j g1 g2 (List.mem_range.1 hj)
        have := hbi.2 ⟨p, by rw [hnsp, hpar]; exact hp⟩
        simp at this
      | true =>
        obtain ⟨p, hp⟩ := hbi.1 rfl
        have hpar : ∀ x ∈ (leaves.drop i).take (S.numSiblings e), T.parent x = p ∧ T.level x = T.level p + 1 := by
          obtain ⟨g1, g2, g3⟩ := hp
          intro x hx
          rw [g3] at hx
          obtain ⟨j, hj, rfl⟩ := List.mem_map.1 hx
          exact ⟨T.parent_child p j g1 g2 (List.mem_range.1 hj), T.level_child p j g1 g2 (List.mem_range.1 hj)⟩
        have hpe := (hpar e (List.mem_of_head? hhead)).1
        subst hpe
        refine ⟨S.numSiblings e, rfl, le_rfl, fun _ => ⟨h0, ⟨hns, by omega, hp.1, hp.2.1, hpar, ?_, ?_⟩, fun _ => hp⟩, ?_, by simp⟩
        · intro x hx
          refine hp.not_desc fun y hy => Or.inl ?_
          obtain ⟨k, hk1, hk2, hy'⟩ := mem_group hy
          rcases List.mem_append.1 hx with hx | hx
          · exact hprel x hx y (List.mem_of_getElem? hy')
          · obtain ⟨j, hj, hx'⟩ := mem_take_getElem? hx
            exact pairwise_getElem? hl (by omega) hx' hy'
        · intro x hx
          refine hp.not_desc fun y hy => Or.inr ?_
          obtain ⟨k, hk1, hk2, hy'⟩ := mem_group hy
          rcases List.mem_append.1 hx with hx | hx
          · obtain ⟨j, hj, hx'⟩ := mem_drop_getElem? hx
            exact pairwise_getElem? hl (by omega) hy' hx'
          · exact hpost y (by simp [List.mem_of_getElem? hy']) x hx
        · intro _ p' hp'
          have hem' : e ∈ (leaves.drop i).take (T.nc p') := by
            rw [hdrop]
            obtain ⟨m, hm⟩ : ∃ m, T.nc p' = m + 1 := ⟨T.nc p' - 1, by have := T.nc_pos p' hp'.1; omega⟩
            rw [hm, List.take_succ_cons]; simp
          obtain ⟨g1, g2, g3⟩ := hp'
          rw [g3] at hem'
          obtain ⟨j, hj, rfl⟩ := List.mem_map.1 hem'
          rw [hnsp, T.parent_child p' j g1 g2 (List.mem_range.1 hj)]
    · rw [if_neg hzz]
      refine ⟨0, rfl, by omega, by omega, ?_, by simp⟩
      intro _ p hp
      exfalso
      obtain ⟨g1, g2, g3⟩ := hp
      have hn := T.nc_pos p g1
      have hget : ∀ j, j < T.nc p → (leaves.drop i)[j]? = some (T.child p j) := by
        intro j hj
        have := congrArg (fun l : List T.E => l[j]?) g3
        simp only [List.getElem?_take, if_pos hj, List.getElem?_map, List.getElem?_range hj, Option.map_some] at this
        exact this
      have hee : e = T.child p 0 := by
        have := hget 0 hn
        rw [hdrop] at this
        simpa using this
      have hnsp : S.numSiblings e = T.nc p := by
        rw [hS.numSiblings e ve (by rw [hee, T.level_child p 0 g1 g2 hn]; omega), hee, T.parent_child p 0 g1 g2 hn]
      refine hzz (z3.2 fun j hj => ?_)
      rw [Nat.zero_add] at hj
      rw [hnsp] at hj
      refine ⟨_, hget j hj, ?_⟩
      rw [Nat.zero_add, hS.childId _ (T.valid_child p j g1 g2 hj) (by rw [T.level_child p j g1 g2 hj]; omega),
        T.childId_child p j g1 g2 hj]

/-- The search for a family always gives an answer, also if the leaves have gaps and the family test is not exact. -/
theorem familySize_some (hS : S.Lawful) {cfg : Cfg} {lt : Nat} {leaves : List T.E} (ho : T.Ordered leaves) {i : Nat} {e : T.E}
    (he : leaves[i]? = some e) :
    ∃ n, familySize S cfg lt leaves i (S.numSiblings e) = some n ∧ n ≤ S.numSiblings e := by
  have hi : i < leaves.length := (List.getElem?_eq_some_iff.1 he).1
  have ve := ho.1 e (List.mem_of_getElem? he)
  have hns := hS.numSiblings_pos e ve
  have hdrop : leaves.drop i = e :: leaves.drop (i + 1) := by
    rw [List.drop_eq_getElem_cons hi]
    congr 1
    rw [List.getElem?_eq_getElem hi] at he
    exact Option.some.inj he
  have ho' : T.Ordered ([] ++ leaves ++ []) := by simpa using ho
  cases hinc : cfg.incomplete with
  | true =>
    obtain ⟨n, h1, h2, _⟩ := familySize_spec (lt := lt) hS ho' ⟨by simp, by simp⟩ (fun h => by rw [hinc] at h; cases h) he
    exact ⟨n, h1, h2⟩
  | false =>
    rw [familySize, hinc, if_neg (by decide), Bool.not_false]
    obtain ⟨z1, z2, z3⟩ := loadFamily_complete (S := S) (S.numSiblings e) (leaves.drop i) 0 (by omega)
    by_cases hzz : loadFamily S true (S.numSiblings e) (leaves.drop i) 0 = S.numSiblings e
    · rw [if_pos hzz]
      have hlen : S.numSiblings e ≤ leaves.length - i := by
        rw [List.length_drop] at z2; omega
      have hb : ∃ b, S.areFamily ((leaves.drop i).take (S.numSiblings e)) = some b := by
        rcases Nat.eq_zero_or_pos (T.level e) with h | h0
        · have her := T.root_unique e ve h
          have hroot := ho.root_alone (by rw [← her]; exact List.mem_of_getElem? he)
          have hlen1 : leaves.length = 1 := by rw [hroot]; rfl
          have hid := z3.1 hzz 0 (by omega)
          rw [hdrop] at hid
          obtain ⟨x, hx, hx'⟩ := hid
          simp only [List.getElem?_cons_zero, Option.some.injEq] at hx
          subst hx
          have htake : (leaves.drop i).take (S.numSiblings e) = [T.root] := by
            rw [hdrop, List.drop_eq_nil_of_le (by omega), show S.numSiblings e = 1 by omega, her]; rfl
          rcases hS.root_no_family with h' | h' | h'
          · exact absurd (by rw [← her]; simpa using hx') h'
          · exact absurd (by rw [← her]; omega) h'
          · exact ⟨_, by rw [htake]; exact h'⟩
        · have hmem : ∀ x ∈ (leaves.drop i).take (S.numSiblings e), x ∈ leaves :=
            fun x hx => List.mem_of_mem_drop (List.mem_of_mem_take hx)
          have hhead : ((leaves.drop i).take (S.numSiblings e)).head? = some e := by
            rw [hdrop]
            obtain ⟨m, hm⟩ : ∃ m, S.numSiblings e = m + 1 := ⟨S.numSiblings e - 1, by omega⟩
            rw [hm, List.take_succ_cons]; rfl
          obtain ⟨b, hb, _⟩ := hS.areFamily _ e hhead (by rw [List.length_take, List.length_drop]; omega)
            (fun x hx => ho.1 x (hmem x hx)) (fun x hx => ho.level_pos (List.mem_of_getElem? he) h0 x (hmem x hx))
          exact ⟨b, hb⟩
      obtain ⟨b, hb⟩ := hb
      rw [hb]
      cases b
      · exact ⟨0, rfl, by omega⟩
      · exact ⟨_, rfl, le_rfl⟩
    · rw [if_neg hzz]
      exact ⟨0, rfl, by omega⟩

end Adapt
end T8
