/-
C45: vertex to tree lists invert tree to vertex lists.
-/
import Verif.Model.VertexConn
import Mathlib.Data.List.Perm.Basic
import Mathlib.Data.List.Nodup
import Mathlib.Data.List.Count
import Mathlib.Tactic.Linarith

namespace T8.VertexConn

/-- Specification: the vertex to tree list `m` inverts the tree to vertex list `ttv`. There is one entry per vertex, no
entry is empty, and a pair (tree, corner) is in the list of a vertex exactly once if this corner of this tree has this
vertex id, and not at all otherwise. -/
structure Inverts (ttv : List (List Int)) (m : Vtt) : Prop where
  keys : (m.map (·.1)).Nodup
  nonempty : ∀ e ∈ m, e.2 ≠ []
  count : ∀ v t c, ((get m v).getD []).count (t, c) = if (ttv[t]?.bind (·[c]?)) = some v then 1 else 0

/-! ### Adding pairs -/

theorem mem_keys_push (m : Vtt) (v : Int) (p : Pair) (w : Int) :
    w ∈ (push m v p).map (·.1) ↔ w ∈ m.map (·.1) ∨ w = v := by
  induction m with
  | nil => simp [push]
  | cons e m ih =>
    obtain ⟨u, l⟩ := e
    rw [push]
    split_ifs with h
    · subst h; simp only [List.map_cons, List.mem_cons]; tauto
    · simp only [List.map_cons, List.mem_cons, ih]; tauto

theorem nodup_push (m : Vtt) (v : Int) (p : Pair) (h : (m.map (·.1)).Nodup) : ((push m v p).map (·.1)).Nodup := by
  induction m with
  | nil => simp [push]
  | cons e m ih =>
    obtain ⟨u, l⟩ := e
    rw [List.map_cons, List.nodup_cons] at h
    rw [push]
    split_ifs with hu
    · rw [List.map_cons, List.nodup_cons]; exact h
    · rw [List.map_cons, List.nodup_cons, mem_keys_push]
      refine ⟨?_, ih h.2⟩
      rintro (h1 | h1)
      · exact h.1 h1
      · exact hu h1

theorem nonempty_push (m : Vtt) (v : Int) (p : Pair) (h : ∀ e ∈ m, e.2 ≠ []) : ∀ e ∈ push m v p, e.2 ≠ [] := by
  induction m with
  | nil => simp [push]
  | cons e m ih =>
    obtain ⟨u, l⟩ := e
    rw [push]
    split_ifs with hu
    · intro e he
      rcases List.mem_cons.1 he with rfl | he
      · simp
      · exact h e (List.mem_cons_of_mem _ he)
    · intro e he
      rcases List.mem_cons.1 he with rfl | he
      · exact h (u, l) List.mem_cons_self
      · exact ih (fun e he => h e (List.mem_cons_of_mem _ he)) e he

theorem get_cons (u : Int) (l : List Pair) (m : Vtt) (v : Int) :
    get ((u, l) :: m) v = if u = v then some l else get m v := by
  unfold get
  by_cases h : u = v <;> simp [h]

theorem get_push (m : Vtt) (v : Int) (p : Pair) (w : Int) :
    (get (push m v p) w).getD [] = (get m w).getD [] ++ if w = v then [p] else [] := by
  induction m with
  | nil => rw [push, get_cons]; by_cases h : v = w <;> simp [h, get, eq_comm]
  | cons e m ih =>
    obtain ⟨u, l⟩ := e
    rw [push]
    split_ifs with hu hw hw
    · subst hu hw; simp [get_cons]
    · subst hu; simp [get_cons, Ne.symm hw]
    · subst hw; simp only [get_cons, if_neg hu, ih, if_true]
    · by_cases h : u = w
      · simp [get_cons, h]
      · rw [get_cons, get_cons, if_neg h, if_neg h, ih, if_neg hw]

/-- Adding a sequence of (vertex, pair). -/
def pushAll (m : Vtt) (ops : List (Int × Pair)) : Vtt := ops.foldl (fun m o => push m o.1 o.2) m

theorem pushAll_spec (ops : List (Int × Pair)) : ∀ m : Vtt, (m.map (·.1)).Nodup → (∀ e ∈ m, e.2 ≠ []) →
    ((pushAll m ops).map (·.1)).Nodup ∧ (∀ e ∈ pushAll m ops, e.2 ≠ []) ∧
    ∀ w, (get (pushAll m ops) w).getD [] = (get m w).getD [] ++ (ops.filter (fun o => o.1 = w)).map (·.2) := by
  induction ops with
  | nil => intro m h1 h2; exact ⟨h1, h2, fun w => by simp [pushAll]⟩
  | cons o ops ih =>
    intro m h1 h2
    obtain ⟨a, b, c⟩ := ih (push m o.1 o.2) (nodup_push m _ _ h1) (nonempty_push m _ _ h2)
    refine ⟨a, b, fun w => ?_⟩
    show (get (pushAll (push m o.1 o.2) ops) w).getD [] = _
    rw [c w, get_push, List.filter_cons]
    by_cases h : o.1 = w
    · simp [h]
    · simp [h, Ne.symm h]

/-- The pairs of one tree, and of all trees, in the order of `build_from_ttv`. -/
def treeOps (t : Nat) (vs : List Int) (c : Nat) : List (Int × Pair) := (vs.zipIdx c).map (fun x => (x.1, (t, x.2)))

def allOps (ttv : List (List Int)) (t : Nat) : List (Int × Pair) :=
  (ttv.zipIdx t).flatMap (fun x => treeOps x.2 x.1 0)

theorem addTree_eq (classes : List Nat) (t n : Nat) (hn : classes[t]? = some n) : ∀ (vs : List Int) (c : Nat) (m : Vtt),
    c + vs.length ≤ n → (∀ v ∈ vs, 0 ≤ v) → addTree classes t vs c m = some (pushAll m (treeOps t vs c))
  | [], c, m, _, _ => rfl
  | v :: vs, c, m, h, h0 => by
    rw [List.length_cons] at h
    rw [addTree, addVertex, show assertO (0 ≤ v) = some () from assertO_true (h0 v List.mem_cons_self), hn]
    simp only [Option.bind_eq_bind, Option.bind_some]
    rw [show assertO (c < n) = some () from assertO_true (by omega)]
    simp only [Option.bind_some]
    rw [addTree_eq classes t n hn vs (c + 1) _ (by omega) (fun v hv => h0 v (List.mem_cons_of_mem _ hv))]
    simp [treeOps, pushAll, List.zipIdx_cons]

theorem addTrees_eq (classes : List Nat) : ∀ (ttv : List (List Int)) (t : Nat) (m : Vtt),
    (∀ i vs, ttv[i]? = some vs → classes[t + i]? = some vs.length ∧ ∀ v ∈ vs, 0 ≤ v) →
    addTrees classes ttv t m = some (pushAll m (allOps ttv t))
  | [], t, m, _ => rfl
  | vs :: ttv, t, m, h => by
    obtain ⟨h1, h2⟩ := h 0 vs rfl
    rw [addTrees, addTree_eq classes t vs.length h1 vs 0 m (by omega) h2]
    simp only [Option.bind_eq_bind, Option.bind_some]
    rw [addTrees_eq classes ttv (t + 1) _ (fun i vs hi => by
      have := h (i + 1) vs (by simpa using hi)
      rwa [show t + (i + 1) = t + 1 + i by omega] at this)]
    simp [allOps, pushAll, List.zipIdx_cons, List.foldl_append]

theorem mem_treeOps {t c : Nat} {vs : List Int} {v : Int} {p : Pair} :
    (v, p) ∈ treeOps t vs c ↔ ∃ i, vs[i]? = some v ∧ p = (t, c + i) := by
  unfold treeOps
  simp only [List.mem_map, Prod.mk.injEq, Prod.exists]
  constructor
  · rintro ⟨a, i, h, rfl, rfl⟩
    obtain ⟨h1, h2⟩ := List.mk_mem_zipIdx_iff_le_and_getElem?_sub.1 h
    exact ⟨i - c, h2, by rw [Nat.add_sub_cancel' h1]⟩
  · rintro ⟨i, h, rfl⟩
    exact ⟨v, c + i, List.mk_mem_zipIdx_iff_le_and_getElem?_sub.2 ⟨by omega, by rw [Nat.add_sub_cancel_left]; exact h⟩,
      rfl, rfl⟩

theorem mem_allOps {t : Nat} {ttv : List (List Int)} {v : Int} {p : Pair} :
    (v, p) ∈ allOps ttv t ↔ ∃ i vs c, ttv[i]? = some vs ∧ vs[c]? = some v ∧ p = (t + i, c) := by
  unfold allOps
  simp only [List.mem_flatMap, Prod.exists]
  constructor
  · rintro ⟨vs, j, h, hm⟩
    obtain ⟨h1, h2⟩ := List.mk_mem_zipIdx_iff_le_and_getElem?_sub.1 h
    obtain ⟨c, h3, h4⟩ := mem_treeOps.1 hm
    exact ⟨j - t, vs, c, h2, h3, by rw [h4, Nat.add_sub_cancel' h1, Nat.zero_add]⟩
  · rintro ⟨i, vs, c, h1, h2, h3⟩
    refine ⟨vs, t + i, List.mk_mem_zipIdx_iff_le_and_getElem?_sub.2 ⟨by omega, by rw [Nat.add_sub_cancel_left]; exact h1⟩,
      mem_treeOps.2 ⟨c, h2, by rw [h3, Nat.zero_add]⟩⟩

theorem treeOps_sorted (t : Nat) : ∀ (vs : List Int) (c : Nat),
    (treeOps t vs c).Pairwise (fun a b => pairLess a.2 b.2 = true)
  | [], _ => List.Pairwise.nil
  | v :: vs, c => by
    have e : treeOps t (v :: vs) c = (v, (t, c)) :: treeOps t vs (c + 1) := by simp [treeOps, List.zipIdx_cons]
    rw [e, List.pairwise_cons]
    refine ⟨?_, treeOps_sorted t vs (c + 1)⟩
    rintro ⟨w, p⟩ hp
    obtain ⟨i, _, rfl⟩ := mem_treeOps.1 hp
    simp [pairLess]; omega

theorem allOps_sorted : ∀ (ttv : List (List Int)) (t : Nat),
    (allOps ttv t).Pairwise (fun a b => pairLess a.2 b.2 = true)
  | [], _ => List.Pairwise.nil
  | vs :: ttv, t => by
    have e : allOps (vs :: ttv) t = treeOps t vs 0 ++ allOps ttv (t + 1) := by simp [allOps, List.zipIdx_cons]
    rw [e, List.pairwise_append]
    refine ⟨treeOps_sorted t vs 0, allOps_sorted ttv (t + 1), ?_⟩
    rintro ⟨w, p⟩ hp ⟨w', p'⟩ hp'
    obtain ⟨i, _, rfl⟩ := mem_treeOps.1 hp
    obtain ⟨j, _, _, _, _, rfl⟩ := mem_allOps.1 hp'
    simp only [pairLess]; rw [if_neg (by omega)]; simp; omega

theorem pairLess_irrefl (p : Pair) : pairLess p p = false := by simp [pairLess]

theorem pairs_nodup (ttv : List (List Int)) (t : Nat) : ((allOps ttv t).map (·.2)).Nodup := by
  rw [List.nodup_iff_pairwise_ne, List.pairwise_map]
  refine (allOps_sorted ttv t).imp ?_
  intro a b h he
  rw [he, pairLess_irrefl] at h
  exact absurd h (by decide)

theorem filter_pairs_nodup {ops : List (Int × Pair)} (h : (ops.map (·.2)).Nodup) (w : Int) :
    ((ops.filter (fun o => o.1 = w)).map (·.2)).Nodup :=
  h.sublist (List.filter_sublist.map _)

theorem count_pairs {ttv : List (List Int)} {ops : List (Int × Pair)} (hp : ops.Perm (allOps ttv 0)) (v : Int) (t c : Nat) :
    ((ops.filter (fun o => o.1 = v)).map (·.2)).count (t, c) = if (ttv[t]?.bind (·[c]?)) = some v then 1 else 0 := by
  have hn : (ops.map (·.2)).Nodup := (hp.map _).nodup_iff.2 (pairs_nodup ttv 0)
  have hm : (t, c) ∈ (ops.filter (fun o => o.1 = v)).map (·.2) ↔ (ttv[t]?.bind (·[c]?)) = some v := by
    simp only [List.mem_map, List.mem_filter, decide_eq_true_eq, Prod.exists]
    constructor
    · rintro ⟨w, x, y, ⟨h, rfl⟩, h2⟩
      obtain ⟨i, vs, c', h3, h4, h5⟩ := mem_allOps.1 (hp.mem_iff.1 h)
      simp only [Prod.mk.injEq, Nat.zero_add] at h2 h5
      obtain ⟨rfl, rfl⟩ := h2
      obtain ⟨rfl, rfl⟩ := h5
      rw [h3]; exact h4
    · intro h
      rw [Option.bind_eq_some_iff] at h
      obtain ⟨vs, h1, h2⟩ := h
      exact ⟨v, t, c, ⟨hp.mem_iff.2 (mem_allOps.2 ⟨t, vs, c, h1, h2, by rw [Nat.zero_add]⟩), rfl⟩, rfl⟩
  rw [(filter_pairs_nodup hn v).count]
  by_cases h : (ttv[t]?.bind (·[c]?)) = some v
  · rw [if_pos h, if_pos (hm.2 h)]
  · rw [if_neg h, if_neg (fun h' => h (hm.1 h'))]

/-- C45. `build_from_ttv` violates no assertion and inverts the tree to vertex list; the pairs of each vertex are in
increasing order. -/
theorem C45_build (classes : List Nat) (ttv : List (List Int))
    (h : ∀ (i : Nat) (vs : List Int), ttv[i]? = some vs → classes[i]? = some vs.length ∧ ∀ v ∈ vs, 0 ≤ v) :
    ∃ m, buildFromTtv classes ttv = some m ∧ Inverts ttv m ∧
      ∀ v, ((get m v).getD []).Pairwise (fun a b => pairLess a b = true) := by
  obtain ⟨h1, h2, h3⟩ := pushAll_spec (allOps ttv 0) [] (by simp) (by simp)
  have e : ∀ w, (get ([] : Vtt) w).getD [] = [] := fun w => rfl
  refine ⟨_, addTrees_eq classes ttv 0 [] (by simpa using h), ⟨h1, h2, ?_⟩, ?_⟩
  · intro v t c
    rw [h3, e, List.nil_append]
    exact count_pairs (List.Perm.refl _) v t c
  · intro v
    rw [h3, e, List.nil_append, List.pairwise_map]
    exact (allOps_sorted ttv 0).filter _

theorem get_forall₂ {m' m : Vtt} (h : IsSortedMap m' m) (v : Int) :
    IsSorted pairLess ((get m' v).getD []) ((get m v).getD []) := by
  induction h with
  | nil => exact ⟨List.Perm.refl _, List.Pairwise.nil⟩
  | @cons e' e m' m he _ ih =>
    obtain ⟨u', l'⟩ := e'
    obtain ⟨u, l⟩ := e
    obtain ⟨rfl, h2⟩ := he
    rw [get_cons, get_cons]
    simp only
    split_ifs
    · exact h2
    · exact ih

theorem keys_forall₂ {m' m : Vtt} (h : IsSortedMap m' m) : m'.map (·.1) = m.map (·.1) := by
  induction h with
  | nil => rfl
  | cons he _ ih => rw [List.map_cons, List.map_cons, he.1, ih]

theorem nonempty_forall₂ {m' m : Vtt} (h : IsSortedMap m' m) (hm : ∀ e ∈ m, e.2 ≠ []) : ∀ e ∈ m', e.2 ≠ [] := by
  induction h with
  | nil => simp
  | @cons e' e m' m he _ ih =>
    intro x hx
    rcases List.mem_cons.1 hx with rfl | hx
    · intro hn
      have := he.2.1
      rw [hn] at this
      exact hm e List.mem_cons_self this.symm.eq_nil
    · exact ih (fun e he => hm e (List.mem_cons_of_mem _ he)) x hx

theorem pairLess_total {a b : Pair} (h : pairLess b a = false) (hne : a ≠ b) : pairLess a b = true := by
  obtain ⟨a1, a2⟩ := a
  obtain ⟨b1, b2⟩ := b
  unfold pairLess at *
  simp only [ne_eq, Prod.mk.injEq, not_and] at *
  split_ifs at * <;> simp at * <;> omega

/-- C45. If the user adds every (tree, corner) once, with the vertex id of this corner, in any order, then `commit`,
whatever permutation its sorting produces, gives a list that inverts the tree to vertex list, each vertex with its
pairs in increasing order. -/
theorem C45_commit (ttv : List (List Int)) (ops : List (Int × Pair)) (m : Vtt)
    (hops : ops.Perm ((ttv.zipIdx).flatMap (fun x => x.1.zipIdx.map (fun y => (y.1, (x.2, y.2))))))
    (hs : IsSortedMap m (ops.foldl (fun m o => push m o.1 o.2) [])) :
    Inverts ttv m ∧ ∀ v, ((get m v).getD []).Pairwise (fun a b => pairLess a b = true) := by
  have hp : ops.Perm (allOps ttv 0) := hops
  obtain ⟨h1, h2, h3⟩ := pushAll_spec ops [] (by simp) (by simp)
  have e : ∀ w, (get ([] : Vtt) w).getD [] = [] := fun w => rfl
  refine ⟨⟨by rw [keys_forall₂ hs]; exact h1, nonempty_forall₂ hs h2, ?_⟩, ?_⟩
  · intro v t c
    rw [(get_forall₂ hs v).1.count_eq]
    show ((get (pushAll [] ops) v).getD []).count (t, c) = _
    rw [h3, e, List.nil_append, count_pairs hp]
  · intro v
    obtain ⟨g1, g2⟩ := get_forall₂ hs v
    have hn : ((get m v).getD []).Nodup := by
      rw [g1.nodup_iff]
      show ((get (pushAll [] ops) v).getD []).Nodup
      rw [h3, e, List.nil_append]
      exact filter_pairs_nodup ((hp.map _).nodup_iff.2 (pairs_nodup ttv 0)) v
    exact (g2.and hn).imp (fun {a b} h => pairLess_total h.1 h.2)

/-! ### Back to the tree to vertex list -/

theorem get_of_mem {m : Vtt} (hk : (m.map (·.1)).Nodup) {v : Int} {l : List Pair} (h : (v, l) ∈ m) :
    get m v = some l := by
  induction m with
  | nil => simp at h
  | cons e m ih =>
    obtain ⟨u, l'⟩ := e
    rw [List.map_cons, List.nodup_cons] at hk
    rw [get_cons]
    rcases List.mem_cons.1 h with h | h
    · injection h with h1 h2; rw [if_pos h1.symm, h2]
    · rw [if_neg, ih hk.2 h]
      rintro rfl
      exact hk.1 (List.mem_map.2 ⟨_, h, rfl⟩)

theorem mem_of_get {m : Vtt} {v : Int} {l : List Pair} (h : get m v = some l) : (v, l) ∈ m := by
  induction m with
  | nil => simp [get] at h
  | cons e m ih =>
    obtain ⟨u, l'⟩ := e
    rw [get_cons] at h
    split_ifs at h with hu
    · injection h with h; subst hu h; exact List.mem_cons_self
    · exact List.mem_cons_of_mem _ (ih h)

theorem collect_perm {ttv : List (List Int)} {m m' : Vtt} (h : Inverts ttv m) (hp : m'.Perm m) {t : Nat} {vs : List Int}
    (ht : ttv[t]? = some vs) : (collect m' t).Perm vs.zipIdx := by
  have hcnt : ∀ v l, (v, l) ∈ m → ∀ c, l.count (t, c) = if vs[c]? = some v then 1 else 0 := by
    intro v l hm c
    have := h.count v t c
    rw [get_of_mem h.keys hm, ht] at this
    exact this
  have hmem : ∀ v c, (v, c) ∈ collect m' t ↔ vs[c]? = some v := by
    intro v c
    unfold collect
    simp only [List.mem_flatMap, List.mem_map, List.mem_filter, Prod.mk.injEq, Prod.exists, decide_eq_true_eq]
    constructor
    · rintro ⟨v', l, hm, t', c', ⟨h1, rfl⟩, rfl, rfl⟩
      have := hcnt v' l (hp.mem_iff.1 hm) c'
      by_contra hne
      rw [if_neg hne] at this
      exact List.count_eq_zero.1 this h1
    · intro hv
      have hc := h.count v t c
      rw [ht, show (some vs).bind (·[c]?) = vs[c]? from rfl, if_pos hv] at hc
      cases hg : get m v with
      | none => rw [hg] at hc; simp at hc
      | some l =>
        rw [hg] at hc
        refine ⟨v, l, hp.mem_iff.2 (mem_of_get hg), t, c, ⟨?_, rfl⟩, rfl, rfl⟩
        by_contra hn
        have := List.count_eq_zero.2 hn
        simp only [Option.getD_some] at hc
        omega
  rw [List.perm_ext_iff_of_nodup]
  · rintro ⟨v, c⟩
    rw [hmem, List.mk_mem_zipIdx_iff_getElem?]
  · unfold collect
    rw [List.nodup_flatMap]
    constructor
    · rintro ⟨v, l⟩ hm
      have hf : (l.filter (fun p => decide (p.1 = t))).Nodup := by
        rw [List.nodup_iff_count_le_one]
        rintro ⟨t', c⟩
        by_cases ht' : t' = t
        · subst ht'
          have h1 := hcnt v l (hp.mem_iff.1 hm) c
          have h2 : (l.filter (fun p => decide (p.1 = t'))).count (t', c) ≤ l.count (t', c) :=
            List.filter_sublist.count_le _
          split_ifs at h1 <;> omega
        · rw [List.count_eq_zero.2 (by simp [ht'])]; omega
      refine hf.map_on ?_
      rintro ⟨x1, x2⟩ hx ⟨y1, y2⟩ hy hxy
      simp only [List.mem_filter, decide_eq_true_eq, Prod.mk.injEq] at hx hy hxy
      rw [hx.2, hy.2, hxy.2]
    · have hk : m'.Pairwise (fun a b => a.1 ≠ b.1) := by
        have := (hp.map (·.1)).nodup_iff.2 h.keys
        rw [List.nodup_iff_pairwise_ne, List.pairwise_map] at this
        exact this
      refine hk.imp ?_
      rintro ⟨v, l⟩ ⟨v', l'⟩ hne
      simp only [Function.onFun, List.disjoint_left, List.mem_map]
      rintro x ⟨p, _, rfl⟩ ⟨q, _, hq⟩
      simp only [Prod.mk.injEq] at hq
      exact hne hq.1.symm
  · exact List.Nodup.of_map (·.2) (by rw [List.zipIdx_map_snd]; exact List.nodup_range')

/-- C45. The tree to vertex list computed from a vertex to tree list `m` that inverts `ttv` is `ttv` again, whatever
order the map is traversed in (`m'`) and whatever the sorting does with equal corners. -/
theorem C45_round_trip (classes : List Nat) (ttv : List (List Int)) (m m' : Vtt) (h : Inverts ttv m) (hp : m'.Perm m)
    (t : Nat) (vs : List Int) (ht : ttv[t]? = some vs) (hc : classes[t]? = some vs.length) (us : List Int) :
    IsTtvOf classes m' t us ↔ us = vs := by
  have hperm := collect_perm h hp ht
  have hz : (vs.zipIdx).Pairwise (fun a b => a.2 ≤ b.2) := by
    have : ((vs.zipIdx).map (·.2)).Pairwise (· ≤ ·) := by
      rw [List.zipIdx_map_snd]; exact List.pairwise_le_range'
    rw [List.pairwise_map] at this
    exact this
  constructor
  · rintro ⟨sorted, ⟨h1, h2⟩, h3, rfl⟩
    have hs : sorted = vs.zipIdx := by
      refine List.Perm.eq_of_pairwise (le := fun a b : Int × Nat => a.2 ≤ b.2) ?_ (h2.imp (by intro a b hab; simpa using hab)) hz (h1.trans hperm)
      rintro ⟨a1, a2⟩ ⟨b1, b2⟩ ha hb hab hba
      have : a2 = b2 := Nat.le_antisymm hab hba
      subst this
      have h4 := (List.mk_mem_zipIdx_iff_getElem?).1 ((h1.trans hperm).mem_iff.1 ha)
      have h5 := (List.mk_mem_zipIdx_iff_getElem?).1 hb
      rw [h4] at h5
      injection h5 with h5
      rw [h5]
    rw [hs, List.zipIdx_map_fst]
  · intro e
    rw [e]
    refine ⟨vs.zipIdx, ⟨hperm.symm, hz.imp (by intro a b hab; simpa using hab)⟩, by simpa using hc, ?_⟩
    rw [List.zipIdx_map_fst]

/-! ### Witnesses -/

/-- The hypotheses of the theorems above are met by two triangles with a common edge, of vertices 7, 5, 9 and 9, 5, 2,
and the vertices of the common edge have two entries. -/
example : let ttv : List (List Int) := [[7, 5, 9], [9, 5, 2]]
    (∀ i (_ : i < 2), ∃ vs, ttv[i]? = some vs ∧ [3, 3][i]? = some vs.length ∧ ∀ v ∈ vs, 0 ≤ v) ∧
    (buildFromTtv [3, 3] ttv).bind (fun m => get m 9) = some [(0, 2), (1, 0)] ∧
    (buildFromTtv [3, 3] ttv).bind (fun m => get m 2) = some [(1, 2)] := by
  decide +kernel

/-- Finding for C45: `contains_all_vertices` accepts lists that are not complete. It only counts the pairs of each tree:
here corner 0 of a line is entered twice and corner 1 is missing. -/
theorem C45_contains_all_accepts_incomplete :
    containsAll [2] [(0, [(0, 0)]), (1, [(0, 0)])] = some true := by
  decide +kernel

end T8.VertexConn
