/-
C17 - C20: adaptation.
-/
import Verif.Lemmas.AdaptLoop
import Verif.Props.StandaloneScheme

namespace T8.Adapt
open T8.RTree T8.Populate

variable {σ : Type}

section Tree
variable {T : RTree} {S : Scheme T}

/-! ### C17 -/

/-- C17. Non-recursive adaptation of a tree of a complete forest: the new leaves are those of the specified sweep over
the old leaves, in which a question is asked for each family and each other leaf and the answer is carried out. If no leaf is
left, the program aborts (t8_forest_adapt.cxx:641-642). -/
theorem C17_adapt_tree (hS : S.Lawful) {cfg : Cfg} {cb : Callback σ T.E} (hcb : Legal cb) {lt : Nat}
    {pre leaves post : List T.E} (ho : T.Ordered (pre ++ leaves ++ post)) (env : Env cfg lt pre post)
    (hc : S.ExactFamilies ∨ T.Segment leaves) (hlev : ∀ x ∈ leaves, T.level x ≤ cfg.maxlevel) (hne : leaves ≠ []) (hrec : cfg.recursive = false)
    (hinc : cfg.incomplete = false) (maxChildren : Nat) (rm0 : Bool) (s0 : σ) :
    ∃ out rm s', T.Adapted leaves (fun e => T.level e < cfg.maxlevel ∧ T.level e < T.maxLevel) (T.FamilyAt leaves)
        (fun st i b g => cb st lt i b g) 0 s0 out rm s' ∧
      adaptTree S cfg cb lt maxChildren leaves rm0 s0 = if out = [] then none else some (out, rm0 || rm, s') := by
  obtain ⟨tel, rm, s', h1, _, _, _, h5⟩ := adaptTree_spec hS hcb ho env (fun _ => hc) hlev hne maxChildren rm0 s0
  obtain ⟨rm', h6, rfl⟩ := h5 hrec
  refine ⟨tel, rm', s', ?_, h1⟩
  have : Offered cfg lt leaves = T.FamilyAt leaves := by
    funext i n
    rw [Offered, hinc, if_neg (by decide)]
  rw [this] at h6
  exact h6

/-- C17. The same for a forest in which leaves were removed: a group of leaves is offered as a family if it consists of
children of an element that contains no other leaf, except if more of its children may lie on another process. -/
theorem C17_adapt_tree_incomplete (hS : S.Lawful) {cfg : Cfg} {cb : Callback σ T.E} (hcb : Legal cb) {lt : Nat}
    {pre leaves post : List T.E} (ho : T.Ordered (pre ++ leaves ++ post)) (env : Env cfg lt pre post)
    (hlev : ∀ x ∈ leaves, T.level x ≤ cfg.maxlevel) (hne : leaves ≠ []) (hrec : cfg.recursive = false)
    (hinc : cfg.incomplete = true) (maxChildren : Nat) (rm0 : Bool) (s0 : σ) :
    ∃ out rm s', T.Adapted leaves (fun e => T.level e < cfg.maxlevel ∧ T.level e < T.maxLevel)
        (fun i n => ∃ p, T.GroupAt [] leaves [] i n p ∧
          ¬ (i = 0 ∧ (∃ e, leaves[i]? = some e ∧ 0 < T.childId e) ∧ lt = 0 ∧ 0 < cfg.mpirank) ∧
          ¬ (leaves.length < i + T.nc p ∧ lt + 1 = cfg.numTrees ∧ cfg.mpirank + 1 < cfg.mpisize))
        (fun st i b g => cb st lt i b g) 0 s0 out rm s' ∧
      adaptTree S cfg cb lt maxChildren leaves rm0 s0 = if out = [] then none else some (out, rm0 || rm, s') := by
  obtain ⟨tel, rm, s', h1, _, _, _, h5⟩ := adaptTree_spec hS hcb ho env (fun h => by rw [hinc] at h; cases h) hlev hne maxChildren rm0 s0
  obtain ⟨rm', h6, rfl⟩ := h5 hrec
  refine ⟨tel, rm', s', ?_, h1⟩
  have : Offered cfg lt leaves = (fun i n => ∃ p, T.GroupAt [] leaves [] i n p ∧
          ¬ (i = 0 ∧ (∃ e, leaves[i]? = some e ∧ 0 < T.childId e) ∧ lt = 0 ∧ 0 < cfg.mpirank) ∧
          ¬ (leaves.length < i + T.nc p ∧ lt + 1 = cfg.numTrees ∧ cfg.mpirank + 1 < cfg.mpisize)) := by
    funext i n
    rw [Offered, hinc, if_pos rfl]
  rw [this] at h6
  exact h6

/-- The specified sweep has one result: what adaptation does is determined by the answers. -/
theorem C17_sweep_unique {leaves : List T.E} {can : T.E → Prop} {offered : Nat → Nat → Prop}
    (huniq : ∀ i n m, offered i n → offered i m → n = m) {ask : σ → Nat → Bool → List T.E → Int × σ} {i : Nat} {s : σ}
    {out out' : List T.E} {rm rm' : Bool} {s1 s1' : σ} (h : T.Adapted leaves can offered ask i s out rm s1)
    (h' : T.Adapted leaves can offered ask i s out' rm' s1') : out = out' ∧ rm = rm' ∧ s1 = s1' := by
  have hq : ∀ {i e b g b' g'}, T.Question leaves offered i e b g → T.Question leaves offered i e b' g' → b = b' ∧ g = g' := by
    intro i e b g b' g' q q'
    rcases q with ⟨rfl, n, hn, rfl⟩ | ⟨rfl, hn, rfl⟩ <;> rcases q' with ⟨rfl, m, hm, rfl⟩ | ⟨rfl, hm, rfl⟩
    · rw [huniq i n m hn hm]; exact ⟨rfl, rfl⟩
    · exact absurd hn (hm n)
    · exact absurd hm (hn m)
    · exact ⟨rfl, rfl⟩
  have hdone : ∀ {e : T.E} {n : Nat}, n = leaves.length → leaves[n]? = some e → False := by
    intro e n hn h
    have := (List.getElem?_eq_some_iff.1 h).1
    omega
  -- two steps at the same leaf ask the same question
  have hsame : ∀ {i e e' b b' g g' s a a' s' s''}, leaves[i]? = some e → leaves[i]? = some e' →
      T.Question leaves offered i e b g → T.Question leaves offered i e' b' g' → ask s i b g = (a, s') →
      ask s i b' g' = (a', s'') → e = e' ∧ b = b' ∧ g = g' ∧ a = a' ∧ s' = s'' := by
    intro i e e' b b' g g' s a a' s' s'' x1 x2 x3 x4 x5 x6
    rw [x1] at x2
    obtain rfl := Option.some.inj x2
    obtain ⟨rfl, rfl⟩ := hq x3 x4
    rw [x5] at x6
    exact ⟨rfl, rfl, rfl, (Prod.mk.inj x6).1, (Prod.mk.inj x6).2⟩
  induction h generalizing out' rm' s1' with
  | done =>
    generalize hi : leaves.length = i at h'
    cases h' with
    | done => exact ⟨rfl, rfl, rfl⟩
    | refine x1 _ _ _ _ => exact (hdone hi.symm x1).elim
    | keep x1 _ _ _ _ => exact (hdone hi.symm x1).elim
    | coarsen x1 _ _ _ => exact (hdone hi.symm x1).elim
    | remove x1 _ _ _ => exact (hdone hi.symm x1).elim
  | @refine i s s' s'' e b g out rm h1 h2 h3 h4 h5 ih =>
    generalize hi : i = j at h'
    cases h' with
    | done => exact (hdone hi h1).elim
    | refine x1 x2 x3 x4 x5 =>
      subst hi
      obtain ⟨rfl, rfl, rfl, _, rfl⟩ := hsame h1 x1 h2 x2 h3 x3
      obtain ⟨rfl, y2, y3⟩ := ih x5
      exact ⟨rfl, y2, y3⟩
    | keep x1 x2 x3 x4 x5 =>
      subst hi
      obtain ⟨rfl, rfl, rfl, rfl, rfl⟩ := hsame h1 x1 h2 x2 h3 x3
      rcases x4 with x4 | x4
      · omega
      · exact absurd h4 x4.2
    | coarsen x1 x2 x3 x4 =>
      subst hi
      obtain ⟨_, _, _, z, _⟩ := hsame h1 x1 h2 x2 h3 x3
      omega
    | remove x1 x2 x3 x4 =>
      subst hi
      obtain ⟨_, _, _, z, _⟩ := hsame h1 x1 h2 x2 h3 x3
      omega
  | @keep i s s' s'' e b g a out rm h1 h2 h3 h4 h5 ih =>
    generalize hi : i = j at h'
    cases h' with
    | done => exact (hdone hi h1).elim
    | refine x1 x2 x3 x4 x5 =>
      subst hi
      obtain ⟨rfl, rfl, rfl, rfl, rfl⟩ := hsame h1 x1 h2 x2 h3 x3
      rcases h4 with h4 | h4
      · omega
      · exact absurd x4 h4.2
    | keep x1 x2 x3 x4 x5 =>
      subst hi
      obtain ⟨rfl, rfl, rfl, _, rfl⟩ := hsame h1 x1 h2 x2 h3 x3
      obtain ⟨rfl, y2, y3⟩ := ih x5
      exact ⟨rfl, y2, y3⟩
    | coarsen x1 x2 x3 x4 =>
      subst hi
      obtain ⟨_, _, _, z, _⟩ := hsame h1 x1 h2 x2 h3 x3
      omega
    | remove x1 x2 x3 x4 =>
      subst hi
      obtain ⟨_, _, _, z, _⟩ := hsame h1 x1 h2 x2 h3 x3
      omega
  | @coarsen i s s' s'' e g out rm h1 h2 h3 h4 ih =>
    generalize hi : i = j at h'
    cases h' with
    | done => exact (hdone hi h1).elim
    | refine x1 x2 x3 x4 x5 =>
      subst hi
      obtain ⟨_, _, _, z, _⟩ := hsame h1 x1 h2 x2 h3 x3
      omega
    | keep x1 x2 x3 x4 x5 =>
      subst hi
      obtain ⟨_, _, _, z, _⟩ := hsame h1 x1 h2 x2 h3 x3
      omega
    | coarsen x1 x2 x3 x4 =>
      subst hi
      obtain ⟨rfl, _, rfl, _, rfl⟩ := hsame h1 x1 h2 x2 h3 x3
      obtain ⟨rfl, y2, y3⟩ := ih x4
      exact ⟨rfl, y2, y3⟩
    | remove x1 x2 x3 x4 =>
      subst hi
      obtain ⟨_, _, _, z, _⟩ := hsame h1 x1 h2 x2 h3 x3
      omega
  | @remove i s s' s'' e b g out rm h1 h2 h3 h4 ih =>
    generalize hi : i = j at h'
    cases h' with
    | done => exact (hdone hi h1).elim
    | refine x1 x2 x3 x4 x5 =>
      subst hi
      obtain ⟨_, _, _, z, _⟩ := hsame h1 x1 h2 x2 h3 x3
      omega
    | keep x1 x2 x3 x4 x5 =>
      subst hi
      obtain ⟨_, _, _, z, _⟩ := hsame h1 x1 h2 x2 h3 x3
      omega
    | coarsen x1 x2 x3 x4 =>
      subst hi
      obtain ⟨_, _, _, z, _⟩ := hsame h1 x1 h2 x2 h3 x3
      omega
    | remove x1 x2 x3 x4 =>
      subst hi
      obtain ⟨_, _, _, _, rfl⟩ := hsame h1 x1 h2 x2 h3 x3
      obtain ⟨rfl, _, y3⟩ := ih x4
      exact ⟨rfl, rfl, y3⟩

/-- At most one family begins at a leaf. -/
theorem C17_family_unique {leaves : List T.E} (i n m : Nat) (h : T.FamilyAt leaves i n) (h' : T.FamilyAt leaves i m) :
    n = m := by
  have hfirst : ∀ {n p}, n = T.nc p → T.IsFamilyOf ((leaves.drop i).take n) p → (leaves.drop i).head? = some (T.child p 0) := by
    intro n p hn hp
    obtain ⟨h1, h2, h3⟩ := hp
    obtain ⟨k, hk⟩ : ∃ k, T.nc p = k + 1 := ⟨T.nc p - 1, by have := T.nc_pos p h1; omega⟩
    rw [hn, hk, List.range_succ_eq_map, List.map_cons] at h3
    cases hd : leaves.drop i with
    | nil => rw [hd] at h3; simp at h3
    | cons a as => rw [hd, List.take_succ_cons] at h3; rw [(List.cons.inj h3).1]; rfl
  obtain ⟨p, hn, hp⟩ := h
  obtain ⟨q, hm, hq⟩ := h'
  have e1 := hfirst hn hp
  have e2 := hfirst hm hq
  rw [e1] at e2
  have := Option.some.inj e2
  have hpq : p = q := by
    rw [← T.parent_child p 0 hp.1 hp.2.1 (T.nc_pos p hp.1), this, T.parent_child q 0 hq.1 hq.2.1 (T.nc_pos q hq.1)]
  rw [hn, hm, hpq]

/-! ### C18 -/

/-- C18. Adaptation without removal, non-recursive: if the leaves of all processes (`pre` on earlier ones, `post` on later
ones) tile the tree, then they do so after the process with `leaves` has adapted. -/
theorem C18_adapt_tiling (hS : S.Lawful) {cfg : Cfg} {cb : Callback σ T.E} (hcb : Legal cb) (hrm : NoRemove cb) {lt : Nat}
    {pre leaves post : List T.E} (ht : T.Tiles T.root (pre ++ leaves ++ post)) (env : Env cfg lt pre post)
    (hlev : ∀ x ∈ leaves, T.level x ≤ cfg.maxlevel) (hne : leaves ≠ []) (hinc : cfg.incomplete = false)
    (hrec : cfg.recursive = false) (maxChildren : Nat) (s0 : σ) :
    ∃ new s', adaptTree S cfg cb lt maxChildren leaves false s0 = some (new, false, s') ∧
      T.Tiles T.root (pre ++ new ++ post) ∧ (∀ x ∈ new, T.level x ≤ cfg.maxlevel) := by
  obtain ⟨ho, hw⟩ := tiles_root_iff.1 ht
  obtain ⟨tel, rm, s', h1, h2, h3, h4, _⟩ := adaptTree_spec hS hcb ho env (fun _ => Or.inr ⟨pre, post, ht⟩) hlev hne maxChildren false s0
  obtain ⟨h5, h6⟩ := h4 ⟨hrm, hinc, fun h => by rw [hrec] at h; simp at h⟩
  have hvl : ∀ x ∈ leaves, T.Valid x := fun x hx => ho.1 x (by simp [hx])
  have htel : tel ≠ [] := by
    rintro rfl
    have := weight_pos hvl hne
    simp at h6; omega
  rw [if_neg htel, h5] at h1
  exact ⟨tel, s', h1, tiles_root_iff.2 ⟨h2, by rw [← hw]; simp only [weight_append]; omega⟩, h3⟩

/-- C18, recursive adaptation, partial: tilings are kept if the callback never answers "refine" for a single element that
already has the maximum level. Without this hypothesis the claim is false, see `C18_recursive_loses_leaf`. -/
theorem C18_recursive_partial (hS : S.Lawful) {cfg : Cfg} {cb : Callback σ T.E} (hcb : Legal cb) (hrm : NoRemove cb)
    (hvain : NoVainRefine T cfg.maxlevel cb) {lt : Nat} {pre leaves post : List T.E}
    (ht : T.Tiles T.root (pre ++ leaves ++ post)) (env : Env cfg lt pre post)
    (hlev : ∀ x ∈ leaves, T.level x ≤ cfg.maxlevel) (hne : leaves ≠ []) (hinc : cfg.incomplete = false)
    (maxChildren : Nat) (s0 : σ) :
    ∃ new s', adaptTree S cfg cb lt maxChildren leaves false s0 = some (new, false, s') ∧
      T.Tiles T.root (pre ++ new ++ post) ∧ (∀ x ∈ new, T.level x ≤ cfg.maxlevel) := by
  obtain ⟨ho, hw⟩ := tiles_root_iff.1 ht
  obtain ⟨tel, rm, s', h1, h2, h3, h4, _⟩ := adaptTree_spec hS hcb ho env (fun _ => Or.inr ⟨pre, post, ht⟩) hlev hne maxChildren false s0
  obtain ⟨h5, h6⟩ := h4 ⟨hrm, hinc, fun _ => hvain⟩
  have hvl : ∀ x ∈ leaves, T.Valid x := fun x hx => ho.1 x (by simp [hx])
  have htel : tel ≠ [] := by
    rintro rfl
    have := weight_pos hvl hne
    simp at h6; omega
  rw [if_neg htel, h5] at h1
  exact ⟨tel, s', h1, tiles_root_iff.2 ⟨h2, by rw [← hw]; simp only [weight_append]; omega⟩, h3⟩

/-- What one process contributes to a distributed tree: its configuration, callback and state, local tree number and
leaves. -/
structure Part (σ : Type) (T : RTree) where
  cfg : Cfg
  cb : Callback σ T.E
  lt : Nat
  maxChildren : Nat
  leaves : List T.E
  st : σ

/-- C18 for all processes at once: the leaves of a tree are distributed in an arbitrary way and each process adapts its
part. -/
theorem C18_all_processes (hS : S.Lawful) (parts : List (Part σ T))
    (hlegal : ∀ q ∈ parts, Legal q.cb ∧ NoRemove q.cb ∧ q.cfg.incomplete = false ∧
      (q.cfg.recursive = true → NoVainRefine T q.cfg.maxlevel q.cb) ∧ ∀ x ∈ q.leaves, T.level x ≤ q.cfg.maxlevel)
    (henv : ∀ (a : List (Part σ T)) (q : Part σ T) (b : List (Part σ T)), parts = a ++ q :: b → Env q.cfg q.lt (a.flatMap Part.leaves) (b.flatMap Part.leaves))
    (ht : T.Tiles T.root (parts.flatMap Part.leaves)) :
    ∃ new : List (List T.E), new.length = parts.length ∧
      (∀ (k : Nat) (q : Part σ T), parts[k]? = some q → ∃ n s', new[k]? = some n ∧
        adaptTree S q.cfg q.cb q.lt q.maxChildren q.leaves false q.st = some (n, false, s')) ∧
      T.Tiles T.root new.flatten := by
  -- adapt the processes one after the other
  have key : ∀ (rest done : List (Part σ T)) (new : List (List T.E)), parts = done ++ rest →
      (∀ (k : Nat) (q : Part σ T), done[k]? = some q → ∃ n s', new[k]? = some n ∧
        adaptTree S q.cfg q.cb q.lt q.maxChildren q.leaves false q.st = some (n, false, s')) → new.length = done.length →
      (done.flatMap Part.leaves = [] → new.flatten = []) →
      T.Tiles T.root (new.flatten ++ rest.flatMap Part.leaves) →
      ∃ new : List (List T.E), new.length = parts.length ∧
        (∀ (k : Nat) (q : Part σ T), parts[k]? = some q → ∃ n s', new[k]? = some n ∧
          adaptTree S q.cfg q.cb q.lt q.maxChildren q.leaves false q.st = some (n, false, s')) ∧
        T.Tiles T.root new.flatten := by
    intro rest
    induction rest with
    | nil =>
      intro done new hp hk hlen _ ht
      rw [List.append_nil] at hp
      subst hp
      exact ⟨new, hlen, hk, by simpa using ht⟩
    | cons q rest ih =>
      intro done new hp hk hlen hnil ht
      obtain ⟨l1, l2, l3, l4, l5⟩ := hlegal q (by rw [hp]; simp)
      have env := henv done q rest hp
      rw [List.flatMap_cons, ← List.append_assoc] at ht
      have hstep : ∃ n s', adaptTree S q.cfg q.cb q.lt q.maxChildren q.leaves false q.st = some (n, false, s') ∧
          T.Tiles T.root (new.flatten ++ n ++ rest.flatMap Part.leaves) ∧ (q.leaves = [] → n = []) := by
        by_cases hne : q.leaves = []
        · refine ⟨[], q.st, ?_, ?_, fun _ => rfl⟩
          · rw [adaptTree, hne, if_neg (by simp)]
          · rw [hne] at ht; exact ht
        · obtain ⟨ho, hw⟩ := tiles_root_iff.1 ht
          have env' : Env q.cfg q.lt new.flatten (rest.flatMap Part.leaves) :=
            ⟨fun h => env.pre fun h' => h (hnil h'), env.post⟩
          obtain ⟨tel, rm, s', h1, h2, h3, h4, _⟩ := adaptTree_spec hS l1 ho env' (fun _ => Or.inr ⟨_, _, ht⟩) l5 hne q.maxChildren false q.st
          obtain ⟨h5, h6⟩ := h4 ⟨l2, l3, l4⟩
          have hvl : ∀ x ∈ q.leaves, T.Valid x := fun x hx => ho.1 x (by simp [hx])
          have htel : tel ≠ [] := by
            rintro rfl
            have := weight_pos hvl hne
            simp at h6; omega
          rw [if_neg htel, h5] at h1
          exact ⟨tel, s', h1, tiles_root_iff.2 ⟨h2, by rw [← hw]; simp only [weight_append]; omega⟩, fun h => absurd h hne⟩
      obtain ⟨n, s', h1, h2, h3⟩ := hstep
      refine ih (done ++ [q]) (new ++ [n]) (by simpa using hp) ?_ (by simp [hlen]) ?_ (by simpa using h2)
      · intro k r hr
        rw [List.getElem?_append] at hr
        split at hr
        · next hlt =>
          obtain ⟨n', s'', e1, e2⟩ := hk k r hr
          exact ⟨n', s'', by rw [List.getElem?_append_left (by omega)]; exact e1, e2⟩
        · next hge =>
          have hk0 : k - done.length = 0 := by
            by_contra hc
            rw [List.getElem?_eq_none (by simp; omega)] at hr
            simp at hr
          rw [hk0] at hr
          simp only [List.getElem?_cons_zero, Option.some.injEq] at hr
          subst hr
          refine ⟨n, s', ?_, h1⟩
          rw [List.getElem?_append_right (by omega), hlen, hk0]; rfl
      · intro h
        rw [List.flatMap_append, List.append_eq_nil_iff] at h
        rw [List.flatten_append, hnil h.1, h3 (by simpa using h.2)]
        rfl
  exact key parts [] [] rfl (by simp) rfl (by simp) (by simpa using ht)

/-! ### C19 -/

/-- C19. Recursive refinement terminates for every callback, also if it always answers "refine". Every new element is a
descendant for which the callback answered "keep". -/
theorem C19_refine (hS : S.Lawful) {cfg : Cfg} {cb : Callback σ T.E} (hcb : Legal cb) (lt le : Nat)
    (tel : List T.E) {e : T.E} (he : T.Valid e) (hl : T.level e < T.maxLevel) (hm : T.level e < cfg.maxlevel) (rm : Bool)
    (s0 : σ) :
    ∃ new rm' s', refineRecursive S cfg cb lt le ⟨children e, tel, tel.length, rm, s0⟩ =
        some ⟨[], tel ++ new, tel.length + new.length, rm', s'⟩ ∧
      new.Pairwise T.Before ∧
      (∀ x ∈ new, T.Desc e x ∧ T.level x ≤ cfg.maxlevel ∧ T.level e < T.level x ∧
        ∃ s, (cb s lt le false [x]).1 = 0) := by
  obtain ⟨new, rm', s', h1, h2, h3, _⟩ := refine_spec hS hcb lt le tel he hl hm rm s0
  exact ⟨new, rm', s', h1, h2, h3⟩

/-- C19. Recursive coarsening terminates for every callback (no condition on its answers) and keeps the leaves free of
overlap; in a complete forest nothing is lost. -/
theorem C19_coarsen (hS : S.Lawful) {cfg : Cfg} (cb : Callback σ T.E) (lt le : Nat) {A tel B : List T.E} {e : T.E}
    (ho : T.Ordered (A ++ tel ++ B)) (hA : A ≠ [] → 0 < cfg.mpirank) (hlast : tel.getLast? = some e)
    (h0 : 0 < T.level e) (elCoarsen : Nat) (s0 : σ) :
    ∃ tel' s', coarsenRecursive S cfg cb lt le tel elCoarsen tel.length s0 = some (tel', tel'.length, s') ∧
      tel' ≠ [] ∧ T.Ordered (A ++ tel' ++ B) ∧
      (cfg.incomplete = false → T.Tiles T.root (A ++ tel ++ B) → T.Tiles T.root (A ++ tel' ++ B)) := by
  obtain ⟨tel', s', h1, h2, h3, _, h5⟩ := coarsen_spec hS cb lt le ho hA hlast h0 elCoarsen s0 (fun _ => True)
    (fun _ _ _ _ => trivial) (fun _ _ => trivial)
  refine ⟨tel', s', h1, h2, h3, fun hinc ht => tiles_root_iff.2 ⟨h3, ?_⟩⟩
  have := (tiles_root_iff.1 ht).2
  simp only [weight_append] at this ⊢
  rw [h5 hinc]
  exact this

/-- C19. Adaptation of a tree terminates for every callback that gives legal answers, recursive or not: the
outcome is the new tree, or the abort if no leaf is left. -/
theorem C19_adapt_terminates (hS : S.Lawful) {cfg : Cfg} {cb : Callback σ T.E} (hcb : Legal cb) {lt : Nat}
    {pre leaves post : List T.E} (ho : T.Ordered (pre ++ leaves ++ post)) (env : Env cfg lt pre post)
    (hc : Covered S cfg leaves) (hlev : ∀ x ∈ leaves, T.level x ≤ cfg.maxlevel) (maxChildren : Nat) (rm0 : Bool) (s0 : σ) :
    ∃ s', whileO (fun s : State σ T.E => some (decide (s.considered < leaves.length)))
      (elementBody S cfg cb lt leaves) ⟨0, 0, 0, maxChildren, [], rm0, s0⟩ = some s' := by
  have hinit : Inv cfg cb lt pre leaves post rm0 s0 ⟨0, 0, 0, maxChildren, [], rm0, s0⟩ := by
    refine ⟨rfl, by simp, by simpa using ho, by simp, fun _ => ⟨rfl, by simp⟩, ?_⟩
    intro _ out rm s' h
    exact ⟨rm, h, rfl⟩
  have key := whileO_spec (cond := fun s : State σ T.E => some (decide (s.considered < leaves.length)))
    (body := elementBody S cfg cb lt leaves) (Inv cfg cb lt pre leaves post rm0 s0)
    (fun s => leaves.length - s.considered) ?_ _ hinit
  · obtain ⟨r, hr, _⟩ := key
    exact ⟨r, hr⟩
  · intro s hI
    by_cases hlt : s.considered < leaves.length
    · right
      obtain ⟨s', h1, h2, h3⟩ := elementBody_spec hS hcb ho env hc hlev hI hlt
      exact ⟨by simp [hlt], s', h1, h2, by omega⟩
    · left
      simp [hlt]

/-! ### C20 -/

/-- C20. When `t8_forest_is_incomplete_family` accepts `n` leaves from index `i` on, replacing them by their parent gives a
leaf sequence without overlap, in curve order; also together with the leaves `pre`, `post` of the tree on other
processes. -/
theorem C20_incomplete_family (hS : S.Lawful) {cfg : Cfg} {lt : Nat} {pre leaves post : List T.E}
    (ho : T.Ordered (pre ++ leaves ++ post)) (env : Env cfg lt pre post) {i : Nat} {e : T.E} (he : leaves[i]? = some e) :
    ∃ n, isIncompleteFamily S cfg lt leaves i (min (S.numSiblings e) (leaves.length - i)) = some n ∧
      (0 < n → i + n ≤ leaves.length ∧ (∀ x ∈ (leaves.drop i).take n, 0 < T.level x ∧ T.parent x = T.parent e) ∧
        T.Ordered (pre ++ (leaves.take i ++ [T.parent e] ++ leaves.drop (i + n)) ++ post)) := by
  obtain ⟨n, h1, _, h3, _⟩ := isIncompleteFamily_spec hS ho env he
  refine ⟨n, h1, fun hn => ?_⟩
  obtain ⟨l0, hg⟩ := h3 hn
  have hsplit : leaves.drop i = (leaves.drop i).take n ++ leaves.drop (i + n) := by
    rw [← List.drop_drop, List.take_append_drop]
  have hord : T.Ordered ((pre ++ leaves.take i) ++ (leaves.drop i).take n ++ (leaves.drop (i + n) ++ post)) := by
    have : pre ++ leaves ++ post =
        (pre ++ leaves.take i) ++ (leaves.drop i).take n ++ (leaves.drop (i + n) ++ post) := by
      conv_lhs => rw [← List.take_append_drop i leaves, hsplit]
      simp only [List.append_assoc]
    rw [← this]; exact ho
  refine ⟨hg.le, fun x hx => ⟨by rw [(hg.all x hx).2]; omega, (hg.all x hx).1⟩, ?_⟩
  have := hord.replace_group hg.valid (List.ne_nil_of_mem (mem_group_of he le_rfl (by omega))) (fun x hx => by
    obtain ⟨x1, x2⟩ := hg.all x hx
    rw [← x1]
    refine desc_parent (ho.1 x ?_) (by omega)
    have := List.mem_of_mem_drop (List.mem_of_mem_take hx)
    simp [this]) hg.before hg.after
  simpa only [List.append_assoc] using this

/-- C20. The test is as permissive as possible: a group of leaves that consists of children of `p`, and such that no other
local leaf is in `p`, is accepted, unless further children may be on another process. -/
theorem C20_accepts (hS : S.Lawful) {cfg : Cfg} {lt : Nat} {pre leaves post : List T.E}
    (ho : T.Ordered (pre ++ leaves ++ post)) (env : Env cfg lt pre post) {i n : Nat} {e p : T.E} (he : leaves[i]? = some e)
    (hg : T.GroupAt [] leaves [] i n p) (h1 : ¬ (i = 0 ∧ 0 < T.childId e ∧ lt = 0 ∧ 0 < cfg.mpirank))
    (h2 : ¬ (leaves.length < i + T.nc p ∧ lt + 1 = cfg.numTrees ∧ cfg.mpirank + 1 < cfg.mpisize)) :
    isIncompleteFamily S cfg lt leaves i (min (S.numSiblings e) (leaves.length - i)) = some n := by
  obtain ⟨m, m1, _, _, m4⟩ := isIncompleteFamily_spec hS ho env he
  rw [m1, m4 n p hg h1 h2]

/-- C20. Adaptation never creates overlap, whatever the callback answers: removal, recursion and trees with removed elements
included. -/
theorem C20_adapt_no_overlap (hS : S.Lawful) {cfg : Cfg} {cb : Callback σ T.E} (hcb : Legal cb) {lt : Nat}
    {pre leaves post : List T.E} (ho : T.Ordered (pre ++ leaves ++ post)) (env : Env cfg lt pre post)
    (hc : Covered S cfg leaves) (hlev : ∀ x ∈ leaves, T.level x ≤ cfg.maxlevel) (maxChildren : Nat) (rm0 : Bool) (s0 : σ) {new : List T.E} {rm : Bool}
    {s' : σ} (h : adaptTree S cfg cb lt maxChildren leaves rm0 s0 = some (new, rm, s')) :
    T.Ordered (pre ++ new ++ post) ∧ ∀ x ∈ new, T.level x ≤ cfg.maxlevel := by
  by_cases hne : leaves = []
  · subst hne
    rw [adaptTree, if_neg (by simp)] at h
    obtain ⟨rfl, _⟩ := Prod.mk.inj (Option.some.inj h)
    exact ⟨ho, by simp⟩
  · obtain ⟨tel, rm', s'', h1, h2, h3, _⟩ := adaptTree_spec hS hcb ho env hc hlev hne maxChildren rm0 s0
    rw [h] at h1
    by_cases htel : tel = []
    · rw [if_pos htel] at h1; simp at h1
    · rw [if_neg htel] at h1
      obtain ⟨rfl, _⟩ := Prod.mk.inj (Option.some.inj h1)
      exact ⟨h2, h3⟩

end Tree
end T8.Adapt
