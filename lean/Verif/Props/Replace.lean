/-
C35: `t8_forest_iterate_replace` after an adaptation.
-/
import Verif.Lemmas.Replace
import Verif.Lemmas.RunLoop
import Verif.Lemmas.Sample

namespace T8.Replace
open RTree T8.Adapt T8.Populate

variable {σ : Type}

section Tree
variable {T : RTree} {S : Scheme T}

theorem offered_groups {cfg : Cfg} {lt : Nat} {leaves : List T.E} (ho : T.Ordered leaves) : Groups leaves (Offered cfg lt leaves) := by
  intro i n e h he
  have hi : i < leaves.length := (List.getElem?_eq_some_iff.1 he).1
  rw [Offered] at h
  split at h
  · obtain ⟨p, hg, _⟩ := h
    rw [(hg.parent_eq he).1]
    exact hg
  · obtain ⟨p, hn, hf⟩ := h
    obtain ⟨hp, hl, heq⟩ := hf
    have hpos := T.nc_pos p hp
    have hlen : i + n ≤ leaves.length := by
      have := congrArg List.length heq
      simp at this
      omega
    have hch : ∀ x ∈ (leaves.drop i).take n, ∃ k, k < T.nc p ∧ x = T.child p k := by
      intro x hx
      rw [heq] at hx
      obtain ⟨k, hk, rfl⟩ := List.mem_map.1 hx
      exact ⟨k, List.mem_range.1 hk, rfl⟩
    have hall : ∀ x ∈ (leaves.drop i).take n, T.parent x = p ∧ T.level x = T.level p + 1 := by
      intro x hx
      obtain ⟨k, hk, rfl⟩ := hch x hx
      exact ⟨T.parent_child p k hp hl hk, T.level_child p k hp hl hk⟩
    have hpe := (hall e (mem_group_of he le_rfl (by omega))).1
    rw [hpe]
    refine ⟨by omega, hlen, hp, hl, hall, ?_, ?_⟩
    · intro x hx
      refine IsFamilyOf.not_desc ⟨hp, hl, heq⟩ ?_
      intro y hy
      obtain ⟨k, hk1, hk2, hk⟩ := mem_group hy
      rw [List.nil_append] at hx
      obtain ⟨m, hm, hx'⟩ := mem_take_getElem? hx
      exact Or.inl (pairwise_getElem? ho.2 (by omega) hx' hk)
    · intro x hx
      refine IsFamilyOf.not_desc ⟨hp, hl, heq⟩ ?_
      intro y hy
      obtain ⟨k, hk1, hk2, hk⟩ := mem_group hy
      rw [List.append_nil] at hx
      obtain ⟨m, hm, hx'⟩ := mem_drop_getElem? hx
      exact Or.inr (pairwise_getElem? ho.2 (by omega) hk hx')

theorem offered_full {cfg : Cfg} {lt : Nat} {leaves : List T.E} (hinc : cfg.incomplete = false) :
    ∀ i n e, Offered cfg lt leaves i n → leaves[i]? = some e → n = T.nc (T.parent e) := by
  intro i n e h he
  rw [Offered, if_neg (by rw [hinc]; decide)] at h
  obtain ⟨p, hn, hp, hl, heq⟩ := h
  have hpos := T.nc_pos p hp
  have : e ∈ (leaves.drop i).take n := mem_group_of he le_rfl (by omega)
  rw [heq] at this
  obtain ⟨k, hk, rfl⟩ := List.mem_map.1 this
  rw [T.parent_child p k hp hl (List.mem_range.1 hk), hn]

section Sweep
variable {leaves : List T.E} {can : T.E → Prop} {offered : Nat → Nat → Prop} {ask : σ → Nat → Bool → List T.E → Int × σ}

/-- Every old leaf and every new leaf is in exactly one report, in order. -/
theorem reports_once (hg : Groups leaves offered) {i j : Nat} {s s' : σ} {out : List T.E} {rs : List Report} {rm : Bool}
    (h : T.Replaced leaves can offered ask i j s out rs rm s') :
    rs.flatMap Report.old = List.range' i (leaves.length - i) ∧ rs.flatMap Report.new = List.range' j out.length := by
  induction h with
  | done => simp
  | @refine i j s s' s'' e b g out rs rm h1 h2 h3 h4 _ ih =>
    have hi : i < leaves.length := (List.getElem?_eq_some_iff.1 h1).1
    rw [List.flatMap_cons, List.flatMap_cons, ih.1, ih.2, Report.old, Report.new]
    refine ⟨?_, ?_⟩
    · dsimp only
      rw [List.range'_append_1]; congr 1; omega
    · simp only [Int.toNat_natCast]
      rw [List.range'_append_1]; simp
  | @keep i j s s' s'' e b g a out rs rm h1 h2 h3 h4 _ ih =>
    have hi : i < leaves.length := (List.getElem?_eq_some_iff.1 h1).1
    rw [List.flatMap_cons, List.flatMap_cons, ih.1, ih.2, Report.old, Report.new]
    refine ⟨?_, ?_⟩
    · dsimp only
      rw [List.range'_append_1]; congr 1; omega
    · simp only [Int.toNat_natCast]
      rw [List.range'_append_1]; congr 1; simp only [List.length_append, List.length_cons, List.length_nil]; omega
  | @coarsen i j s s' s'' e g out rs rm h1 h2 h3 _ ih =>
    have hle := (question_group hg h1 h2).2.le
    rw [List.flatMap_cons, List.flatMap_cons, ih.1, ih.2, Report.old, Report.new]
    refine ⟨?_, ?_⟩
    · dsimp only
      rw [List.range'_append_1]; congr 1; omega
    · simp only [Int.toNat_natCast]
      rw [List.range'_append_1]; congr 1; simp only [List.length_append, List.length_cons, List.length_nil]; omega
  | @remove i j s s' s'' e b g out rs rm h1 h2 h3 _ ih =>
    have hi : i < leaves.length := (List.getElem?_eq_some_iff.1 h1).1
    rw [List.flatMap_cons, List.flatMap_cons, ih.1, ih.2, Report.old, Report.new]
    refine ⟨?_, by simp⟩
    dsimp only
    rw [List.range'_append_1]; congr 1; omega

/-- The reports are true. -/
theorem reports_true (ho : T.Ordered leaves) (hcan : ∀ e, can e → T.level e < T.maxLevel) (hg : Groups leaves offered) {i j : Nat}
    {s s' : σ} {out : List T.E} {rs : List Report} {rm : Bool} (h : T.Replaced leaves can offered ask i j s out rs rm s') :
    ∀ before : List T.E, before.length = j →
      (∀ y ∈ before, ∀ k x, i ≤ k → leaves[k]? = some x → ¬ T.Desc x y ∧ ¬ T.Desc y x) →
      ∀ r ∈ rs, T.TrueReport leaves (before ++ out) r := by
  induction h with
  | done => intro before _ _ r hr; cases hr
  | @refine i j s s' s'' e b g out rs rm h1 h2 h3 h4 _ ih =>
    intro before hb hap r hr
    rcases List.mem_cons.1 hr with rfl | hr
    · refine Or.inl ⟨rfl, rfl, e, h1, rfl, Int.natCast_nonneg _, ?_⟩
      simp only [Int.toNat_natCast]
      rw [List.drop_left' hb, List.take_left' (by simp)]
    · have := ih (before ++ (List.range (T.nc e)).map (T.child e)) (by simp [hb]) ?_ r hr
      · rwa [List.append_assoc] at this
      · intro y hy k x hk hx
        rcases List.mem_append.1 hy with hy | hy
        · exact hap y hy k x (by omega) hx
        · obtain ⟨c, hc, rfl⟩ := List.mem_map.1 hy
          have hb' := pairwise_getElem? ho.2 (show i < k by omega) h1 hx
          have := hb'.desc (Desc.child_self (hcan e h4) (List.mem_range.1 hc)) Desc.refl
          exact ⟨this.not_desc.2, this.not_desc.1⟩
  | @keep i j s s' s'' e b g a out rs rm h1 h2 h3 h4 _ ih =>
    intro before hb hap r hr
    rcases List.mem_cons.1 hr with rfl | hr
    · refine Or.inr (Or.inl ⟨rfl, rfl, rfl, Int.natCast_nonneg _, e, h1, ?_⟩)
      simp only [Int.toNat_natCast]
      rw [List.getElem?_append_right (by omega), hb, Nat.sub_self]
      rfl
    · have := ih (before ++ [e]) (by simp [hb]) ?_ r hr
      · rwa [List.append_assoc] at this
      · intro y hy k x hk hx
        rcases List.mem_append.1 hy with hy | hy
        · exact hap y hy k x (by omega) hx
        · obtain rfl := List.mem_singleton.1 hy
          have := pairwise_getElem? ho.2 (show i < k by omega) h1 hx
          exact ⟨this.not_desc.2, this.not_desc.1⟩
  | @coarsen i j s s' s'' e g out rs rm h1 h2 h3 _ ih =>
    intro before hb hap r hr
    have hgr := (question_group hg h1 h2).2
    have hpos := hgr.pos
    rcases List.mem_cons.1 hr with rfl | hr
    · refine Or.inr (Or.inr (Or.inl ⟨rfl, rfl, hpos, hgr.le, Int.natCast_nonneg _, T.parent e, ?_, ?_⟩))
      · simp only [Int.toNat_natCast]
        rw [List.getElem?_append_right (by omega), hb, Nat.sub_self]
        rfl
      · intro x hx
        obtain ⟨x1, x2⟩ := hgr.all x hx
        exact ⟨by omega, x1⟩
    · have := ih (before ++ [T.parent e]) (by simp [hb]) ?_ r hr
      · rwa [List.append_assoc] at this
      · intro y hy k x hk hx
        rcases List.mem_append.1 hy with hy | hy
        · exact hap y hy k x (by omega) hx
        · obtain rfl := List.mem_singleton.1 hy
          have hb' := pairwise_getElem? ho.2 (show i < k by omega) h1 hx
          have hl := (hgr.parent_eq h1).2
          refine ⟨?_, hgr.after x (by rw [List.append_nil]; exact mem_drop_of_getElem? hx (by omega))⟩
          intro hd
          exact hb'.not_desc.2 (hd.trans (desc_parent (ho.1 e (List.mem_of_getElem? h1)) (by omega)))
  | @remove i j s s' s'' e b g out rs rm h1 h2 h3 hrest ih =>
    intro before hb hap r hr
    rcases List.mem_cons.1 hr with rfl | hr
    · refine Or.inr (Or.inr (Or.inr ⟨rfl, rfl, rfl, rfl, e, h1, ?_⟩))
      intro y hy
      rcases List.mem_append.1 hy with hy | hy
      · exact hap y hy i e le_rfl h1
      · exact (origin_apart ho hcan hg hrest.adapted h1 y hy).2
    · exact ih before hb (fun y hy k x hk hx => hap y hy k x (by omega) hx) r hr

end Sweep

/-- C35 for one tree. After a non-recursive adaptation of the leaves `old` of a tree, in a complete forest or in one from which leaves were
removed, with any callback, `t8_forest_iterate_replace` reports exactly the steps of the adaptation (`Replaced`): every old leaf and every new
leaf is in exactly one report, in order, and the flag tells what happened (`TrueReport`). `inc` is the flag `incomplete_trees` of the new
forest; it is set if it was set for the old forest or if this process removed a leaf (or if another process did). -/
theorem C35_tree (hS : S.Lawful) {cfg : Cfg} {cb : Callback σ T.E} (hcb : Legal cb) {lt : Nat} {pre old post : List T.E}
    (ho : T.Ordered (pre ++ old ++ post)) (env : Env cfg lt pre post) (hc : Covered S cfg old) (hlev : ∀ x ∈ old, T.level x ≤ cfg.maxlevel)
    (hrec : cfg.recursive = false) (maxChildren : Nat) (rm0 : Bool) (s0 : σ) {new : List T.E} {rm : Bool} {s' : σ}
    (h : adaptTree S cfg cb lt maxChildren old rm0 s0 = some (new, rm, s')) {inc : Bool} (hinc : cfg.incomplete || rm → inc = true) :
    ∃ rs rm', replaceTree S inc cfg.incomplete old new = some rs ∧
      T.Replaced old (CanRefine cfg) (Offered cfg lt old) (fun st i b g => cb st lt i b g) 0 0 s0 new rs rm' s' ∧
      rs.flatMap Report.old = List.range old.length ∧ rs.flatMap Report.new = List.range new.length ∧
      ∀ r ∈ rs, T.TrueReport old new r := by
  have hoo : T.Ordered old := ho.sublist (by
    rw [List.append_assoc]
    exact (List.sublist_append_left _ _).trans (List.sublist_append_right _ _))
  have hsweep : ∃ rm', T.Adapted old (CanRefine cfg) (Offered cfg lt old) (fun st i b g => cb st lt i b g) 0 s0 new rm' s' ∧
      rm = (rm0 || rm') := by
    by_cases hne : old = []
    · subst hne
      rw [adaptTree, if_neg (by simp)] at h
      have h' := Option.some.inj h
      obtain ⟨rfl, h''⟩ := Prod.mk.inj h'
      obtain ⟨rfl, rfl⟩ := Prod.mk.inj h''
      exact ⟨false, Adapted.done (leaves := []), by simp⟩
    · obtain ⟨tel, rm1, s1, h1, _, _, _, h5⟩ := adaptTree_spec hS hcb ho env hc hlev hne maxChildren rm0 s0
      rw [h] at h1
      split at h1
      · cases h1
      · have h' := Option.some.inj h1
        obtain ⟨rfl, h''⟩ := Prod.mk.inj h'
        obtain ⟨rfl, rfl⟩ := Prod.mk.inj h''
        exact h5 hrec
  obtain ⟨rm', hA, hrm⟩ := hsweep
  obtain ⟨rs, hR⟩ := replaced_of_adapted hA 0
  have hg := offered_groups (cfg := cfg) (lt := lt) hoo
  have hcan : ∀ e, CanRefine cfg e → T.level e < T.maxLevel := fun e he => he.2
  refine ⟨rs, rm', ?_, hR, ?_, ?_, ?_⟩
  · refine replaceTree_spec hS hoo hcan hg ?_ hR ?_
    · intro hi
      have hci : cfg.incomplete = false := by
        cases hc : cfg.incomplete with
        | false => rfl
        | true => rw [hinc (by simp [hc])] at hi; cases hi
      exact ⟨hci, offered_full hci⟩
    · intro hi
      cases hc : rm' with
      | false => rfl
      | true => rw [hinc (by simp [hrm, hc])] at hi; cases hi
  · rw [(reports_once hg hR).1, List.range_eq_range']; simp
  · rw [(reports_once hg hR).2, List.range_eq_range']
  · have := reports_true hoo hcan hg hR [] rfl (by simp)
    simpa using this

end Tree

section Forest
variable {C : Type} [DecidableEq C] {T : C → RTree} {S : ∀ c, Scheme (T c)}

/-- C35 for the trees of a process. The first tree may have leaves `pre` on earlier processes and the last one leaves `post` on
later ones. The calls go through the trees in order; those for tree `k` are the reports about its adaptation. -/
theorem C35_forest (hS : ∀ c, (S c).Lawful) {cfg : Cfg} {cb : ∀ c, Callback σ (T c).E} (maxChildren : C → Nat) (hcb : ∀ c, Legal (cb c))
    (hrec : cfg.recursive = false) (trees : List (LocalTree T)) (s0 : σ) (pre post : (k : Nat) → (t : LocalTree T) → List (T t.cls).E)
    (h : ∀ (k : Nat) (t : LocalTree T), trees[k]? = some t → (T t.cls).Ordered (pre k t ++ t.leaves ++ post k t) ∧
      Covered (S t.cls) cfg t.leaves ∧ (∀ x ∈ t.leaves, (T t.cls).level x ≤ cfg.maxlevel) ∧ (pre k t ≠ [] → k = 0 ∧ 0 < cfg.mpirank) ∧
      (post k t ≠ [] → k + 1 = trees.length ∧ cfg.mpirank + 1 < cfg.mpisize))
    {trees' : List (LocalTree T)} {incLocal : Bool} {s' : σ} (ha : adapt S maxChildren cfg cb trees s0 = some (trees', incLocal, s'))
    {inc : Bool} (hinc : incLocal = true → inc = true) :
    ∃ calls, iterateReplace S inc cfg.incomplete trees trees' = some calls ∧ (calls.map Prod.fst).Pairwise (· ≤ ·) ∧
      (∀ c ∈ calls, c.1 < trees.length) ∧
      ∀ (k : Nat) (t : LocalTree T), trees[k]? = some t → ∃ (new : List (T t.cls).E) (rs : List Report) (rm : Bool) (s1 s2 : σ),
        trees'[k]? = some ⟨t.gtree, t.cls, new⟩ ∧ (calls.filter (fun c => c.1 = k)).map Prod.snd = rs ∧
        (T t.cls).Replaced t.leaves (CanRefine cfg) (Offered { cfg with numTrees := trees.length } k t.leaves)
          (fun st i b g => cb t.cls st k i b g) 0 0 s1 new rs rm s2 ∧
        rs.flatMap Report.old = List.range t.leaves.length ∧ rs.flatMap Report.new = List.range new.length ∧
        ∀ r ∈ rs, (T t.cls).TrueReport t.leaves new r := by
  have key : ∀ (rest : List (LocalTree T)) (k : Nat) (rm0 : Bool) (s0 : σ) (rest' : List (LocalTree T)) (rm : Bool) (s' : σ),
      (∀ j, rest[j]? = trees[k + j]?) → k + rest.length = trees.length →
      adaptTrees S maxChildren { cfg with numTrees := trees.length } cb rest k rm0 s0 = some (rest', rm, s') →
      (cfg.incomplete || rm → inc = true) → (rm0 = true → rm = true) ∧
      ∃ calls, replaceTrees S inc cfg.incomplete rest rest' k = some calls ∧ (calls.map Prod.fst).Pairwise (· ≤ ·) ∧
      (∀ c ∈ calls, k ≤ c.1 ∧ c.1 < trees.length) ∧
      ∀ (j : Nat) (t : LocalTree T), rest[j]? = some t → ∃ (new : List (T t.cls).E) (rs : List Report) (rm : Bool) (s1 s2 : σ),
        rest'[j]? = some ⟨t.gtree, t.cls, new⟩ ∧ (calls.filter (fun c => c.1 = k + j)).map Prod.snd = rs ∧
        (T t.cls).Replaced t.leaves (CanRefine cfg) (Offered { cfg with numTrees := trees.length } (k + j) t.leaves)
          (fun st i b g => cb t.cls st (k + j) i b g) 0 0 s1 new rs rm s2 ∧
        rs.flatMap Report.old = List.range t.leaves.length ∧ rs.flatMap Report.new = List.range new.length ∧
        ∀ r ∈ rs, (T t.cls).TrueReport t.leaves new r := by
    intro rest
    induction rest with
    | nil =>
      intro k rm0 s0 rest' rm s' _ _ ha _
      rw [adaptTrees] at ha
      have ha' := Option.some.inj ha
      obtain ⟨rfl, ha''⟩ := Prod.mk.inj ha'
      obtain ⟨rfl, rfl⟩ := Prod.mk.inj ha''
      exact ⟨id, [], rfl, by simp, by simp, by simp⟩
    | cons t ts ih =>
      intro k rm0 s0 rest' rm s' hr hlen ha hinc
      have hk : trees[k]? = some t := by
        have := hr 0
        simpa using this.symm
      obtain ⟨h1, hcov, h2, h3, h4⟩ := h k t hk
      rw [adaptTrees] at ha
      cases hstep : adaptTree (S t.cls) { cfg with numTrees := trees.length } (cb t.cls) k (maxChildren t.cls) t.leaves rm0 s0 with
      | none => rw [hstep] at ha; cases ha
      | some r =>
        obtain ⟨new, rm1, s1⟩ := r
        rw [hstep] at ha
        simp only [Option.bind_eq_bind, Option.bind_some] at ha
        cases hrest : adaptTrees S maxChildren { cfg with numTrees := trees.length } cb ts (k + 1) rm1 s1 with
        | none => rw [hrest] at ha; cases ha
        | some r =>
          obtain ⟨ts', rm2, s2⟩ := r
          rw [hrest] at ha
          have ha' := Option.some.inj ha
          obtain ⟨rfl, ha''⟩ := Prod.mk.inj ha'
          obtain ⟨rfl, rfl⟩ := Prod.mk.inj ha''
          obtain ⟨hmono, calls, f1, f2, f3, f4⟩ := ih (k + 1) rm1 s1 ts' rm2 s2 (fun j => by
              have := hr (j + 1)
              rw [List.getElem?_cons_succ] at this
              rw [this]; congr 1; omega) (by simp at hlen; omega) hrest hinc
          obtain ⟨rs, rm', g1, g2, g3, g4, g5⟩ := C35_tree (hS t.cls) (hcb t.cls) (cfg := { cfg with numTrees := trees.length }) h1 ⟨h3, h4⟩ hcov h2
            hrec (maxChildren t.cls) rm0 s0 hstep (inc := inc) (by
              intro hc
              apply hinc
              simp only [Bool.or_eq_true] at hc ⊢
              rcases hc with hc | hc
              · exact Or.inl hc
              · exact Or.inr (hmono hc))
          have hrm1 : rm0 = true → rm1 = true := by
            intro h0
            by_cases hne : t.leaves = []
            · rw [adaptTree, hne, if_neg (by simp)] at hstep
              have := (Prod.mk.inj (Prod.mk.inj (Option.some.inj hstep)).2).1
              rw [← this, h0]
            · obtain ⟨tel, rm3, s3, e1, _, _, _, e5⟩ := adaptTree_spec (cfg := { cfg with numTrees := trees.length }) (hS t.cls) (hcb t.cls) h1 ⟨h3, h4⟩ hcov h2 hne (maxChildren t.cls) rm0 s0
              obtain ⟨rm4, _, e6⟩ := e5 hrec
              rw [hstep] at e1
              split at e1
              · cases e1
              · have := (Prod.mk.inj (Prod.mk.inj (Option.some.inj e1)).2).1
                rw [this, e6, h0]; rfl
          refine ⟨fun h0 => hmono (hrm1 h0), rs.map (Prod.mk k) ++ calls, ?_, ?_, ?_, ?_⟩
          · rw [replaceTrees, dif_pos rfl]
            simp only [g1, f1, Option.bind_eq_bind, Option.bind_some]
            rfl
          · rw [List.map_append, List.pairwise_append]
            refine ⟨?_, f2, ?_⟩
            · rw [List.map_map]
              have : ((Prod.fst : Nat × Report → Nat) ∘ Prod.mk k) = fun _ => k := rfl
              rw [this, List.pairwise_map]
              exact List.pairwise_of_forall (fun _ _ => le_rfl)
            · intro a ha b hb
              obtain ⟨x, hx, rfl⟩ := List.mem_map.1 ha
              obtain ⟨y, hy, rfl⟩ := List.mem_map.1 hb
              obtain ⟨r, _, rfl⟩ := List.mem_map.1 hx
              have := (f3 y hy).1
              show k ≤ y.1
              omega
          · intro c hc
            rcases List.mem_append.1 hc with hc | hc
            · obtain ⟨r, _, rfl⟩ := List.mem_map.1 hc
              refine ⟨le_rfl, ?_⟩
              simp at hlen
              show k < trees.length
              omega
            · have := f3 c hc
              omega
          · intro j u hu
            cases j with
            | zero =>
              simp only [List.getElem?_cons_zero, Option.some.injEq] at hu
              subst hu
              refine ⟨new, rs, rm', s0, s1, rfl, ?_, g2, g3, g4, g5⟩
              rw [List.filter_append, List.filter_eq_self.2 (by simp), List.filter_eq_nil_iff.2, List.append_nil, List.map_map]
              · exact List.map_id rs
              · intro c hc
                have := (f3 c hc).1
                simp
                omega
            | succ j =>
              obtain ⟨new', rs', rm'', s3, s4, e1, e2, e3⟩ := f4 j u (by simpa using hu)
              rw [show k + 1 + j = k + (j + 1) by omega] at e2 e3
              refine ⟨new', rs', rm'', s3, s4, by simpa using e1, ?_, e3⟩
              rw [List.filter_append, List.filter_eq_nil_iff.2, List.nil_append, e2]
              intro c hc
              obtain ⟨r, _, rfl⟩ := List.mem_map.1 hc
              simp
  rw [adapt] at ha
  cases hr : adaptTrees S maxChildren { cfg with numTrees := trees.length } cb trees 0 false s0 with
  | none => rw [hr] at ha; cases ha
  | some r =>
    obtain ⟨t1, rm1, s1⟩ := r
    rw [hr] at ha
    have ha' := Option.some.inj ha
    obtain ⟨rfl, ha''⟩ := Prod.mk.inj ha'
    obtain ⟨rfl, rfl⟩ := Prod.mk.inj ha''
    obtain ⟨_, calls, f1, f2, f3, f4⟩ := key trees 0 false s0 t1 rm1 s1 (by simp) (by simp) hr hinc
    refine ⟨calls, f1, f2, fun c hc => (f3 c hc).2, ?_⟩
    intro k t hk
    have := f4 k t hk
    simpa using this

end Forest
end T8.Replace

namespace T8.Replace.Example
open T8.Sample T8.Standalone RTree T8.Adapt

/-- The sample mesh after an adaptation that refines the first leaf, coarsens the family, keeps a leaf and removes the last one: the calls of the
replace callback. -/
example : replaceTree (Cls.scheme .quad) true false leaves
      ((List.range 4).map (Q.child (c 0)) ++ [c 1, c 2]) =
    some [⟨1, 1, 0, 4, 0⟩, ⟨-1, 4, 1, 1, 4⟩, ⟨0, 1, 5, 1, 5⟩, ⟨-2, 1, 6, 0, -1⟩] := by
  rw [replaceTree, whileO_of_run 4 (r := some ⟨6, 6, [⟨1, 1, 0, 4, 0⟩, ⟨-1, 4, 1, 1, 4⟩, ⟨0, 1, 5, 1, 5⟩]⟩) (by decide +kernel)]
  decide +kernel

/-- A callback that refines leaf 0, coarsens families, removes leaf 6 and keeps the others. -/
def cb : Callback Nat Q.E := fun s _ i b _ => (if i = 0 then 1 else if b then -1 else if i = 6 then -2 else 0, s + 1)

theorem legal : Legal cb := by
  intro s lt le b g
  unfold cb
  dsimp only
  split
  · simp
  · split
    · simp_all
    · split <;> simp

/-- The adaptation with it succeeds, and the theorem applies. -/
example : ∃ new rm s' rs, adaptTree (Cls.scheme .quad) ⟨5, false, false, 0, 1, 1⟩ cb 0 4 leaves false 0 = some (new, rm, s') ∧
    replaceTree (Cls.scheme .quad) true false leaves new = some rs ∧ ∀ r ∈ rs, Q.TrueReport leaves new r := by
  have ho : Q.Ordered ([] ++ leaves ++ []) := by simpa using ordered
  have hlev : ∀ x ∈ leaves, Q.level x ≤ 5 := by decide +kernel
  obtain ⟨new, rm, s', h1, _, _, _, h5⟩ := adaptTree_spec (Cls.scheme_lawful .quad) legal (cfg := ⟨5, false, false, 0, 1, 1⟩) (lt := 0) ho
    ⟨by simp, by simp⟩ (fun _ => Or.inl (Cls.scheme_exact .quad)) hlev (by simp [leaves]) 4 false 0
  have hne : new ≠ [] := by
    rintro rfl
    obtain ⟨rm', hA, _⟩ := h5 rfl
    generalize hi : (0 : Nat) = i at hA
    generalize hn : ([] : List Q.E) = out at hA
    cases hA with
    | done => simp [leaves] at hi
    | refine he' _ _ _ _ =>
      have hz := (List.append_eq_nil_iff.1 hn.symm).1
      subst hi
      have he : leaves[0]? = some (c 0) := rfl
      rw [he] at he'
      obtain rfl := Option.some.inj he'
      revert hz
      decide +kernel
    | keep => cases hn
    | coarsen => cases hn
    | remove _ _ h _ =>
      subst hi
      simp [cb] at h
  rw [if_neg hne] at h1
  obtain ⟨rs, _, g1, _, _, _, g5⟩ := C35_tree (Cls.scheme_lawful .quad) legal (pre := []) (post := []) ho ⟨by simp, by simp⟩
    (fun _ => Or.inl (Cls.scheme_exact .quad)) hlev rfl 4 false 0 h1
    (inc := true) (by simp)
  exact ⟨new, rm, s', rs, h1, g1, g5⟩

end T8.Replace.Example
