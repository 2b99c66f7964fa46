/-
The loop of `t8_forest_adapt` over the elements of a tree: what every callback yields.
-/
import Verif.Lemmas.Adapt

namespace T8
namespace Adapt
open RTree
variable {T : RTree} {S : Scheme T} {σ : Type}

/-- Keeping the mesh requires that nothing is removed, the old trees are complete and, in recursive mode, that elements of
the maximum level are not asked to be refined. -/
def Keeps (T : RTree) (cfg : Cfg) (cb : Callback σ T.E) : Prop :=
  NoRemove cb ∧ cfg.incomplete = false ∧ (cfg.recursive = true → NoVainRefine T cfg.maxlevel cb)

/-- The invariant of the loop. -/
structure Inv (cfg : Cfg) (cb : Callback σ T.E) (lt : Nat) (pre leaves post : List T.E) (rm0 : Bool) (s0 : σ)
    (s : State σ T.E) : Prop where
  inserted : s.inserted = s.telements.length
  le : s.considered ≤ leaves.length
  ordered : T.Ordered (pre ++ s.telements ++ (leaves.drop s.considered ++ post))
  prop : ∀ x ∈ s.telements, T.level x ≤ cfg.maxlevel ∧ Meets leaves s.considered x
  weight : Keeps T cfg cb → s.removed = rm0 ∧ weight s.telements + weight (leaves.drop s.considered) = weight leaves
  sweep : cfg.recursive = false → ∀ out rm s', T.Adapted leaves (CanRefine cfg) (Offered cfg lt leaves)
    (fun st i b g => cb st lt i b g) s.considered s.st out rm s' →
    ∃ rm', T.Adapted leaves (CanRefine cfg) (Offered cfg lt leaves) (fun st i b g => cb st lt i b g) 0 s0
      (s.telements ++ out) rm' s' ∧ (rm0 || rm') = (s.removed || rm)

/-- Recursive coarsening after a push. -/
theorem tryCoarsen_spec (hS : S.Lawful) {cfg : Cfg} (cb : Callback σ T.E) (lt : Nat) {A B : List T.E} {e : T.E}
    {s : State σ T.E} (hins : s.inserted = s.telements.length) (hlast : s.telements.getLast? = some e)
    (ho : T.Ordered (A ++ s.telements ++ B)) (hA : A ≠ [] → 0 < cfg.mpirank) (P : T.E → Prop)
    (hP : ∀ x, T.Valid x → 0 < T.level x → P x → P (T.parent x)) (hPt : ∀ x ∈ s.telements, P x) :
    ∃ tel st, tryCoarsen S cfg cb lt e s = some { s with telements := tel, inserted := tel.length, st } ∧
      T.Ordered (A ++ tel ++ B) ∧ (∀ x ∈ tel, P x) ∧
      (cfg.incomplete = false → weight tel = weight s.telements) ∧
      (cfg.recursive = false → tel = s.telements ∧ st = s.st) := by
  obtain ⟨c, ins, co, nc, tel, rm, st⟩ := s
  simp only at hins hlast ho hPt
  subst hins
  have hsame : ∃ tel' st', some (⟨c, tel.length, co, nc, tel, rm, st⟩ : State σ T.E) =
      some ⟨c, tel'.length, co, nc, tel', rm, st'⟩ ∧
      T.Ordered (A ++ tel' ++ B) ∧ (∀ x ∈ tel', P x) ∧ (cfg.incomplete = false → weight tel' = weight tel) ∧
      (cfg.recursive = false → tel' = tel ∧ st' = st) :=
    ⟨tel, st, rfl, ho, hPt, fun _ => rfl, fun _ => ⟨rfl, rfl⟩⟩
  rw [tryCoarsen]
  by_cases hrec : cfg.recursive = true
  · rw [if_pos hrec]
    simp only
    by_cases hc : 0 < S.childId e ∧ S.childId e = (nc : Int) - 1
    · rw [if_pos hc]
      have ve : T.Valid e := ho.1 e (by simp [List.mem_of_getLast? hlast])
      have h0 : 0 < T.level e := by
        rcases Nat.eq_zero_or_pos (T.level e) with h | h
        · have := hS.childId_root
          rw [← T.root_unique e ve h] at this
          omega
        · exact h
      obtain ⟨tel', st', h1, h2, h3, h4, h5⟩ := coarsen_spec hS cb lt c ho hA hlast h0 co st P hP hPt
      rw [h1]
      exact ⟨tel', st', rfl, h3, h4, h5, fun h => by rw [h] at hrec; simp at hrec⟩
    · rw [if_neg hc]; exact hsame
  · rw [if_neg hrec]; exact hsame

theorem drop_cons {α : Type} {l : List α} {i : Nat} {e : α} (he : l[i]? = some e) : l.drop i = e :: l.drop (i + 1) := by
  have hi : i < l.length := (List.getElem?_eq_some_iff.1 he).1
  rw [List.drop_eq_getElem_cons hi]
  congr 1
  rw [List.getElem?_eq_getElem hi] at he
  exact Option.some.inj he

set_option maxHeartbeats 1000000 in
theorem elementBody_spec (hS : S.Lawful) {cfg : Cfg} {cb : Callback σ T.E} (hcb : Legal cb) {lt : Nat}
    {pre leaves post : List T.E} (ho : T.Ordered (pre ++ leaves ++ post)) (env : Env cfg lt pre post)
    (hc : Covered S cfg leaves) (hlev : ∀ x ∈ leaves, T.level x ≤ cfg.maxlevel) {rm0 : Bool} {s0 : σ} {s : State σ T.E}
    (hI : Inv cfg cb lt pre leaves post rm0 s0 s) (hlt : s.considered < leaves.length) :
    ∃ s', elementBody S cfg cb lt leaves s = some s' ∧ Inv cfg cb lt pre leaves post rm0 s0 s' ∧
      s.considered < s'.considered := by
  obtain ⟨i, ins, co, nch, tel, rm, st⟩ := s
  simp only at hlt
  obtain ⟨hins, hle, hord, hprop, hwt, hsweep⟩ := hI
  simp only at hins hle hord hprop hwt hsweep
  subst hins
  obtain ⟨e, he⟩ : ∃ e : T.E, leaves[i]? = some e := ⟨leaves[i], List.getElem?_eq_getElem hlt⟩
  have hvl : ∀ x ∈ leaves, T.Valid x := fun x hx => ho.1 x (by simp [hx])
  have hem := List.mem_of_getElem? he
  have ve := hvl e hem
  have hdrop := drop_cons he
  have hmeet_e : e ∈ leaves.take (i + 1) := mem_take_of_getElem? he (by omega)
  obtain ⟨n, hn1, hn2, hn3, hq⟩ := question_spec hS ho env hc he
  have hpre : pre ≠ [] → 0 < cfg.mpirank := fun h => (env.pre h).2
  have hns := hS.numSiblings_pos e ve
  -- the leaf list around the current leaf
  have hord1 : T.Ordered ((pre ++ tel) ++ [e] ++ (leaves.drop (i + 1) ++ post)) := by
    rw [hdrop] at hord
    simpa using hord
  simp only [elementBody, he, hn1, Option.bind_eq_bind, Option.bind_some]
  generalize hnum : (if n = 0 then 1 else n) = num at hq ⊢
  generalize hg : (leaves.drop i).take num = g at hq ⊢
  generalize hans : cb st lt i (decide (n ≠ 0)) g = ans
  obtain ⟨a, st'⟩ := ans
  have hnum' : num ≤ S.numSiblings e := by
    rw [← hnum]; split
    · omega
    · exact hn2
  have hlegal := hcb st lt i (decide (n ≠ 0)) g
  rw [hans] at hlegal
  simp only at hlegal
  rw [show assertO (num ≤ S.numSiblings e) = some () from assertO_true hnum', Option.bind_some,
    show assertO (n ≠ 0 ∨ a ≠ -1) = some () from assertO_true (by
      rcases hlegal with h | h | h | ⟨h, h'⟩
      · right; omega
      · right; omega
      · right; omega
      · left; simpa using h'), Option.bind_some]
  dsimp only
  have hcan : ¬ (T.level e ≥ cfg.maxlevel ∨ S.isRefinable e = false) ↔ CanRefine cfg e := by
    have := hS.isRefinable e ve
    unfold CanRefine
    constructor
    · intro h
      rw [not_or] at h
      exact ⟨by omega, this.1 (by simpa using h.2)⟩
    · rintro ⟨h1, h2⟩ (h | h)
      · omega
      · rw [this.2 h2] at h; simp at h
  -- keeping the element
  have hkeep : (a = 0 ∨ (a = 1 ∧ ¬ CanRefine cfg e)) →
      ∃ s', applyAnswer S cfg cb lt e (S.numSiblings e) num 0 ⟨i, tel.length, co, nch, tel, rm, st'⟩ = some s' ∧
        Inv cfg cb lt pre leaves post rm0 s0 s' ∧ i < s'.considered := by
    intro ha
    have hord2 : T.Ordered (pre ++ (tel ++ [e]) ++ (leaves.drop (i + 1) ++ post)) := by simpa using hord1
    obtain ⟨tel', st'', t1, t2, t3, t4, t5⟩ := tryCoarsen_spec hS (cfg := cfg) cb lt
      (s := ⟨i, tel.length + 1, co, nch, tel ++ [e], rm, st'⟩) (e := e) (by simp) (by simp) hord2 hpre
      (fun x => T.level x ≤ cfg.maxlevel ∧ Meets leaves (i + 1) x)
      (fun x hx h0 h => ⟨by have := T.level_parent x hx h0; have := h.1; omega, h.2.parent hvl hx h0⟩)
      (by
        intro x hx
        rcases List.mem_append.1 hx with hx | hx
        · exact ⟨(hprop x hx).1, (hprop x hx).2.mono (by omega)⟩
        · rw [List.mem_singleton] at hx
          subst hx
          exact ⟨hlev x hem, x, hmeet_e, Or.inl Desc.refl⟩)
    rw [applyAnswer, if_neg (by decide), if_neg (by decide), if_pos rfl]
    simp only [Option.bind_eq_bind]
    rw [t1, Option.bind_some]
    refine ⟨_, rfl, ⟨rfl, by simp; omega, t2, t3, ?_, ?_⟩, by simp⟩
    · intro hk
      obtain ⟨w1, w2⟩ := hwt hk
      refine ⟨w1, ?_⟩
      have := t4 hk.2.1
      simp only at this ⊢
      rw [this]
      rw [hdrop, weight_cons] at w2
      rw [weight_append, weight_cons, weight_nil]
      omega
    · intro hrec out rmo sf hA
      obtain ⟨r1, r2⟩ := t5 hrec
      simp only at r1 r2 hA ⊢
      subst r1 r2
      have := hsweep hrec (e :: out) rmo sf (Adapted.keep he hq hans ha hA)
      simpa using this
  rcases hlegal with ha | ha | ha | ⟨ha, hb⟩
  · -- refine
    by_cases hcr : CanRefine cfg e
    · rw [if_neg (by rintro ⟨_, h⟩; exact (hcan.2 hcr) h), ha, applyAnswer, if_pos rfl]
      obtain ⟨c1, c2⟩ := hcr
      cases hrec : cfg.recursive with
      | true =>
        rw [if_pos rfl]
        obtain ⟨new, rm', st'', r1, r2, r3, r4⟩ := refine_spec hS (cfg := cfg) hcb lt i tel ve c2 c1 rm st'
        simp only [r1, Option.bind_eq_bind, Option.bind_some]
        refine ⟨_, rfl, ⟨by simp, by simp; omega, ?_, ?_, ?_, ?_⟩, by simp⟩
        · have := hord1.replace_desc r2 (fun x hx => (r3 x hx).1)
          simpa using this
        · intro x hx
          rcases List.mem_append.1 hx with hx | hx
          · exact ⟨(hprop x hx).1, (hprop x hx).2.mono (by simp)⟩
          · exact ⟨(r3 x hx).2.1, e, hmeet_e, Or.inr (r3 x hx).1⟩
        · intro hk
          obtain ⟨w1, w2⟩ := hwt hk
          obtain ⟨w3, w4⟩ := r4 hk.1 (hk.2.2 hrec)
          refine ⟨w3.trans w1, ?_⟩
          rw [hdrop, weight_cons] at w2
          simp only [weight_append]
          omega
        · intro h; rw [hrec] at h; simp at h
      | false =>
        rw [if_neg (by decide), show assertO (tel.length = tel.length) = some () from assertO_true rfl]
        simp only [Option.bind_eq_bind, Option.bind_some]
        have hmemc : ∀ x ∈ children e, T.Desc e x ∧ T.level x = T.level e + 1 := by
          intro x hx
          obtain ⟨j, hj, rfl⟩ := mem_children.1 hx
          exact ⟨Desc.child_self c2 hj, T.level_child e j ve c2 hj⟩
        refine ⟨_, rfl, ⟨by simp [children], by simp; omega, ?_, ?_, ?_, ?_⟩, by simp⟩
        · have := hord1.replace_children c2
          simpa [children] using this
        · intro x hx
          rcases List.mem_append.1 hx with hx | hx
          · exact ⟨(hprop x hx).1, (hprop x hx).2.mono (by simp)⟩
          · obtain ⟨d1, d2⟩ := hmemc x hx
            exact ⟨by omega, e, hmeet_e, Or.inr d1⟩
        · intro hk
          obtain ⟨w1, w2⟩ := hwt hk
          refine ⟨w1, ?_⟩
          rw [hdrop, weight_cons] at w2
          have := weight_children ve c2
          simp only [weight_append, children]
          omega
        · intro hrec out rmo sf hA
          have := hsweep hrec (children e ++ out) rmo sf
            (Adapted.refine he hq (by rw [← ha]; exact hans) ⟨c1, c2⟩ hA)
          simpa using this
    · rw [if_pos ⟨by omega, by by_contra h; exact hcr (hcan.1 h)⟩]
      exact hkeep (Or.inr ⟨ha, hcr⟩)
  · rw [if_neg (by omega), ha]
    exact hkeep (Or.inl ha)
  · -- remove
    rw [if_neg (by omega), ha, applyAnswer, if_neg (by decide), if_neg (by decide), if_neg (by decide),
      show assertO ((-2 : Int) = -2) = some () from assertO_true rfl]
    simp only [Option.bind_eq_bind, Option.bind_some]
    refine ⟨_, rfl, ⟨rfl, by simp; omega, ?_, ?_, ?_, ?_⟩, by simp⟩
    · refine hord1.sublist ?_
      simp only [List.append_assoc]
      exact List.Sublist.append_left (List.Sublist.append_left (List.sublist_append_right _ _) _) _
    · intro x hx
      exact ⟨(hprop x hx).1, (hprop x hx).2.mono (by simp)⟩
    · intro hk
      refine absurd ?_ (hk.1 st lt i (decide (n ≠ 0)) g)
      rw [hans]; exact ha
    · intro hrec out rmo sf hA
      obtain ⟨rm', x1, x2⟩ := hsweep hrec out true sf (Adapted.remove he hq (by rw [← ha]; exact hans) hA)
      exact ⟨rm', x1, by simpa using x2⟩
  · -- coarsen
    have hn0 : n ≠ 0 := by simpa using hb
    rw [if_neg hn0] at hnum
    subst hnum
    obtain ⟨l0, hgr, hfam⟩ := hn3 hn0
    have hgle := hgr.le
    have lp := T.level_parent e ve l0
    rw [if_neg (by omega), ha, applyAnswer, if_neg (by decide), if_pos rfl,
      show assertO (0 < T.level e) = some () from assertO_true l0]
    simp only [Option.bind_eq_bind, Option.bind_some]
    have hgdesc : ∀ x ∈ (leaves.drop i).take n, T.Desc (T.parent e) x := by
      intro x hx
      obtain ⟨x1, x2⟩ := hgr.all x hx
      rw [← x1]
      exact desc_parent (hvl x (List.mem_of_mem_drop (List.mem_of_mem_take hx))) (by omega)
    have hgne : (leaves.drop i).take n ≠ [] := List.ne_nil_of_mem (mem_group_of he le_rfl (by omega))
    have hsplit : leaves.drop i = (leaves.drop i).take n ++ leaves.drop (i + n) := by
      rw [← List.drop_drop, List.take_append_drop]
    -- the elements before do not overlap the parent
    have htelp : ∀ x ∈ tel, ¬ T.Desc (T.parent e) x := by
      intro x hx hd
      obtain ⟨_, y, hy, hm⟩ := hprop x hx
      have hny := hgr.before y (List.mem_append_right _ hy)
      rcases hm with hm | hm
      · exact hny (hd.trans hm)
      · have vy := hvl y (List.mem_of_mem_take hy)
        rcases Nat.le_total (T.level (T.parent e)) (T.level y) with hle' | hle'
        · exact hny (desc_comparable hgr.valid vy hd hm hle')
        · have hyp := desc_comparable vy hgr.valid hm hd hle'
          obtain ⟨j, hj, hy'⟩ := mem_take_getElem? hy
          have hbe : T.Before y e := by
            have hpw := ho.2
            rw [List.pairwise_append, List.pairwise_append] at hpw
            exact pairwise_getElem? hpw.1.2.1 hj hy' he
          exact hbe.not_desc.1 (hyp.trans (desc_parent ve l0))
    have hord2 : T.Ordered (pre ++ (tel ++ [T.parent e]) ++ (leaves.drop (i + n) ++ post)) := by
      have h1 : T.Ordered ((pre ++ tel) ++ (leaves.drop i).take n ++ (leaves.drop (i + n) ++ post)) := by
        rw [hsplit] at hord
        simp only [List.append_assoc] at hord ⊢
        exact hord
      have h2 := h1.replace_group hgr.valid hgne hgdesc (fun x hx => by
        rcases List.mem_append.1 hx with hx | hx
        · exact hgr.before x (List.mem_append_left _ hx)
        · exact htelp x hx) hgr.after
      simpa using h2
    obtain ⟨tel', st'', t1, t2, t3, t4, t5⟩ := tryCoarsen_spec hS (cfg := cfg) cb lt
      (s := ⟨i, tel.length + 1, co, S.numSiblings e, tel ++ [T.parent e], rm, st'⟩) (e := T.parent e) (by simp) (by simp)
      hord2 hpre
      (fun x => T.level x ≤ cfg.maxlevel ∧ Meets leaves (i + n) x)
      (fun x hx h0 h => ⟨by have := T.level_parent x hx h0; have := h.1; omega, h.2.parent hvl hx h0⟩)
      (by
        intro x hx
        rcases List.mem_append.1 hx with hx | hx
        · exact ⟨(hprop x hx).1, (hprop x hx).2.mono (by omega)⟩
        · rw [List.mem_singleton] at hx
          subst hx
          refine ⟨by have := hlev e hem; omega, e, mem_take_of_getElem? he (by omega), Or.inl (desc_parent ve l0)⟩)
    rw [t1, Option.bind_some]
    refine ⟨_, rfl, ⟨rfl, hgle, t2, t3, ?_, ?_⟩, by simp; omega⟩
    · intro hk
      obtain ⟨w1, w2⟩ := hwt hk
      refine ⟨w1, ?_⟩
      have h1 := t4 hk.2.1
      obtain ⟨f1, f2, f3⟩ := hfam hk.2.1
      have h2 := weight_children f1 f2
      simp only at h1 ⊢
      rw [h1]
      rw [hsplit, weight_append, f3, h2] at w2
      rw [weight_append, weight_cons, weight_nil]
      omega
    · intro hrec out rmo sf hA
      obtain ⟨r1, r2⟩ := t5 hrec
      simp only at r1 r2 hA ⊢
      subst r1 r2
      have hglen : g.length = n := by
        rw [← hg, List.length_take, List.length_drop]; omega
      have hq' : T.Question leaves (Offered cfg lt leaves) i e true g := by
        simpa [hn0] using hq
      have := hsweep hrec (T.parent e :: out) rmo sf (Adapted.coarsen he hq' (by
        rw [← ha, ← hans]; simp [hn0]) (by rw [hglen]; exact hA))
      simpa using this

/-- The adaptation of one tree. -/
theorem adaptTree_spec (hS : S.Lawful) {cfg : Cfg} {cb : Callback σ T.E} (hcb : Legal cb) {lt : Nat}
    {pre leaves post : List T.E} (ho : T.Ordered (pre ++ leaves ++ post)) (env : Env cfg lt pre post)
    (hc : Covered S cfg leaves) (hlev : ∀ x ∈ leaves, T.level x ≤ cfg.maxlevel) (hne : leaves ≠ []) (maxChildren : Nat) (rm0 : Bool) (s0 : σ) :
    ∃ tel rm s', (adaptTree S cfg cb lt maxChildren leaves rm0 s0 = if tel = [] then none else some (tel, rm, s')) ∧
      T.Ordered (pre ++ tel ++ post) ∧ (∀ x ∈ tel, T.level x ≤ cfg.maxlevel) ∧
      (Keeps T cfg cb → rm = rm0 ∧ weight tel = weight leaves) ∧
      (cfg.recursive = false → ∃ rm', T.Adapted leaves (CanRefine cfg) (Offered cfg lt leaves)
        (fun st i b g => cb st lt i b g) 0 s0 tel rm' s' ∧ rm = (rm0 || rm')) := by
  have hinit : Inv cfg cb lt pre leaves post rm0 s0 ⟨0, 0, 0, maxChildren, [], rm0, s0⟩ := by
    refine ⟨rfl, by simp, by simpa using ho, by simp, fun _ => ⟨rfl, by simp⟩, ?_⟩
    intro _ out rm s' h
    exact ⟨rm, h, rfl⟩
  have key := whileO_spec (cond := fun s : State σ T.E => some (decide (s.considered < leaves.length)))
    (body := elementBody S cfg cb lt leaves) (Inv cfg cb lt pre leaves post rm0 s0)
    (fun s => leaves.length - s.considered) ?_ _ hinit
  · obtain ⟨r, hr, hI, hc⟩ := key
    have hcons : r.considered = leaves.length := by
      have h1 := hI.le
      simp only [Option.some.injEq, decide_eq_false_iff_not] at hc
      omega
    have hins := hI.inserted
    refine ⟨r.telements, r.removed, r.st, ?_, ?_, fun x hx => (hI.prop x hx).1, ?_, ?_⟩
    · rw [adaptTree, if_pos (List.length_pos_iff.2 hne), hr]
      simp only [Option.bind_eq_bind, Option.bind_some, hins, List.take_length]
      by_cases h : r.telements = []
      · rw [if_pos h, show assertO (r.telements.length ≠ 0) = none from assertO_false (by simp [h])]; rfl
      · rw [if_neg h, show assertO (r.telements.length ≠ 0) = some () from assertO_true (by simpa using h)]; rfl
    · have := hI.ordered
      rw [hcons, List.drop_length, List.nil_append] at this
      exact this
    · intro hk
      obtain ⟨w1, w2⟩ := hI.weight hk
      rw [hcons, List.drop_length, weight_nil, Nat.add_zero] at w2
      exact ⟨w1, w2⟩
    · intro hrec
      obtain ⟨rm', a1, a2⟩ := hI.sweep hrec [] false r.st (by rw [hcons]; exact Adapted.done)
      rw [List.append_nil] at a1
      exact ⟨rm', a1, by rw [a2]; simp⟩
  · intro s hI
    by_cases hlt : s.considered < leaves.length
    · right
      obtain ⟨s', h1, h2, h3⟩ := elementBody_spec hS hcb ho env hc hlev hI hlt
      exact ⟨by simp [hlt], s', h1, h2, by omega⟩
    · left
      simp [hlt]

end Adapt
end T8
