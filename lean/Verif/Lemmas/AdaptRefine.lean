/-
Lemmas on recursive refinement (`Model/Adapt.lean`).
-/
import Verif.Model.Adapt
import Verif.Lemmas.Tiling

namespace T8.Adapt
open T8 RTree

variable {T : RTree} {S : Scheme T} {σ : Type}

/-- The callback only gives answers that the interface allows: refine, keep, remove, or coarsen for a family. -/
def Legal {E : Type} (cb : Callback σ E) : Prop :=
  ∀ s lt le b g, (cb s lt le b g).1 = 1 ∨ (cb s lt le b g).1 = 0 ∨ (cb s lt le b g).1 = -2 ∨
    ((cb s lt le b g).1 = -1 ∧ b = true)

/-- The callback never asks to remove an element. -/
def NoRemove {E : Type} (cb : Callback σ E) : Prop := ∀ s lt le b g, (cb s lt le b g).1 ≠ -2

/-- The callback never asks to refine a single element of the maximum level. -/
def NoVainRefine (T : RTree) (maxlevel : Nat) (cb : Callback σ T.E) : Prop :=
  ∀ s lt le e, T.Valid e → (cb s lt le false [e]).1 = 1 → T.level e < maxlevel ∧ T.level e < T.maxLevel

/-- Number of elements in the refinement tree below `e`, `n` levels deep. -/
def subtree (T : RTree) : Nat → T.E → Nat
  | 0, _ => 1
  | n + 1, e => 1 + ((List.range (T.nc e)).map (fun i => subtree T n (T.child e i))).sum

theorem subtree_pos (n : Nat) (e : T.E) : 0 < subtree T n e := by
  cases n <;> simp [subtree]

def work (T : RTree) (ls : List T.E) : Nat := (ls.map (fun e => subtree T (T.maxLevel - T.level e) e)).sum

theorem work_append (a b : List T.E) : work T (a ++ b) = work T a + work T b := by simp [work]

theorem work_cons (e : T.E) (b : List T.E) : work T (e :: b) = subtree T (T.maxLevel - T.level e) e + work T b := by
  simp [work]

theorem work_children {e : T.E} (he : T.Valid e) (hl : T.level e < T.maxLevel) :
    work T (children e) + 1 = subtree T (T.maxLevel - T.level e) e := by
  obtain ⟨n, hn⟩ : ∃ n, T.maxLevel - T.level e = n + 1 := ⟨T.maxLevel - T.level e - 1, by omega⟩
  rw [hn, subtree, work, children, List.map_map, Nat.add_comm]
  congr 2
  refine List.map_congr_left fun i hi => ?_
  have := T.level_child e i he hl (List.mem_range.1 hi)
  show subtree T (T.maxLevel - T.level (T.child e i)) _ = _
  rw [this, show T.maxLevel - (T.level e + 1) = n by omega]

theorem mem_children {e x : T.E} : x ∈ children e ↔ ∃ i, i < T.nc e ∧ x = T.child e i := by
  simp only [children, List.mem_map, List.mem_range]
  exact ⟨fun ⟨i, h1, h2⟩ => ⟨i, h1, h2.symm⟩, fun ⟨i, h1, h2⟩ => ⟨i, h1, h2.symm⟩⟩

/-- What recursive refinement of `e` guarantees. -/
theorem refine_spec (hS : S.Lawful) {cfg : Cfg} {cb : Callback σ T.E} (hcb : Legal cb) (lt le : Nat)
    (tel : List T.E) {e : T.E} (he : T.Valid e) (hl : T.level e < T.maxLevel) (hm : T.level e < cfg.maxlevel) (rm : Bool)
    (s0 : σ) :
    ∃ new rm' s', refineRecursive S cfg cb lt le ⟨children e, tel, tel.length, rm, s0⟩ =
        some ⟨[], tel ++ new, tel.length + new.length, rm', s'⟩ ∧
      new.Pairwise T.Before ∧
      (∀ x ∈ new, T.Desc e x ∧ T.level x ≤ cfg.maxlevel ∧ T.level e < T.level x ∧
        ∃ s, (cb s lt le false [x]).1 = 0) ∧
      (NoRemove cb → NoVainRefine T cfg.maxlevel cb → rm' = rm ∧ weight new = T.count e T.maxLevel) := by
  let I : RState σ T.E → Prop := fun r => ∃ new, r.telements = tel ++ new ∧ r.inserted = tel.length + new.length ∧
      (new ++ r.list).Pairwise T.Before ∧
      (∀ x ∈ new ++ r.list, T.Desc e x ∧ T.level x ≤ cfg.maxlevel ∧ T.level e < T.level x) ∧
      (∀ x ∈ new, ∃ s, (cb s lt le false [x]).1 = 0) ∧
      (NoRemove cb → NoVainRefine T cfg.maxlevel cb →
        r.removed = rm ∧ weight (new ++ r.list) = T.count e T.maxLevel)
  have hinit : I ⟨children e, tel, tel.length, rm, s0⟩ := by
    refine ⟨[], by simp, by simp, by simpa [children] using pairwise_children he hl, ?_, by simp, ?_⟩
    · intro x hx
      rw [List.nil_append] at hx
      obtain ⟨i, hi, rfl⟩ := mem_children.1 hx
      have := T.level_child e i he hl hi
      exact ⟨Desc.child_self hl hi, by omega, by omega⟩
    · intro _ _
      exact ⟨rfl, by simpa [children] using weight_children he hl⟩
  have key := whileO_spec (cond := fun s : RState σ T.E => some (decide (0 < s.list.length)))
    (body := refineBody S cfg cb lt le) I (fun r => work T r.list) ?_ _ hinit
  · obtain ⟨r, hr, ⟨new, h1, h2, h3, h4, h5, h6⟩, hc⟩ := key
    have hnil : r.list = [] := by
      simpa [List.length_eq_zero_iff] using hc
    rw [hnil, List.append_nil] at h3 h4 h6
    refine ⟨new, r.removed, r.st, ?_, h3, ?_, h6⟩
    · rw [refineRecursive, hr]
      cases r with
      | mk list tels ins rem st =>
        simp only at h1 h2 hnil ⊢
        rw [h1, h2, hnil]
    · intro x hx
      obtain ⟨a1, a2, a3⟩ := h4 x hx
      exact ⟨a1, a2, a3, h5 x hx⟩
  · rintro ⟨list, tels, ins, rem, st⟩ ⟨new, h1, h2, h3, h4, h5, h6⟩
    cases list with
    | nil => left; rfl
    | cons x xs =>
      right
      refine ⟨by simp, ?_⟩
      simp only at h1 h2 h3 h4 h6
      obtain ⟨dx, lx, ex⟩ := h4 x (by simp)
      have vx := dx.valid he
      have hw : work T xs < work T (x :: xs) := by
        rw [work_cons]; have := subtree_pos (T := T) (T.maxLevel - T.level x) x; omega
      have hsub : (new ++ xs).Sublist (new ++ x :: xs) := List.Sublist.append_left (List.sublist_cons_self x xs) new
      have hne : (cb st lt le false [x]).1 ≠ -1 := by
        intro h; rcases hcb st lt le false [x] with h' | h' | h' | h' <;> simp_all
      simp only [refineBody, List.head?_cons, List.tail_cons, Option.bind_eq_bind, Option.bind_some]
      rw [show assertO ((cb st lt le false [x]).1 ≠ -1) = some () from assertO_true hne, Option.bind_some]
      rcases hcb st lt le false [x] with ha | ha | ha | ha
      · rw [if_pos ha]
        by_cases hcan : T.level x < cfg.maxlevel ∧ S.isRefinable x = true
        · have hlx := (hS.isRefinable x vx).1 hcan.2
          rw [if_pos hcan]
          refine ⟨_, rfl, ⟨new, h1, h2, ?_, ?_, h5, ?_⟩, ?_⟩
          · have ho : T.Ordered (new ++ [x] ++ xs) := by
              refine ⟨?_, by simpa using h3⟩
              intro y hy
              exact (h4 y (by simpa using hy)).1.valid he
            have := (ho.replace_children hlx).2
            simpa [children] using this
          · intro y hy
            simp only [List.mem_append] at hy
            rcases hy with hy | hy | hy
            · exact h4 y (by simp [hy])
            · obtain ⟨i, hi, rfl⟩ := mem_children.1 hy
              have := T.level_child x i vx hlx hi
              exact ⟨dx.step hlx hi, by omega, by omega⟩
            · exact h4 y (by simp [hy])
          · intro g1 g2
            obtain ⟨b1, b2⟩ := h6 g1 g2
            refine ⟨b1, ?_⟩
            have := weight_children vx hlx
            simp only [weight_append, weight_cons] at b2 ⊢
            rw [children, this]; exact b2
          · rw [work_append, work_cons]
            have := work_children vx hlx
            omega
        · rw [if_neg hcan]
          refine ⟨_, rfl, ⟨new, h1, h2, h3.sublist hsub, fun y hy => h4 y (hsub.subset hy), h5, ?_⟩, hw⟩
          intro g1 g2
          obtain ⟨c1, c2⟩ := g2 st lt le x vx ha
          exact absurd ⟨c1, (hS.isRefinable x vx).2 c2⟩ hcan
      · rw [if_neg (by rw [ha]; decide), if_neg (by rw [ha]; decide),
          show assertO ((cb st lt le false [x]).1 = 0) = some () from assertO_true ha, Option.bind_some]
        refine ⟨_, rfl, ⟨new ++ [x], by simp [h1], by simp [h2]; omega, by simpa using h3,
          by simpa using h4, ?_, by simpa using h6⟩, hw⟩
        intro y hy
        rcases List.mem_append.1 hy with hy | hy
        · exact h5 y hy
        · rw [List.mem_singleton] at hy; subst hy; exact ⟨st, ha⟩
      · rw [if_neg (by rw [ha]; decide), if_pos ha]
        refine ⟨_, rfl, ⟨new, h1, h2, h3.sublist hsub, fun y hy => h4 y (hsub.subset hy), h5, ?_⟩, hw⟩
        intro g1 _
        exact absurd ha (g1 _ _ _ _ _)
      · exact absurd ha.1 hne

end T8.Adapt
