/-
`t8_forest_iterate_replace` finds out what the adaptation did.
-/
import Verif.Model.Replace
import Verif.Lemmas.AdaptLoop
import Verif.Lemmas.OwnerFace

namespace T8.Replace
open RTree T8.Adapt

variable {T : RTree} {S : Scheme T} {σ : Type}

section Sweep
variable {leaves : List T.E} {can : T.E → Prop} {offered : Nat → Nat → Prop} {ask : σ → Nat → Bool → List T.E → Int × σ}

/-- The sweep determines its reports. -/
theorem replaced_of_adapted {i : Nat} {s s' : σ} {out : List T.E} {rm : Bool} (h : T.Adapted leaves can offered ask i s out rm s') :
    ∀ j, ∃ rs, T.Replaced leaves can offered ask i j s out rs rm s' := by
  induction h with
  | done => intro j; exact ⟨_, .done⟩
  | refine h1 h2 h3 h4 _ ih => intro j; obtain ⟨rs, hr⟩ := ih (j + T.nc _); exact ⟨_, .refine h1 h2 h3 h4 hr⟩
  | keep h1 h2 h3 h4 _ ih => intro j; obtain ⟨rs, hr⟩ := ih (j + 1); exact ⟨_, .keep h1 h2 h3 h4 hr⟩
  | coarsen h1 h2 h3 _ ih => intro j; obtain ⟨rs, hr⟩ := ih (j + 1); exact ⟨_, .coarsen h1 h2 h3 hr⟩
  | remove h1 h2 h3 _ ih => intro j; obtain ⟨rs, hr⟩ := ih j; exact ⟨_, .remove h1 h2 h3 hr⟩

/-- Without the reports it is the sweep. -/
theorem _root_.T8.RTree.Replaced.adapted {i j : Nat} {s s' : σ} {out : List T.E} {rs : List Report} {rm : Bool}
    (h : T.Replaced leaves can offered ask i j s out rs rm s') : T.Adapted leaves can offered ask i s out rm s' := by
  induction h with
  | done => exact .done
  | refine h1 h2 h3 h4 _ ih => exact .refine h1 h2 h3 h4 ih
  | keep h1 h2 h3 h4 _ ih => exact .keep h1 h2 h3 h4 ih
  | coarsen h1 h2 h3 _ ih => exact .coarsen h1 h2 h3 ih
  | remove h1 h2 h3 _ ih => exact .remove h1 h2 h3 ih

/-- Families that are offered are groups of leaves with a common parent, and no other leaf is in the parent. -/
def Groups (leaves : List T.E) (offered : Nat → Nat → Prop) : Prop :=
  ∀ i n e, offered i n → leaves[i]? = some e → T.GroupAt [] leaves [] i n (T.parent e)

theorem question_group (hg : Groups leaves offered) {i : Nat} {e : T.E} {g : List T.E} (he : leaves[i]? = some e)
    (hq : T.Question leaves offered i e true g) : offered i g.length ∧ T.GroupAt [] leaves [] i g.length (T.parent e) := by
  rcases hq with ⟨_, n, hn, rfl⟩ | ⟨h, _⟩
  · have := hg i n e hn he
    have hle := this.le
    have hl : ((leaves.drop i).take n).length = n := by simp; omega
    rw [hl]
    exact ⟨hn, this⟩
  · cases h

/-- Where a new leaf comes from. -/
theorem origin (hcan : ∀ e, can e → T.level e < T.maxLevel) (hg : Groups leaves offered) {i : Nat} {s s' : σ} {out : List T.E} {rm : Bool}
    (h : T.Adapted leaves can offered ask i s out rm s') : ∀ y ∈ out, ∃ k e, i ≤ k ∧ leaves[k]? = some e ∧
      (T.Desc e y ∨ (y = T.parent e ∧ 0 < T.level e ∧ ∀ x ∈ leaves.take k, ¬ T.Desc y x)) := by
  induction h with
  | done => intro y hy; cases hy
  | @refine i s s' s'' e b g out rm h1 h2 h3 h4 _ ih =>
    intro y hy
    rcases List.mem_append.1 hy with hy | hy
    · obtain ⟨c, hc, rfl⟩ := List.mem_map.1 hy
      exact ⟨i, e, le_rfl, h1, Or.inl (Desc.child_self (hcan e h4) (List.mem_range.1 hc))⟩
    · obtain ⟨k, e', hk, r⟩ := ih y hy
      exact ⟨k, e', by omega, r⟩
  | @keep i s s' s'' e b g a out rm h1 h2 h3 h4 _ ih =>
    intro y hy
    rcases List.mem_cons.1 hy with rfl | hy
    · exact ⟨i, y, le_rfl, h1, Or.inl Desc.refl⟩
    · obtain ⟨k, e', hk, r⟩ := ih y hy
      exact ⟨k, e', by omega, r⟩
  | @coarsen i s s' s'' e g out rm h1 h2 h3 _ ih =>
    intro y hy
    rcases List.mem_cons.1 hy with rfl | hy
    · obtain ⟨_, hgr⟩ := question_group hg h1 h2
      have hpos := hgr.pos
      refine ⟨i, e, le_rfl, h1, Or.inr ⟨rfl, ?_, fun x hx => hgr.before x (by simpa using hx)⟩⟩
      have := (hgr.all e (mem_group_of h1 le_rfl (by omega))).2
      omega
    · obtain ⟨k, e', hk, r⟩ := ih y hy
      exact ⟨k, e', by omega, r⟩
  | @remove i s s' s'' e b g out rm h1 h2 h3 _ ih =>
    intro y hy
    obtain ⟨k, e', hk, r⟩ := ih y hy
    exact ⟨k, e', by omega, r⟩

/-- New leaves from later old leaves do not overlap an old leaf. -/
theorem origin_apart (ho : T.Ordered leaves) (hcan : ∀ e, can e → T.level e < T.maxLevel) (hg : Groups leaves offered) {i : Nat} {s s' : σ}
    {out : List T.E} {rm : Bool} (h : T.Adapted leaves can offered ask (i + 1) s out rm s') {e : T.E} (he : leaves[i]? = some e) :
    ∀ y ∈ out, T.Valid y ∧ ¬ T.Desc e y ∧ ¬ T.Desc y e := by
  intro y hy
  obtain ⟨k, e', hk, hk', r⟩ := origin hcan hg h y hy
  have hb : T.Before e e' := pairwise_getElem? ho.2 (by omega) he hk'
  have ve := ho.1 e (List.mem_of_getElem? he)
  have ve' := ho.1 e' (List.mem_of_getElem? hk')
  rcases r with hd | ⟨rfl, h0, hn⟩
  · have := hb.desc Desc.refl hd
    exact ⟨hd.valid ve', this.not_desc.1, this.not_desc.2⟩
  · have vp := T.valid_parent e' ve' h0
    refine ⟨vp, ?_, hn e (mem_take_of_getElem? he (by omega))⟩
    intro hd
    exact hb.not_desc.1 (hd.trans (desc_parent ve' h0))

end Sweep

/-- The invariant of the counting loop: `k` further leaves were looked at. -/
theorem countFamily_spec (hS : S.Lawful) {old : List T.E} (ho : T.Ordered old) {i n : Nat} {e p : T.E} (he : old[i]? = some e)
    (hg : T.GroupAt [] old [] i n p) : ∃ l, countFamily S old p i e = some (n, l) := by
  have hpos := hg.pos
  have hle := hg.le
  have hpe : T.parent e = p := (hg.all e (mem_group_of he le_rfl (by omega))).1
  have hle0 : 0 < T.level e := by
    have := (hg.all e (mem_group_of he le_rfl (by omega))).2
    omega
  have hn : n ≤ T.nc p := by
    have := (siblings_length (p := p) (g := (old.drop i).take n) (fun x hx => ho.1 x (List.mem_of_mem_drop (List.mem_of_mem_take hx)))
      (ho.2.sublist ((List.take_sublist _ _).trans (List.drop_sublist _ _)))
      (fun x hx => ⟨(hg.all x hx).1, by have := (hg.all x hx).2; omega⟩)).1
    rw [List.length_take, List.length_drop] at this
    omega
  have key := T8.Owner.foldlM_range (n := min (T.nc p) (old.length - i) - 1)
    (f := fun (r : Nat × T.E) (k : Nat) => do
      let e ← old[i + (k + 1)]?
      assertO (0 < T.level e)
      return (if S.isEqual p (T.parent e) then r.1 + 1 else r.1, e))
    (fun k r => r.1 = min (k + 1) n) ?_ (b := (1, e)) (by simp; omega)
  · obtain ⟨⟨c, l⟩, h1, h2⟩ := key
    refine ⟨l, ?_⟩
    rw [countFamily, h1]
    have : c = n := by
      simp only at h2
      omega
    rw [this]
  · intro k hk r hr
    have hlt : i + (k + 1) < old.length := by omega
    obtain ⟨x, hx⟩ : ∃ x, old[i + (k + 1)]? = some x := ⟨_, List.getElem?_eq_getElem hlt⟩
    have vx := ho.1 x (List.mem_of_getElem? hx)
    have hx0 : 0 < T.level x := ho.level_pos (List.mem_of_getElem? he) hle0 x (List.mem_of_getElem? hx)
    have vp := T.valid_parent x vx hx0
    refine ⟨(if S.isEqual p (T.parent x) then r.1 + 1 else r.1, x), ?_, ?_⟩
    · rw [hx]
      simp [assertO_true hx0]
    · by_cases hin : k + 1 < n
      · have : T.parent x = p := (hg.all x (mem_group_of hx (by omega) (by omega))).1
        rw [if_pos ((hS.isEqual _ _ hg.valid vp).2 this.symm)]
        simp only; omega
      · have hne : ¬ S.isEqual p (T.parent x) = true := by
          intro h
          have h' := (hS.isEqual _ _ hg.valid vp).1 h
          refine hg.after x ?_ (by rw [h']; exact desc_parent vx hx0)
          rw [List.append_nil]
          exact mem_drop_of_getElem? hx (by omega)
        rw [if_neg hne]
        simp only; omega

theorem forM_some {α : Type} {f : α → Option Unit} : ∀ {l : List α}, (∀ x ∈ l, f x = some ()) → l.forM f = some ()
  | [], _ => rfl
  | x :: l, h => by
    show (f x >>= fun _ => l.forM f) = _
    rw [h x (by simp)]
    exact forM_some (fun y hy => h y (by simp [hy]))

theorem checkFirst_spec (hS : S.Lawful) {old : List T.E} (ho : T.Ordered old) {i n : Nat} {e p : T.E} (he : old[i]? = some e)
    (hg : T.GroupAt [] old [] i n p) (l : T.E) : checkFirst S old p i l = some () := by
  have hpos := hg.pos
  have hi : i < old.length := (List.getElem?_eq_some_iff.1 he).1
  have hle0 : 0 < T.level e := by
    have := (hg.all e (mem_group_of he le_rfl (by omega))).2
    omega
  rw [checkFirst]
  refine forM_some ?_
  intro k hk
  have hk' := List.mem_range.1 hk
  obtain ⟨x, hx⟩ : ∃ x, old[i - (k + 1)]? = some x := ⟨_, List.getElem?_eq_getElem (by omega)⟩
  have vx := ho.1 x (List.mem_of_getElem? hx)
  have hx0 : 0 < T.level x := ho.level_pos (List.mem_of_getElem? he) hle0 x (List.mem_of_getElem? hx)
  have hne : S.isEqual p (T.parent x) = false := by
    rw [Bool.eq_false_iff]
    intro h
    have h' := (hS.isEqual _ _ hg.valid (T.valid_parent x vx hx0)).1 h
    refine hg.before x ?_ (by rw [h']; exact desc_parent vx hx0)
    rw [List.nil_append]
    exact mem_take_of_getElem? hx (by omega)
  rw [hx]
  simp [assertO_true hx0, hne, assertO_true]

theorem whileO_next {α : Type} {cond : α → Option Bool} {body : α → Option α} {s s' : α} (h : cond s = some true)
    (hb : body s = some s') : whileO cond body s = whileO cond body s' := by
  rw [whileO, h]
  simp [hb]

theorem whileO_end {α : Type} {cond : α → Option Bool} {body : α → Option α} {s : α} (h : cond s = some false) :
    whileO cond body s = some s := by
  rw [whileO, h]
  simp

/-- The calls for the old leaves from `i` on if all were removed. -/
def rest (old : List T.E) (i : Nat) : List Report := (List.range' i (old.length - i)).map (fun k => ⟨-2, 1, k, 0, -1⟩)

theorem rest_cons {old : List T.E} {i : Nat} (h : i < old.length) : rest old i = ⟨-2, 1, i, 0, -1⟩ :: rest old (i + 1) := by
  rw [rest, rest, show old.length - i = (old.length - (i + 1)) + 1 by omega, List.range'_succ, List.map_cons]

theorem head_of_drop {α : Type} {l : List α} {j : Nat} {y : α} {out : List α} (h : l.drop j = y :: out) :
    l[j]? = some y ∧ l.drop (j + 1) = out ∧ j < l.length := by
  have hlt : j < l.length := by
    by_contra hc
    rw [List.drop_eq_nil_of_le (by omega)] at h
    cases h
  rw [List.drop_eq_getElem_cons hlt] at h
  obtain ⟨h1, h2⟩ := List.cons.inj h
  exact ⟨by rw [List.getElem?_eq_getElem hlt, h1], h2, hlt⟩

/-- The loop over the elements makes the calls of the specification, except for removed leaves at the end. -/
theorem loop_spec (hS : S.Lawful) {old : List T.E} (ho : T.Ordered old) {can : T.E → Prop} {offered : Nat → Nat → Prop}
    {ask : σ → Nat → Bool → List T.E → Int × σ} (hcan : ∀ e, can e → T.level e < T.maxLevel) (hg : Groups old offered) {inc incOld : Bool}
    (hflag : inc = false → incOld = false ∧ ∀ i n e, offered i n → old[i]? = some e → n = T.nc (T.parent e)) {i j : Nat} {s s' : σ}
    {out : List T.E} {rs : List Report} {rm : Bool} (h : T.Replaced old can offered ask i j s out rs rm s') (hrm : inc = false → rm = false)
    (new : List T.E) : ∀ acc, new.drop j = out → j ≤ new.length →
      ∃ i' rs1, whileO (fun s : State => some (decide (s.new < new.length))) (body S inc incOld old new) ⟨j, i, acc⟩ =
          some ⟨new.length, i', acc ++ rs1⟩ ∧ rs = rs1 ++ rest old i' ∧ i' ≤ old.length ∧ (inc = false → i' = old.length) := by
  have hval : ∀ {i : Nat} {e : T.E}, old[i]? = some e → T.Valid e ∧ i < old.length := fun h =>
    ⟨ho.1 _ (List.mem_of_getElem? h), (List.getElem?_eq_some_iff.1 h).1⟩
  induction h with
  | @done j s =>
    intro acc hd hj
    have : j = new.length := by
      have := List.drop_eq_nil_iff.1 hd
      omega
    subst this
    exact ⟨old.length, [], by rw [whileO_end (by simp)]; simp, by simp [rest], le_rfl, fun _ => rfl⟩
  | @refine i j s s' s'' e b g out rs rm h1 h2 h3 h4 _ ih =>
    intro acc hd hj
    obtain ⟨ve, hi⟩ := hval h1
    have hl := hcan e h4
    have hpos := T.nc_pos e ve
    obtain ⟨c, hc⟩ : ∃ c, T.nc e = c + 1 := ⟨T.nc e - 1, by omega⟩
    have hd0 := hd
    rw [hc, List.range_succ_eq_map, List.map_cons, List.cons_append] at hd0
    obtain ⟨hy, _, hjl⟩ := head_of_drop hd0
    have hlev := T.level_child e 0 ve hl hpos
    have hpar := T.parent_child e 0 ve hl hpos
    have hd' : new.drop (j + T.nc e) = out := by
      rw [← List.drop_drop, hd, List.drop_left' (by simp)]
    have hj' : j + T.nc e ≤ new.length := by
      have := congrArg List.length hd
      simp at this
      omega
    obtain ⟨i', rs1, r1, r2, r3, r4⟩ := ih hrm (acc ++ [⟨1, 1, i, T.nc e, j⟩]) hd' hj'
    refine ⟨i', ⟨1, 1, i, T.nc e, j⟩ :: rs1, ?_, by rw [r2]; rfl, r3, r4⟩
    rw [whileO_next (s' := ⟨j + T.nc e, i + 1, acc ++ [⟨1, 1, i, T.nc e, j⟩]⟩) (by simpa using hjl), r1]
    · simp
    · have heq : S.isEqual e (T.parent (T.child e 0)) = true := by
        rw [hpar]; exact (hS.isEqual _ _ ve ve).2 rfl
      cases hinc : inc with
      | true => simp [body, hy, h1, hlev, heq, assertO_true, assertO_true hi]
      | false => simp [body, hy, h1, hlev, assertO_true, assertO_true hi, (hflag hinc).1]
  | @keep i j s s' s'' e b g a out rs rm h1 h2 h3 h4 _ ih =>
    intro acc hd hj
    obtain ⟨ve, hi⟩ := hval h1
    obtain ⟨hy, hd', hjl⟩ := head_of_drop hd
    obtain ⟨i', rs1, r1, r2, r3, r4⟩ := ih hrm (acc ++ [⟨0, 1, i, 1, j⟩]) hd' hjl
    refine ⟨i', ⟨0, 1, i, 1, j⟩ :: rs1, ?_, by rw [r2]; rfl, r3, r4⟩
    rw [whileO_next (s' := ⟨j + 1, i + 1, acc ++ [⟨0, 1, i, 1, j⟩]⟩) (by simpa using hjl), r1]
    · simp
    · have heq : S.isEqual e e = true := (hS.isEqual _ _ ve ve).2 rfl
      cases hinc : inc with
      | true => simp [body, hy, h1, heq, assertO_true, assertO_true hi]
      | false => simp [body, hy, h1, heq, assertO_true, assertO_true hi, (hflag hinc).1]
  | @coarsen i j s s' s'' e g out rs rm h1 h2 h3 _ ih =>
    intro acc hd hj
    obtain ⟨ve, hi⟩ := hval h1
    obtain ⟨hy, hd', hjl⟩ := head_of_drop hd
    obtain ⟨hoff, hgr⟩ := question_group hg h1 h2
    have hpos := hgr.pos
    have hle := hgr.le
    have hle0 : T.level e = T.level (T.parent e) + 1 := (hgr.all e (mem_group_of h1 le_rfl (by omega))).2
    obtain ⟨i', rs1, r1, r2, r3, r4⟩ := ih hrm (acc ++ [⟨-1, g.length, i, 1, j⟩]) hd' hjl
    refine ⟨i', ⟨-1, g.length, i, 1, j⟩ :: rs1, ?_, by rw [r2]; rfl, r3, r4⟩
    rw [whileO_next (s' := ⟨j + 1, i + g.length, acc ++ [⟨-1, g.length, i, 1, j⟩]⟩) (by simpa using hjl), r1]
    · simp
    · have heq : S.isEqual (T.parent e) (T.parent e) = true := (hS.isEqual _ _ hgr.valid hgr.valid).2 rfl
      have hn : g.length ≤ T.nc (T.parent e) := by
        have := (siblings_length (p := T.parent e) (g := (old.drop i).take g.length)
          (fun x hx => ho.1 x (List.mem_of_mem_drop (List.mem_of_mem_take hx)))
          (ho.2.sublist ((List.take_sublist _ _).trans (List.drop_sublist _ _)))
          (fun x hx => ⟨(hgr.all x hx).1, by have := (hgr.all x hx).2; omega⟩)).1
        rw [List.length_take, List.length_drop] at this
        omega
      obtain ⟨l, hcount⟩ := countFamily_spec hS ho h1 hgr
      have hcheck := checkFirst_spec hS ho h1 hgr l
      have hnlt : ¬ T.level e < T.level (T.parent e) := by omega
      have hgt : T.level (T.parent e) < T.level e := by omega
      cases hinc : inc with
      | true => simp [body, hy, h1, heq, assertO_true, assertO_true hi, hnlt, hgt, hle0.symm, hcount, hcheck, hn]
      | false =>
        have := (hflag hinc).2 i _ e hoff h1
        simp [body, hy, h1, assertO_true, assertO_true hi, hnlt, hgt, hle0.symm, this, (hflag hinc).1]
  | @remove i j s s' s'' e b g out rs rm h1 h2 h3 hrest ih =>
    intro acc hd hj
    obtain ⟨ve, hi⟩ := hval h1
    have hinc : inc = true := by
      cases hinc : inc with
      | true => rfl
      | false => exact absurd (hrm hinc) (by simp)
    subst hinc
    obtain ⟨i', rs1, r1, r2, r3, r4⟩ := ih (by simp) (acc ++ [⟨-2, 1, i, 0, -1⟩]) hd hj
    by_cases hjl : j < new.length
    · refine ⟨i', ⟨-2, 1, i, 0, -1⟩ :: rs1, ?_, by rw [r2]; rfl, r3, r4⟩
      rw [whileO_next (s' := ⟨j, i + 1, acc ++ [⟨-2, 1, i, 0, -1⟩]⟩) (by simpa using hjl), r1]
      · simp
      · obtain ⟨y, hy⟩ : ∃ y, new[j]? = some y := ⟨_, List.getElem?_eq_getElem hjl⟩
        have hmem : y ∈ out := by
          rw [← hd]
          exact mem_drop_of_getElem? hy le_rfl
        obtain ⟨vy, n1, n2⟩ := origin_apart ho hcan hg hrest.adapted h1 y hmem
        have c1 : 0 < T.level y → S.isEqual e (T.parent y) = false := by
          intro h0
          rw [Bool.eq_false_iff]
          intro hh
          have := (hS.isEqual _ _ ve (T.valid_parent y vy h0)).1 hh
          exact n1 (by rw [this]; exact desc_parent vy h0)
        have c2 : 0 < T.level e → S.isEqual y (T.parent e) = false := by
          intro h0
          rw [Bool.eq_false_iff]
          intro hh
          have := (hS.isEqual _ _ vy (T.valid_parent e ve h0)).1 hh
          exact n2 (by rw [this]; exact desc_parent ve h0)
        have c3 : S.isEqual y e = false := by
          rw [Bool.eq_false_iff]
          intro hh
          have := (hS.isEqual _ _ vy ve).1 hh
          exact n1 (by rw [this]; exact Desc.refl)
        rcases Nat.lt_trichotomy (T.level e) (T.level y) with hlt | heq | hgt
        · simp [body, hy, h1, assertO_true hi, assertO_true, hlt, c1 (by omega), removed]
        · simp [body, hy, h1, assertO_true hi, assertO_true, heq, c3, removed]
        · have hnlt : ¬ T.level e < T.level y := by omega
          simp [body, hy, h1, assertO_true hi, assertO_true, hnlt, hgt, c2 (by omega), removed]
    · have hstop : ∀ x acc, whileO (fun s : State => some (decide (s.new < new.length))) (body S true incOld old new) ⟨j, x, acc⟩ =
          some ⟨j, x, acc⟩ := fun x acc => whileO_end (by simpa using hjl)
      have hjn : j = new.length := by omega
      rw [hstop] at r1
      have r1' := Option.some.inj r1
      obtain rfl : i + 1 = i' := congrArg State.old r1'
      have r5 : rs1 = [] := by
        have := congrArg State.calls r1'
        simpa using this
      refine ⟨i, [], by rw [hstop]; simp [hjn], ?_, by omega, by simp⟩
      rw [r2, r5, rest_cons hi]
      rfl

/-- The calls for one tree. -/
theorem replaceTree_spec (hS : S.Lawful) {old new : List T.E} (ho : T.Ordered old) {can : T.E → Prop} {offered : Nat → Nat → Prop}
    {ask : σ → Nat → Bool → List T.E → Int × σ} (hcan : ∀ e, can e → T.level e < T.maxLevel) (hg : Groups old offered) {inc incOld : Bool}
    (hflag : inc = false → incOld = false ∧ ∀ i n e, offered i n → old[i]? = some e → n = T.nc (T.parent e)) {s s' : σ}
    {rs : List Report} {rm : Bool} (h : T.Replaced old can offered ask 0 0 s new rs rm s') (hrm : inc = false → rm = false) :
    replaceTree S inc incOld old new = some rs := by
  obtain ⟨i', rs1, h1, h2, h3, h4⟩ := loop_spec hS ho hcan hg hflag h hrm new [] rfl (Nat.zero_le _)
  rw [replaceTree, h1]
  cases hinc : inc with
  | true => simp [assertO_true, h2, rest]
  | false =>
    have := h4 hinc
    subst this
    simp [assertO_true, h2, rest]

end T8.Replace
