/-
Lemmas for C54: the search for the leaves at a face in one array.
-/
import Verif.Model.LeafNeighbors
import Verif.Props.FaceIterate
import Verif.Props.LeafSearch

namespace T8.LeafNeighbor
open T8.RTree T8.Leaf T8.FaceIterate
open T8.Search (PartBelow)

variable {T : RTree} {In : T.E → Nat → T.E → Nat → Prop} {S : Scheme T} {F : FaceScheme T}

/-- The face of an ancestor that contains the face. -/
theorem ancestorFaceLoop_spec (hF : F.Lawful In) {parentFace : T.E → Nat → Option Nat}
    (hP : ∀ e f, T.Valid e → 0 < T.level e → f < F.numFaces e → ∀ g, parentFace e f = some g ↔ In e f (T.parent e) g) {x : T.E} {h : Nat}
    (hx : T.Valid x) : ∀ (k : Nat) (n : T.E) (f : Nat), T.Valid n → T.Desc x n → T.level n = T.level x + k → In n f x h →
      ancestorFaceLoop parentFace k n f = some h := by
  intro k
  induction k with
  | zero =>
    intro n f hn hd hl hin
    have : n = x := (hd.eq_of_level hx (by omega))
    subst this
    have := hF.unique n f h n h hx Desc.refl hin (hF.refl n h hx (hF.bounds _ _ _ _ hin).2)
    rw [this]; rfl
  | succ k ih =>
    intro n f hn hd hl hin
    have hp : T.Desc x (T.parent n) := by
      have h1 := hd.anc_eq hx
      have h2 : T.anc n (T.level x) = T.anc (T.parent n) (T.level x) := by
        have := T.level_parent n hn (by omega)
        rw [RTree.anc, RTree.anc, show T.level n - T.level x = k + 1 by omega, show T.level (T.parent n) - T.level x = k by omega]
        rfl
      have hpv := T.valid_parent n hn (by omega)
      have h3 := desc_anc hpv (l := T.level x)
      rw [← h2, h1] at h3
      exact h3
    have hpn : T.Desc (T.parent n) n := by
      have h1 := T.child_parent n hn (by omega)
      have h2 := T.childId_lt n hn (by omega)
      have h3 := T.level_parent n hn (by omega)
      have h4 := T.level_le n hn
      have := Desc.child_self (T := T) (a := T.parent n) (i := T.childId n) (by omega) h2
      rwa [h1] at this
    obtain ⟨h', i1, i2⟩ := hF.between n f (T.parent n) x h hx hp hpn hin
    have hpf := (hP n f hn (by omega) (hF.bounds _ _ _ _ hin).1 h').2 i2
    rw [ancestorFaceLoop, hpf]
    have := T.level_parent n hn (by omega)
    exact ih (T.parent n) h' (T.valid_parent n hn (by omega)) hp (by omega) i1

/-- The last leaf below `n`. -/
theorem lastIndex_spec (hS : S.Lawful) {ls : List T.E} (ho : T.Ordered ls) {n : T.E} (hn : T.Valid n) {k : Nat} {x : T.E}
    (hk : ls[k]? = some x) (hx : T.Desc n x) :
    ∃ m : Nat, lastIndex S ls n = some (m : Int) ∧ k ≤ m ∧ m < ls.length ∧
      ∀ j y, ls[j]? = some y → k ≤ j → (T.Desc n y ↔ j ≤ m) := by
  have hkl := (List.getElem?_eq_some_iff.1 hk).1
  have hL := T.level_le n hn
  -- a later leaf is below `n` or comes after it
  have hafter : ∀ j y, ls[j]? = some y → k ≤ j → T.Desc n y ∨ T.Before n y := by
    intro j y hj hkj
    rcases Nat.eq_or_lt_of_le hkj with h | h
    · subst h
      cases hk.symm.trans hj
      exact Or.inl hx
    · have hb := Ordered.before ho hk hj h
      rcases position_cases hn (Ordered.valid ho hj) with hd | hd | hb' | hb'
      · exact Or.inl hd
      · exact absurd (hd.trans hx) hb.not_desc.2
      · exact Or.inr hb'
      · exact absurd (hb'.desc Desc.refl hx) hb.asymm
  obtain ⟨y, hy⟩ : ∃ y, ls[ls.length - 1]? = some y := ⟨_, List.getElem?_eq_getElem (by omega)⟩
  have hrd : rd ls ((ls.length : Int) - 1) = some y := by
    have := rd_cast hy
    rwa [show ((ls.length - 1 : Nat) : Int) = (ls.length : Int) - 1 by omega] at this
  have hid : ∀ j z, ls[j]? = some z → k ≤ j → (T.Desc n z ↔ S.linearId z (T.level n) < lid n (T.level n) + 1) := by
    intro j z hj hkj
    constructor
    · intro hd
      rw [linearId_of_desc hS.linearId hn hd]; omega
    · intro h
      rcases hafter j z hj hkj with hd | hb
      · exact hd
      · have := linearId_gt_of_before hS.linearId (Ordered.valid ho hj) hn hb
        omega
  by_cases hd : T.Desc n y
  · refine ⟨ls.length - 1, ?_, by omega, by omega, ?_⟩
    · rw [lastIndex, hrd]
      simp only [Option.bind_eq_bind, Option.bind_some]
      rw [if_pos ((hS.isAncestor n y hn (Ordered.valid ho hy)).2 hd)]
      congr 1; omega
    · intro j z hj hkj
      have hjl := (List.getElem?_eq_some_iff.1 hj).1
      refine ⟨fun _ => by omega, fun _ => ?_⟩
      rw [hid j z hj hkj]
      rw [hid _ y hy (by omega)] at hd
      rcases Nat.eq_or_lt_of_le (show j ≤ ls.length - 1 by omega) with h | h
      · subst h
        cases hy.symm.trans hj
        exact hd
      · have := linearId_mono hS.linearId (Ordered.valid ho hj) (Ordered.valid ho hy) hL (Ordered.before ho hj hy h)
        omega
  · have hb : T.Before n y := (hafter _ y hy (by omega)).resolve_left hd
    have hgt := linearId_gt_of_before hS.linearId (Ordered.valid ho hy) hn hb
    obtain ⟨s, hs⟩ : ∃ s, (T.uniform T.root (T.level n))[lid n (T.level n) + 1]? = some s := by
      have h1 := hS.linearId y (T.level n) (Ordered.valid ho hy) hL
      have h2 := (List.getElem?_eq_some_iff.1 h1).1
      exact ⟨_, List.getElem?_eq_getElem (by omega)⟩
    have hsucc := hS.successor n s _ hn (uniform_getElem_lid hn) hs
    have hmem := List.mem_of_getElem? hs
    have hmu := (mem_uniform T.valid_root (n := T.level n) (by rw [T.level_root]; omega)).1 hmem
    have hsv : T.Valid s := hmu.1.valid T.valid_root
    have hsl : T.level s = T.level n := by rw [hmu.2, T.level_root]; omega
    have hsid : S.linearId s (T.level s) = lid n (T.level n) + 1 := by
      have h1 := hS.linearId s (T.level s) hsv (T.level_le s hsv)
      rw [if_pos le_rfl] at h1
      have h2 : T.anc s (T.level s) = s := by rw [RTree.anc, Nat.sub_self]; rfl
      rw [h2, hsl] at h1
      rw [hsl]
      exact pos_unique (nodup_root hL) h1 hs
    have hlast : ¬ S.isAncestor n y = true := fun h => hd ((hS.isAncestor n y hn (Ordered.valid ho hy)).1 h)
    rcases binSearchUpper_spec hS ho (by rw [hsl]; exact hL : T.level s ≤ T.maxLevel) (lid n (T.level n) + 1) with ⟨_, h2⟩ | ⟨u, z, h1, h2, h3, h4⟩
    · have h5 := h2 y (List.mem_of_getElem? hy)
      rw [hsl] at h5
      exact absurd ((hid _ y hy (by omega)).2 h5) hd
    · have hku : k < u := by
        by_contra hc
        have hxid := linearId_of_desc hS.linearId hn hx
        rcases Nat.eq_or_lt_of_le (show u ≤ k by omega) with h | h
        · subst h
          cases hk.symm.trans h2
          rw [hsl] at h3
          omega
        · have := linearId_mono hS.linearId (Ordered.valid ho h2) (Ordered.valid ho hk) hL (Ordered.before ho h2 hk h)
          rw [hsl] at h3
          omega
      have hul := (List.getElem?_eq_some_iff.1 h2).1
      refine ⟨u - 1, ?_, by omega, by omega, ?_⟩
      · rw [lastIndex, hrd]
        simp only [Option.bind_eq_bind, Option.bind_some]
        rw [if_neg hlast, hsucc]
        simp only [Option.bind_some, hsid, h1]
        rw [if_neg (by omega)]
        congr 1; omega
      · intro j w hj hkj
        rw [hid j w hj hkj]
        constructor
        · intro h
          by_contra hc
          rw [hsl] at h3
          rcases Nat.eq_or_lt_of_le (show u ≤ j by omega) with h' | h'
          · subst h'
            cases h2.symm.trans hj
            omega
          · have := linearId_mono hS.linearId (Ordered.valid ho h2) (Ordered.valid ho hj) hL (Ordered.before ho h2 hj h')
            omega
        · intro h
          have := h4 j w hj (by omega)
          rwa [hsl] at this

/-- Two elements of an ordered list that overlap are the same. -/
theorem eq_of_desc {ls : List T.E} (ho : T.Ordered ls) {x y : T.E} (hx : x ∈ ls) (hy : y ∈ ls) (hd : T.Desc x y) : x = y := by
  obtain ⟨i, hi⟩ := List.getElem?_of_mem hx
  obtain ⟨j, hj⟩ := List.getElem?_of_mem hy
  rcases Nat.lt_trichotomy i j with h | h | h
  · exact absurd hd (Ordered.before ho hi hj h).not_desc.1
  · subst h
    exact Option.some.inj (hi.symm.trans hj)
  · exact absurd hd (Ordered.before ho hj hi h).not_desc.2

/-- Two elements of an ordered list that contain the same element are the same. -/
theorem eq_of_common {ls : List T.E} (ho : T.Ordered ls) {x y n : T.E} (hx : x ∈ ls) (hy : y ∈ ls) (h1 : T.Desc x n) (h2 : T.Desc y n) :
    x = y := by
  rcases position_cases (ho.1 x hx) (ho.1 y hy) with hd | hd | hb | hb
  · exact eq_of_desc ho hx hy hd
  · exact (eq_of_desc ho hy hx hd).symm
  · exact absurd (hb.desc h1 h2) (fun h => h.asymm h)
  · exact absurd (hb.desc h2 h1) (fun h => h.asymm h)

/-- What the callback collects. -/
theorem collect_spec (leaves : List T.E) (offset : Nat) : ∀ (log : FaceRecord T),
    (∀ c r, (c, r) ∈ log → c.isLeaf = true → leaves[c.index]? = some c.elem) →
    ∃ new, log.mapM (fun c => collect leaves offset c.1) = some new ∧
      new.flatten = (log.filter (fun p => p.1.isLeaf)).map (fun p => ⟨p.1.elem, p.1.face, offset + p.1.index⟩) := by
  intro log
  induction log with
  | nil => exact fun _ => ⟨[], rfl, rfl⟩
  | cons p log ih =>
    intro h
    obtain ⟨new, h1, h2⟩ := ih (fun c r hm => h c r (List.mem_cons_of_mem _ hm))
    cases hl : p.1.isLeaf with
    | true =>
      have := h p.1 p.2 List.mem_cons_self hl
      refine ⟨[⟨p.1.elem, p.1.face, offset + p.1.index⟩] :: new, ?_, ?_⟩
      · rw [List.mapM_cons, h1, collect, if_pos hl, this]; rfl
      · simp [hl, h2]
    | false =>
      refine ⟨[] :: new, ?_, ?_⟩
      · rw [List.mapM_cons, h1, collect, if_neg (by simp [hl])]; rfl
      · simp [hl, h2]

/-- The search in one array. -/
theorem searchArray_spec (hS : S.Lawful) (hF : F.Lawful In) {parentFace : T.E → Nat → Option Nat}
    (hP : ∀ e f, T.Valid e → 0 < T.level e → f < F.numFaces e → ∀ g, parentFace e f = some g ↔ In e f (T.parent e) g)
    {n : T.E} (hn : T.Valid n) {f : Nat} (hf : f < F.numFaces n) (treeId : Nat) {leaves : List T.E} (ho : T.Ordered leaves)
    (hne : leaves ≠ []) (hup : ∀ x ∈ leaves, T.Desc x n → ∃ g, In n f x g) (offset : Nat) :
    ∃ A, Exact In n f leaves offset A ∧ ∀ buffer out,
      ((∀ x ∈ leaves, ¬ T.Desc x n ∧ ¬ T.Desc n x) → A = [] ∧
        searchArray S F parentFace n f treeId (leaves, offset) (buffer, out) = some (buffer, out)) ∧
      ((∃ x ∈ leaves, T.Desc x n ∨ T.Desc n x) →
        searchArray S F parentFace n f treeId (leaves, offset) (buffer, out) = some (buffer ++ A, out ++ (buffer ++ A))) := by
  classical
  have hout : ∀ l m : List (Entry T), (if l.length > 0 then m ++ l else m) = m ++ l := by
    intro l m
    cases l <;> simp
  rcases binSearchFirst_spec hS ho hne hn with ⟨h1, h2⟩ | ⟨k, x, h1, hk, hov, hbefore⟩
  · refine ⟨[], ⟨by simp, ?_, List.Pairwise.nil⟩, fun buffer out => ⟨fun _ => ⟨rfl, ?_⟩, ?_⟩⟩
    · rintro y hy ⟨g, ⟨hd, _⟩ | ⟨hd, _⟩⟩
      · exact absurd hd (h2 y hy).2
      · exact absurd hd (h2 y hy).1
    · simp only [searchArray, h1, Option.bind_eq_bind, Option.bind_some]
      rw [if_neg (by decide)]
    · rintro ⟨y, hy, hd⟩
      exact absurd hd (not_or.2 (h2 y hy))
  · have hxm := List.mem_of_getElem? hk
    have hxv := ho.1 x hxm
    have hkl := (List.getElem?_eq_some_iff.1 hk).1
    have hno : ∀ {P : Prop}, (∀ y ∈ leaves, ¬ T.Desc y n ∧ ¬ T.Desc n y) → P := by
      intro P h
      rcases hov with hd | hd
      · exact absurd hd (h x hxm).1
      · exact absurd hd (h x hxm).2
    by_cases hu : T.level x ≤ T.level n
    · have hd : T.Desc x n := by
        rcases hov with hd | hd
        · exact hd
        · rw [hd.eq_of_level hn hu]; exact Desc.refl
      obtain ⟨h, hh⟩ := hup x hxm hd
      have haf := ancestorFaceLoop_spec hF hP hxv (T.level n - T.level x) n f hn hd (by omega) hh
      have haf' : ancestorFace parentFace n (T.level x) f = some (some h) := by
        rw [ancestorFace, assertO, if_pos hu, haf]; rfl
      have hview : (leaves.drop k).take 1 = [x] := by
        obtain ⟨hk', rfl⟩ := List.getElem?_eq_some_iff.1 hk
        rw [List.drop_eq_getElem_cons hk', List.take_succ_cons, List.take_zero]
      refine ⟨[⟨x, h, offset + k⟩], ⟨?_, ?_, List.pairwise_singleton _ _⟩, fun buffer out => ⟨hno, fun _ => ?_⟩⟩
      · intro r hr
        rw [List.mem_singleton] at hr
        subst hr
        exact ⟨k, hk, rfl, Or.inr ⟨hd, hh⟩⟩
      · rintro y hy ⟨g, ⟨hd', _⟩ | ⟨hd', _⟩⟩
        · exact ⟨_, List.mem_singleton.2 rfl, eq_of_desc ho hxm hy (hd.trans hd')⟩
        · exact ⟨_, List.mem_singleton.2 rfl, eq_of_common ho hxm hy hd hd'⟩
      · have hit := C48_start_leaf (F := F) hS (fun _ _ => true) treeId ho k h hxm (ls := [x]) (by simp) []
        simp only [searchArray, h1, Option.bind_eq_bind, Option.bind_some]
        rw [if_pos (by omega)]
        simp only [decide_eq_true hu, if_true, haf', Option.bind_some, Int.toNat_natCast, hview, hit,
          List.nil_append, List.mapM_cons, List.mapM_nil, collect, hk, Option.pure_def, List.flatten_cons, List.flatten_nil, List.append_nil]
        exact congrArg (fun z => some (buffer ++ [⟨x, h, offset + k⟩], z)) (hout _ _)
    · have hd : T.Desc n x := by
        rcases hov with hd | hd
        · exact absurd (hd.level_le hxv) hu
        · exact hd
      obtain ⟨m, hm1, hm2, hm3, hm4⟩ := lastIndex_spec hS ho hn hk hd
      generalize hview : (leaves.drop k).take (m + 1 - k) = view
      have hget : ∀ j, view[j]? = if j < m + 1 - k then leaves[k + j]? else none := by
        intro j
        rw [← hview, List.getElem?_take, List.getElem?_drop]
      have hsub : view.Sublist leaves := by
        rw [← hview]; exact (List.take_sublist _ _).trans (List.drop_sublist _ _)
      have hbelow : ∀ y ∈ view, T.Desc n y := by
        intro y hy
        obtain ⟨j, hj⟩ := List.getElem?_of_mem hy
        rw [hget] at hj
        split at hj
        · exact (hm4 _ _ hj (by omega)).2 (by omega)
        · cases hj
      have hin : ∀ y ∈ leaves, T.Desc n y → y ∈ view := by
        intro y hy hdy
        obtain ⟨j, hj⟩ := List.getElem?_of_mem hy
        have hkj : k ≤ j := by
          by_contra hc
          exact (hbefore j y hj (by omega)).2 hdy
        have := (hm4 j y hj hkj).1 hdy
        refine List.mem_of_getElem? (i := j - k) ?_
        rw [hget, if_pos (by omega), show k + (j - k) = j by omega, hj]
      obtain ⟨log, i1, i2, i3⟩ := C48_iterate hS hF (fun _ _ => true) treeId ho hsub k hn hf hbelow []
      rw [List.nil_append] at i1
      have hacc : ∀ c r, (c, r) ∈ log → r = true := by
        intro c r hm
        obtain ⟨i, hi⟩ := List.getElem?_of_mem hm
        exact i3 i c r hi
      have hlv := C48_leaves hF hn ho hsub hbelow i2 hacc
      have hcall : ∀ c r, (c, r) ∈ log → c.isLeaf = true → leaves[c.index]? = some c.elem := by
        intro c r hm hl
        have hmem : c.elem ∈ view := by
          have : c.elem ∈ (log.filter (fun p => p.1.isLeaf)).map (fun p => p.1.elem) :=
            List.mem_map.2 ⟨(c, r), List.mem_filter.2 ⟨hm, hl⟩, rfl⟩
          rw [hlv] at this
          exact (List.mem_filter.1 this).1
        obtain ⟨j, hj⟩ := List.getElem?_of_mem hmem
        obtain ⟨_, _, hface, _⟩ := i2.calls c r hm
        have h4 := ((C48_leaf hF hn ho hsub hbelow i2 hj).2 c r c.face hm rfl hface).2.2.2
        rw [h4]
        rw [hget] at hj
        split at hj
        · exact hj
        · cases hj
      obtain ⟨new, n1, n2⟩ := collect_spec leaves offset log hcall
      refine ⟨new.flatten, ⟨?_, ?_, ?_⟩, fun buffer out => ⟨hno, fun _ => ?_⟩⟩
      rotate_left 3
      · have hcount : ((m : Int) - (k : Int) + 1).toNat = m + 1 - k := by omega
        simp only [searchArray, h1, Option.bind_eq_bind, Option.bind_some]
        rw [if_pos (by omega)]
        simp only [decide_eq_false hu, Bool.false_eq_true, if_false, Option.bind_some, hm1, assertO,
          if_pos (show (m : Int) - (k : Int) + 1 > 0 by omega), hcount, Int.toNat_natCast, hview, i1, n1]
        exact congrArg (fun z => some (buffer ++ new.flatten, z)) (hout _ _)
      · intro r hr
        rw [n2] at hr
        obtain ⟨⟨c, b⟩, hc, rfl⟩ := List.mem_map.1 hr
        obtain ⟨hc1, hc2⟩ := List.mem_filter.1 hc
        obtain ⟨_, c2, c3, _⟩ := i2.calls c b hc1
        exact ⟨c.index, hcall c b hc1 hc2, rfl, Or.inl ⟨c2, c3⟩⟩
      · rintro y hy ⟨g, hat⟩
        have hat' : T.Desc n y ∧ In y g n f := by
          rcases hat with h | ⟨hd', hin'⟩
          · exact h
          · have := eq_of_desc ho hy hxm (hd'.trans hd)
            subst this
            exact absurd (hd'.level_le hxv) hu
        have : y ∈ view.filter (fun x => decide (∃ g, In x g n f)) :=
          List.mem_filter.2 ⟨hin y hy hat'.1, by simp only [decide_eq_true_eq]; exact ⟨g, hat'.2⟩⟩
        rw [← hlv] at this
        obtain ⟨p, hp, rfl⟩ := List.mem_map.1 this
        rw [n2]
        exact ⟨_, List.mem_map.2 ⟨p, hp, rfl⟩, rfl⟩
      · rw [n2, List.pairwise_map]
        have hlt : ∀ x, T.Valid x → ¬ T.Lt x x := ltTotalOrder.1
        refine (i2.order.sublist List.filter_sublist).imp_of_mem ?_
        intro p q hp hq hpq
        obtain ⟨hp1, hp2⟩ := List.mem_filter.1 hp
        obtain ⟨hq1, hq2⟩ := List.mem_filter.1 hq
        have hpi := hcall p.1 p.2 hp1 hp2
        have hqi := hcall q.1 q.2 hq1 hq2
        show offset + p.1.index < offset + q.1.index
        rcases Nat.lt_trichotomy p.1.index q.1.index with h | h | h
        · omega
        · rw [h] at hpi
          rw [Option.some.inj (hpi.symm.trans hqi)] at hpq
          exact absurd hpq (hlt _ (Ordered.valid ho hqi))
        · have hb : T.Lt q.1.elem p.1.elem := Or.inl (Ordered.before ho hqi hpi h)
          exact absurd (ltTotalOrder.2.1 _ _ _ (Ordered.valid ho hqi) (Ordered.valid ho hpi) (Ordered.valid ho hqi) hb hpq)
            (hlt _ (Ordered.valid ho hqi))

end T8.LeafNeighbor
