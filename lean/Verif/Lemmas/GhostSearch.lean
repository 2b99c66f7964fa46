/-
Lemmas for C55: the search of the elements at the boundary in one tree.
-/
import Verif.Lemmas.GhostCallback
import Verif.Props.Search

namespace T8.Ghost
open T8.RTree T8.Spec T8.GhostSpec T8.Owner T8.Search T8.Populate
open T8.BalanceSpec (Neighbor Neighbors)

variable {T : Nat → RTree} {P K L : Nat} {X : Env T} {In : ∀ g, (T g).E → Nat → (T g).E → Nat → Prop} {D : DistForest T P K L}

/-! ### Order -/

section
variable {T : RTree}

theorem lt_asymm {x y : T.E} (hx : T.Valid x) (hy : T.Valid y) (h : T.Lt x y) : ¬ T.Lt y x :=
  fun h' => ltTotalOrder.1 x hx (ltTotalOrder.2.1 x y x hx hy hx h h')

theorem ordered_desc {ls : List T.E} (ho : T.Ordered ls) {x y : T.E} (hx : x ∈ ls) (hy : y ∈ ls) (h : T.Desc x y) : x = y := by
  obtain ⟨i, hi⟩ := List.getElem?_of_mem hx
  obtain ⟨j, hj⟩ := List.getElem?_of_mem hy
  rcases Nat.lt_trichotomy i j with hij | rfl | hij
  · exact absurd h (T8.Leaf.Ordered.before ho hi hj hij).not_desc.1
  · rw [hi] at hj; exact Option.some.inj hj
  · exact absurd h (T8.Leaf.Ordered.before ho hj hi hij).not_desc.2

/-- Between an element and a descendant there is no other element of the level of the first one. -/
theorem lt_between {a b c : T.E} (ha : T.Valid a) (hb : T.Valid b) (hd : T.Desc a c) (h1 : T.Lt a b) (h2 : T.Lt b c) :
    T.level b ≠ T.level a := by
  intro hl
  have hab : T.Before a b := by
    rcases h1 with h | ⟨h, hne⟩
    · exact h
    · exact absurd (h.eq_of_level ha hl.le).symm hne
  rcases h2 with h | ⟨h, _⟩
  · exact (hab.desc hd Desc.refl).asymm h
  · have := desc_comparable ha hb hd h hl.ge
    exact hab.not_desc.1 this

/-- Two lists that are ordered in the same way and have the same members are equal. -/
theorem eq_of_pairwise {α : Type} {R : α → α → Prop} {l l' : List α} (hirr : ∀ x ∈ l, ¬ R x x) (hasym : ∀ x ∈ l, ∀ y ∈ l, R x y → ¬ R y x)
    (h : l.Pairwise R) (h' : l'.Pairwise R) (hm : ∀ x, x ∈ l ↔ x ∈ l') : l = l' := by
  induction l generalizing l' with
  | nil =>
    cases l' with
    | nil => rfl
    | cons b l' => exact absurd ((hm b).2 (by simp)) (by simp)
  | cons a l ih =>
    cases l' with
    | nil => exact absurd ((hm a).1 (by simp)) (by simp)
    | cons b l' =>
      rw [List.pairwise_cons] at h h'
      have hab : a = b := by
        have h1 := (hm a).1 (by simp)
        have h2 := (hm b).2 (by simp)
        rcases List.mem_cons.1 h1 with h1 | h1
        · exact h1
        · rcases List.mem_cons.1 h2 with h2 | h2
          · exact h2.symm
          · exact absurd (h'.1 a h1) (hasym a (by simp) b (by simp [h2]) (h.1 b h2))
      subst hab
      congr 1
      refine ih (fun x hx => hirr x (by simp [hx])) (fun x hx y hy => hasym x (by simp [hx]) y (by simp [hy])) h.2 h'.2 (fun x => ?_)
      constructor
      · intro hx
        rcases List.mem_cons.1 ((hm x).1 (by simp [hx])) with rfl | h1
        · exact absurd (h.1 x hx) (hirr x (by simp))
        · exact h1
      · intro hx
        rcases List.mem_cons.1 ((hm x).2 (by simp [hx])) with rfl | h1
        · exact absurd (h'.1 x hx) (hirr x (by simp))
        · exact h1

end

/-! ### One call -/

/-- The data in tree `g`. -/
structure InTree (g l0 mf : Nat) (s : Data T) : Prop where
  gtreeid : s.gtreeid = g
  levelNca : s.levelNca = l0
  maxNumFaces : s.maxNumFaces = mf
  lengths : ∀ b ∈ s.boundsPerLevel, b.length = 2 * (mf + 1)

/-- Process `q` is another one and owns something on the other side of a face of `e`. -/
def Wanted (X : Env T) (In : ∀ g, (T g).E → Nat → (T g).E → Nat → Prop) (D : DistForest T P K L) (p g : Nat) (e : (T g).E) (q : Int) :
    Prop :=
  q ≠ p ∧ ∃ f n, f < (X.faces g).numFaces e ∧ X.neighbor g e f = some n ∧ ∃ q' : Nat, D.OwnsAtFace (In n.tree) q' n.elem n.face ∧ q = q'

/-- The element has one owner, and all owners on the other side of its faces are process `p`. -/
def Closed (X : Env T) (In : ∀ g, (T g).E → Nat → (T g).E → Nat → Prop) (D : DistForest T P K L) (p g : Nat) (e : (T g).E) : Prop :=
  (∀ q q', D.OwnsDescendant q g e → D.OwnsDescendant q' g e → q = q') ∧
  ∀ f n q, f < (X.faces g).numFaces e → X.neighbor g e f = some n → D.OwnsAtFace (In n.tree) q n.elem n.face → q = p

theorem searchBoundary_spec {p : Nat} (hs : Setting X In D p) {g : Nat} (hg : g < K) {c : Call (T g)} (he : (T g).Valid c.elem)
    (hle : (T g).level c.elem ≤ L) {l0 mf : Nat} {s s1 : Data T} (h1 : enterTree X g c.elem s = s1) (hin : InTree g l0 mf s1)
    (hl0 : l0 ≤ (T g).level c.elem) {b : List (Option Int)} (hb : s1.boundsPerLevel[(T g).level c.elem - l0]? = some b)
    (hu : Usable X In D mf g c.elem b) (hmf : (X.faces g).numFaces c.elem ≤ mf) {base : Int → List (Sent T)} (hbase : Base g c.elem base)
    (hgood : s1.remotes.Good) (hsent : ∀ q, s1.remotes.sent q = base q) :
    ∃ s' r, searchBoundary X g c s = some (s', r) ∧ InTree g l0 mf s' ∧ (T g).level c.elem - l0 + 2 ≤ s'.boundsPerLevel.length ∧
      s1.boundsPerLevel.length ≤ s'.boundsPerLevel.length ∧
      (∀ j, j ≠ (T g).level c.elem - l0 + 1 → j < s1.boundsPerLevel.length → s'.boundsPerLevel[j]? = s1.boundsPerLevel[j]?) ∧
      (c.isLeaf = false → (∃ b', s'.boundsPerLevel[(T g).level c.elem - l0 + 1]? = some b' ∧ GoodBounds X In D mf g c.elem b') ∧
        s'.remotes = s1.remotes ∧ (r = false → Closed X In D p g c.elem)) ∧
      (c.isLeaf = true → Added g c.elem c.index base (Wanted X In D p g c.elem) s'.remotes) := by
  obtain ⟨i1, i2, i3, i4⟩ := hin
  obtain ⟨lo, up, hlo, hup, hP, hown⟩ := hu.elem
  obtain ⟨a, a', o1, o2, o3, o4⟩ := C49_bounds_partial hs.arrays (hs.lawful.scheme g) hg he hle
    (fun d hd hl => covered hs.complete hg (hd.valid he) hl) hP hown (Or.inl hs.firstDescs)
  have hblen := (List.getElem?_eq_some_iff.1 hb).1
  -- the entry for the level
  obtain ⟨bs, hbs, hbs1, hbs2, hbs3, hbs4⟩ : ∃ bs, (if s1.boundsPerLevel.length ≤ (T g).level c.elem - s1.levelNca + 1 then do
        assertO (s1.boundsPerLevel.length = (T g).level c.elem - s1.levelNca + 1)
        return s1.boundsPerLevel ++ [List.replicate (2 * (s1.maxNumFaces + 1)) none]
      else some s1.boundsPerLevel) = some bs ∧ (T g).level c.elem - l0 + 2 ≤ bs.length ∧ s1.boundsPerLevel.length ≤ bs.length ∧
      (∀ j, j < s1.boundsPerLevel.length → bs[j]? = s1.boundsPerLevel[j]?) ∧ ∀ b ∈ bs, b.length = 2 * (mf + 1) := by
    rw [i2, i3]
    split
    · rw [assertO, if_pos (by omega)]
      refine ⟨_, rfl, by simp; omega, by simp, ?_, ?_⟩
      · intro j hj
        rw [List.getElem?_append_left hj]
      · intro b hb
        rcases List.mem_append.1 hb with hb | hb
        · exact i4 b hb
        · rw [List.mem_singleton] at hb
          subst hb
          simp
    · exact ⟨_, rfl, by omega, le_rfl, fun j _ => rfl, i4⟩
  have hnb : bs[(T g).level c.elem - l0 + 1]? = some bs[(T g).level c.elem - l0 + 1] := List.getElem?_eq_getElem (by omega)
  generalize hnew : bs[(T g).level c.elem - l0 + 1] = new at hnb
  have hnlen : new.length = 2 * (mf + 1) := hbs4 new (List.mem_of_getElem? hnb)
  obtain ⟨b1, b', w1, w2, w3, w4, w5, w6⟩ := wr_pair (b := new) (i := mf) (by omega) (a : Int) (a' : Int)
  have hb' : bs[(T g).level c.elem - l0]? = some b := (hbs3 _ hblen).trans hb
  -- the loop over the faces
  have hloop : ∃ t, (List.range ((X.faces g).numFaces c.elem)).foldlM (faceBody X g c.elem c.isLeaf c.index b lo up)
        ⟨b', true, s1.remotes⟩ = some t ∧ t.newBounds.length = 2 * (mf + 1) ∧
      (c.isLeaf = false → GoodBounds X In D mf g c.elem t.newBounds ∧ t.remotes = s1.remotes ∧
        ((t.totallyOwned && decide ((a : Int) = a')) = true → Closed X In D p g c.elem)) ∧
      (c.isLeaf = true → Added g c.elem c.index base (Wanted X In D p g c.elem) t.remotes) := by
    cases hleaf : c.isLeaf with
    | false =>
      obtain ⟨t, t1, t2, t3, t4, t5, t6, t7⟩ := faces_inner hs hg he hle hmf hu hlo hup (nb0 := b') (by omega) c.index s1.remotes
      refine ⟨t, t1, t2, fun _ => ⟨⟨t2, ?_, fun f hf => (t5 f hf).1, fun f n hf hn => (t5 f hf).2 n hn⟩, t6, ?_⟩, by simp⟩
      · exact ⟨a, a', t3.trans w4, t4.trans w5, (hown a' o3).2.trans_lt hP, o4⟩
      · intro h
        simp only [Bool.and_eq_true, decide_eq_true_eq] at h
        obtain ⟨h2, h3⟩ := h
        refine ⟨fun q q' hq hq' => ?_, t7 h2⟩
        have k1 := o4 q hq
        have k2 := o4 q' hq'
        omega
    | true =>
      obtain ⟨t, t1, t2, t3, t4⟩ := faces_leaf hs hg he hle hmf hu hlo hup (nb0 := b') (i := c.index) hbase (G := s1.remotes)
        ⟨hgood, by simp, fun q _ => hsent q⟩
      exact ⟨t, t1, by rw [t2]; omega, by simp, fun _ => t4⟩
  obtain ⟨t, t1, t2, t3, t4⟩ := hloop
  refine ⟨{ s1 with boundsPerLevel := bs.set ((T g).level c.elem - l0 + 1) t.newBounds, remotes := t.remotes },
    !(t.totallyOwned && decide ((a : Int) = a')), ?_, ⟨i1, i2, i3, ?_⟩, by simpa using hbs1, by simpa using hbs2, ?_, ?_, t4⟩
  · unfold searchBoundary
    simp only
    rw [h1, hbs, i2, i3, assertO, if_pos (by omega)]
    simp only [Option.bind_eq_bind, Option.bind_some, hnb, hb', rdw, hlo, hup, Option.join_some, o1, w1, w2, t1, Option.pure_def]
  · intro b hb
    rcases List.mem_or_eq_of_mem_set hb with hb | rfl
    · exact hbs4 b hb
    · exact t2
  · intro j hj hjl
    show (bs.set _ _)[j]? = _
    rw [List.getElem?_set_ne (by omega)]
    exact hbs3 j hjl
  · intro hleaf
    obtain ⟨k1, k2, k3⟩ := t3 hleaf
    refine ⟨⟨t.newBounds, ?_, k1⟩, k2, fun hr => k3 (by simpa using hr)⟩
    show (bs.set _ _)[_]? = _
    rw [List.getElem?_set_self (by omega)]

/-! ### The calls in one tree -/

theorem dataAfter_append (h : History T) (g : Nat) (c : Call (T g)) (r : Bool) :
    dataAfter X (h ++ [⟨g, .check c r⟩]) = (dataAfter X h).bind (fun s => (searchBoundary X g c s).map Prod.fst) := by
  unfold dataAfter
  rw [List.foldlM_append]
  simp only [Option.bind_eq_bind]
  congr 1
  funext s
  simp only [List.foldlM_cons, List.foldlM_nil]
  cases searchBoundary X g c s <;> rfl

open Classical in
/-- What a call adds for process `q`. -/
noncomputable def sentBy (X : Env T) (In : ∀ g, (T g).E → Nat → (T g).E → Nat → Prop) (D : DistForest T P K L) (p g : Nat) (q : Int) :
    Event (T g) → Option ((T g).E × Nat)
  | .check c _ => if c.isLeaf = true ∧ Wanted X In D p g c.elem q then some (c.elem, c.index) else none
  | .query _ _ _ => none

/-- What is known after the calls `pre` in tree `g`. -/
structure After (X : Env T) (In : ∀ g, (T g).E → Nat → (T g).E → Nat → Prop) (D : DistForest T P K L) (p g : Nat) (e0 : (T g).E)
    (base : Int → List (Sent T)) (pre : List (Event (T g))) (s : Data T) : Prop where
  inTree : InTree g ((T g).level e0) (X.maxNumFaces g e0) s
  first : s.boundsPerLevel[0]? = some (fullBounds P (X.maxNumFaces g e0))
  last : ∀ p1 c r p2, pre = p1 ++ Event.check c r :: p2 → c.isLeaf = false →
    (∀ ev ∈ p2, (T g).level ev.call.elem ≠ (T g).level c.elem) →
    ∃ b, s.boundsPerLevel[(T g).level c.elem - (T g).level e0 + 1]? = some b ∧ GoodBounds X In D (X.maxNumFaces g e0) g c.elem b
  closed : ∀ c, Event.check c false ∈ pre → c.isLeaf = false → Closed X In D p g c.elem
  good : s.remotes.Good
  sent : ∀ q, s.remotes.sent q = base q ++ (pre.filterMap (sentBy X In D p g q)).map (Sigma.mk g)

section Tree
variable {p : Nat} (hs : Setting X In D p) {g : Nat} (hg : g < K) {itree : Nat} {ls : List (T g).E} (ho : (T g).Ordered ls)
  (hloc : ∀ x ∈ ls, ⟨g, x⟩ ∈ D.localLeaves p) {e0 : (T g).E} (he0 : (T g).Valid e0) {log : List (Event (T g))}
  (hlog : Searched itree ls e0 none log) {base : Int → List (Sent T)} (hbase : ∀ q, ∀ s ∈ base q, s.1 < g)

include hs hg ho hloc he0 hlog hbase

/-- One more call. -/
theorem after_step {pre rest : List (Event (T g))} {c : Call (T g)} {r : Bool} (hsplit : log = pre ++ .check c r :: rest) {s s1 : Data T}
    (h1 : enterTree X g c.elem s = s1) (ha : After X In D p g e0 base pre s1) :
    ∃ s' r', searchBoundary X g c s = some (s', r') ∧ (r = r' → After X In D p g e0 base (pre ++ [.check c r]) s') := by
  have hmem : Event.check c r ∈ log := by rw [hsplit]; simp
  obtain ⟨⟨_, hc2, hc3⟩, hd⟩ := hlog.calls _ hmem
  simp only [Event.call] at hc2 hc3 hd
  have he := hd.valid he0
  obtain ⟨_, ⟨x, hx, hcx⟩, _, hanc⟩ := (hlog.checked c.elem).1 ⟨r, c, rfl, hmem⟩
  have hxf := leaf_facts hs.process (hloc x hx)
  have hlx := hcx.level_le he
  have hle : (T g).level c.elem ≤ L := hlx.trans hxf.2.2
  have hl0 := hd.level_le he0
  have hord := hlog.order
  rw [hsplit, List.pairwise_append] at hord
  obtain ⟨_, hord2, hord3⟩ := hord
  rw [List.pairwise_cons] at hord2
  -- no event before has the same element
  have hne : ∀ d r', Event.check d r' ∈ pre → (T g).Valid d.elem ∧ d.elem ≠ c.elem := by
    intro d r' hm
    have hv : (T g).Valid d.elem := (hlog.calls (Event.check d r') (by rw [hsplit]; simp [hm])).2.valid he0
    refine ⟨hv, fun heq => ?_⟩
    have : (T g).Lt d.elem c.elem := hord3 _ hm (Event.check c r) (by simp)
    rw [heq] at this
    exact ltTotalOrder.1 _ he this
  -- the bounds of the parent
  obtain ⟨b, hb, hu⟩ : ∃ b, s1.boundsPerLevel[(T g).level c.elem - (T g).level e0]? = some b ∧
      Usable X In D (X.maxNumFaces g e0) g c.elem b := by
    by_cases hce : c.elem = e0
    · rw [hce, Nat.sub_self]
      exact ⟨_, ha.first, fullBounds_usable hs.lawful (by have := hs.process; omega) he0⟩
    · have hlt : (T g).level e0 < (T g).level c.elem := by
        rcases Nat.lt_or_ge ((T g).level e0) ((T g).level c.elem) with h | h
        · exact h
        · exact absurd (hd.eq_of_level he0 h) hce
      have hlp := (T g).level_parent _ he (by omega)
      have hdp := (LeafNeighbor.desc_parent he0 he hlt).1 hd
      have hpc : (T g).Desc ((T g).parent c.elem) c.elem := (LeafNeighbor.desc_parent ((T g).valid_parent _ he (by omega)) he (by omega)).2 Desc.refl
      have hpne : (T g).parent c.elem ≠ c.elem := by intro h; rw [h] at hlp; omega
      obtain ⟨d, hde, hdm⟩ := (hanc _ hdp hpc hpne).1
      have hltp : (T g).Lt ((T g).parent c.elem) c.elem := Or.inr ⟨hpc, hpne⟩
      have hpv := (T g).valid_parent _ he (by omega)
      have hpre : Event.check d true ∈ pre := by
        rw [hsplit] at hdm
        rcases List.mem_append.1 hdm with h | h
        · exact h
        · rcases List.mem_cons.1 h with h | h
          · obtain ⟨rfl, _⟩ := Event.check.inj h
            exact absurd hde.symm hpne
          · have : (T g).Lt c.elem d.elem := hord2.1 _ h
            rw [hde] at this
            exact absurd this (lt_asymm hpv he hltp)
      obtain ⟨p1, p2, hp12⟩ := List.append_of_mem hpre
      have hdleaf : d.isLeaf = false := by
        have := (hlog.calls _ (show Event.check d true ∈ log by rw [hsplit]; simp [hpre])).1.2.1
        simp only [Event.call] at this
        by_contra hcon
        rw [Bool.not_eq_false] at hcon
        have hdl := this.1 hcon
        rw [hde] at hdl
        have := ordered_desc ho hdl hx (hpc.trans hcx)
        rw [← this] at hlx
        omega
      have hdlast : ∀ ev ∈ p2, (T g).level ev.call.elem ≠ (T g).level d.elem := by
        intro ev hev
        have hpo := hlog.order
        rw [hsplit, hp12, List.append_assoc, List.pairwise_append, List.cons_append, List.pairwise_cons] at hpo
        have hm2 : ev ∈ pre := by rw [hp12]; simp [hev]
        have hvev := (hlog.calls ev (by rw [hsplit]; simp [hm2])).2.valid he0
        have e1 := hpo.2.1.1 ev (by simp [hev])
        have e2 := hord3 ev hm2 _ (List.mem_cons_self ..)
        have hvd : (T g).Valid d.elem := by rw [hde]; exact hpv
        cases ev with
        | check ec er =>
          exact lt_between hvd hvev (by rw [hde]; exact hpc) e1 e2
        | query ec eq er =>
          obtain ⟨⟨l, hl, _⟩, _⟩ := (hlog.tested ec.elem eq).1 ⟨er, ec, rfl, by rw [hsplit]; simp [hm2]⟩
          cases hl
      obtain ⟨b, hb1, hb2⟩ := ha.last p1 d true p2 hp12 hdleaf hdlast
      rw [hde] at hb1 hb2
      refine ⟨b, ?_, hb2.usable hs.lawful hg he (by omega) (by omega)⟩
      rwa [show (T g).level ((T g).parent c.elem) - (T g).level e0 + 1 = (T g).level c.elem - (T g).level e0 by omega] at hb1
  have hB : Base g c.elem (fun q => base q ++ (pre.filterMap (sentBy X In D p g q)).map (Sigma.mk g)) := by
    refine ⟨?_, ?_⟩
    · intro q t ht
      rcases List.mem_append.1 ht with ht | ht
      · exact (hbase q t ht).le
      · obtain ⟨y, _, rfl⟩ := List.mem_map.1 ht
        exact le_rfl
    · intro q y hy
      rcases List.mem_append.1 hy with ht | ht
      · exact absurd (hbase q _ ht) (lt_irrefl _)
      · obtain ⟨y', hy', heq⟩ := List.mem_map.1 ht
        cases heq
        obtain ⟨ev, hev, hsb⟩ := List.mem_filterMap.1 hy'
        cases ev with
        | check d r' =>
          rw [sentBy] at hsb
          split at hsb
          · cases hsb
            exact hne d r' hev
          · cases hsb
        | query => cases hsb
  obtain ⟨s', r', k1, k2, k3, k4, k5, k6, k7⟩ := searchBoundary_spec hs hg he hle h1 ha.inTree hl0 hb hu
    (hs.lawful.maxNumFaces g e0 c.elem he0 hd) hB ha.good ha.sent
  refine ⟨s', r', k1, fun hr => ⟨k2, ?_, ?_, ?_, ?_, ?_⟩⟩
  · rw [k5 0 (by omega) (List.getElem?_eq_some_iff.1 ha.first).1]
    exact ha.first
  · intro p1 d r'' p2 hp hdl hlev
    rcases List.eq_nil_or_concat p2 with rfl | ⟨p2', ev, rfl⟩
    · obtain ⟨_, hdc⟩ := List.append_inj' hp (by rfl)
      obtain ⟨hdc, _⟩ := Event.check.inj (List.cons.inj hdc).1
      subst hdc
      exact (k6 hdl).1
    · have hp' : pre ++ [Event.check c r] = (p1 ++ Event.check d r'' :: p2') ++ [ev] := by
        rw [hp]; simp
      obtain ⟨hp1, hev⟩ := List.append_inj' hp' (by rfl)
      obtain rfl := (List.cons.inj hev).1
      obtain ⟨b', hb1, hb2⟩ := ha.last p1 d r'' p2' hp1 hdl (fun ev hev => hlev ev (by simp [hev]))
      refine ⟨b', ?_, hb2⟩
      have hlc := hlev (Event.check c r) (by simp)
      simp only [Event.call] at hlc
      have hdd := (hlog.calls (Event.check d r'') (by rw [hsplit, hp1]; simp)).2
      have hdl0 : (T g).level e0 ≤ (T g).level d.elem := hdd.level_le he0
      rw [k5 _ (by omega) (List.getElem?_eq_some_iff.1 hb1).1]
      exact hb1
  · intro d hd hdl
    rcases List.mem_append.1 hd with hd | hd
    · exact ha.closed d hd hdl
    · rw [List.mem_singleton] at hd
      obtain ⟨rfl, rfl⟩ := Event.check.inj hd
      exact (k6 hdl).2.2 hr.symm
  · cases hleaf : c.isLeaf with
    | false => rw [(k6 hleaf).2.1]; exact ha.good
    | true => exact (k7 hleaf).good
  · intro q
    rw [List.filterMap_append, List.map_append, ← List.append_assoc]
    cases hleaf : c.isLeaf with
    | false =>
      rw [(k6 hleaf).2.1, ha.sent q]
      simp [sentBy, hleaf]
    | true =>
      by_cases hw : Wanted X In D p g c.elem q
      · rw [(k7 hleaf).yes q hw]
        simp [sentBy, hleaf, hw]
      · rw [(k7 hleaf).no q hw]
        simp [sentBy, hleaf, hw]

/-- All calls. -/
theorem after_all (rest : List (Event (T g))) : ∀ (pre : List (Event (T g))) (h : History T) (s s1 : Data T), log = pre ++ rest →
    Answered (callback X) none g (h ++ pre.map (Sigma.mk g)) rest → dataAfter X (h ++ pre.map (Sigma.mk g)) = some s →
    (∀ ev ∈ rest.head?, enterTree X g ev.call.elem s = s1) → After X In D p g e0 base pre s1 →
    rest = [] ∨ ∃ s', dataAfter X (h ++ log.map (Sigma.mk g)) = some s' ∧ After X In D p g e0 base log s' := by
  induction rest with
  | nil => intro _ _ _ _ _ _ _ _ _; exact Or.inl rfl
  | cons ev rest ih =>
    intro pre h s s1 hsplit hans hdata hent ha
    cases hans with
    | accept _ _ _ _ _ _ hq => cases hq
    | check _ c _ _ hrest =>
      obtain ⟨s', r', k1, k2⟩ := after_step hs hg ho hloc he0 hlog hbase hsplit (hent _ rfl) ha
      have hr : callback X (h ++ pre.map (Sigma.mk g)) g c = r' := by
        rw [callback, hdata, Option.bind_some, k1]
        rfl
      have ha' := k2 hr
      have hd' : dataAfter X (h ++ (pre ++ [Event.check c (callback X (h ++ pre.map (Sigma.mk g)) g c)]).map (Sigma.mk g)) = some s' := by
        rw [List.map_append, ← List.append_assoc]
        show dataAfter X (_ ++ [_]) = _
        rw [dataAfter_append, hdata, Option.bind_some, k1]
        rfl
      have hent' : ∀ ev ∈ rest.head?, enterTree X g ev.call.elem s' = s' := by
        intro ev _
        rw [enterTree, if_neg]
        rw [ha'.inTree.gtreeid]
        simp
      rcases ih _ h s' s' (by rw [hsplit]; simp) (by rw [List.map_append, ← List.append_assoc]; exact hrest) hd' hent' ha' with rfl | hfin
      · refine Or.inr ⟨s', ?_, ?_⟩
        · rw [hsplit]; exact hd'
        · rw [hsplit]; exact ha'
      · exact Or.inr hfin

/-- The first call of the search in a tree is that on the nearest common ancestor. -/
theorem head_log (hne : ls ≠ []) (hall : ∀ x ∈ ls, (T g).Desc e0 x) : ∃ c r rest, log = .check c r :: rest ∧ c.elem = e0 := by
  obtain ⟨x, hx⟩ := List.exists_mem_of_ne_nil _ hne
  obtain ⟨r, c, hc, hm⟩ := (hlog.checked e0).2 ⟨Desc.refl, ⟨x, hx, hall x hx⟩, by simp, fun a h1 h2 h3 =>
    absurd ((h1.eq_of_level he0 (h2.level_le (h1.valid he0)))) h3⟩
  cases hl : log with
  | nil => rw [hl] at hm; cases hm
  | cons ev rest =>
    have hev : ev ∈ log := by rw [hl]; simp
    have hord := hlog.order
    rw [hl, List.pairwise_cons] at hord
    have hd := (hlog.calls ev hev).2
    cases ev with
    | query ec eq er =>
      obtain ⟨⟨l, hl, _⟩, _⟩ := (hlog.tested ec.elem eq).1 ⟨er, ec, rfl, hev⟩
      cases hl
    | check d r' =>
      refine ⟨d, r', rest, rfl, ?_⟩
      rw [hl] at hm
      rcases List.mem_cons.1 hm with h | h
      · obtain ⟨rfl, _⟩ := Event.check.inj h
        exact hc
      · have h2 : (T g).Lt d.elem c.elem := hord.1 _ h
        rw [hc] at h2
        by_contra hcon
        exact lt_asymm (hd.valid he0) he0 h2 (Or.inr ⟨hd, fun h => hcon h.symm⟩)

open Classical in
/-- What is sent after all calls. -/
theorem filter_log (hall : ∀ x ∈ ls, (T g).Desc e0 x)
    (hcl : ∀ c, Event.check c false ∈ log → c.isLeaf = false → Closed X In D p g c.elem) (q : Int) :
    log.filterMap (sentBy X In D p g q) = ls.zipIdx.filter (fun x => decide (Wanted X In D p g x.1 q)) := by
  have hmem1 : ∀ y, y ∈ log.filterMap (sentBy X In D p g q) ↔
      ∃ c r, Event.check c r ∈ log ∧ c.isLeaf = true ∧ Wanted X In D p g c.elem q ∧ y = (c.elem, c.index) := by
    intro y
    rw [List.mem_filterMap]
    constructor
    · rintro ⟨ev, hev, hsb⟩
      cases ev with
      | query => cases hsb
      | check c r =>
        rw [sentBy] at hsb
        split at hsb
        · rename_i hw
          cases hsb
          exact ⟨c, r, hev, hw.1, hw.2, rfl⟩
        · cases hsb
    · rintro ⟨c, r, hm, hl, hw, rfl⟩
      exact ⟨_, hm, by rw [sentBy, if_pos ⟨hl, hw⟩]⟩
  have hval : ∀ y ∈ log.filterMap (sentBy X In D p g q), (T g).Valid y.1 := by
    intro y hy
    obtain ⟨c, r, hm, _, _, rfl⟩ := (hmem1 y).1 hy
    exact (hlog.calls _ hm).2.valid he0
  refine eq_of_pairwise (R := fun a b => (T g).Lt a.1 b.1) (fun y hy => ltTotalOrder.1 _ (hval y hy))
    (fun y hy z hz => lt_asymm (hval y hy) (hval z hz)) ?_ ?_ ?_
  · rw [List.pairwise_filterMap]
    refine hlog.order.imp_of_mem ?_
    intro a b ha hb hab y hy z hz
    cases a with
    | query => cases hy
    | check c r =>
      cases b with
      | query => cases hz
      | check d r' =>
        rw [sentBy] at hy hz
        split at hy
        · split at hz
          · cases hy; cases hz
            exact hab
          · cases hz
        · cases hy
  · refine List.Pairwise.filter _ ?_
    rw [List.pairwise_iff_getElem]
    intro i j hi hj hij
    simp only [List.getElem_zipIdx]
    exact Or.inl (T8.Leaf.Ordered.before ho (List.getElem?_eq_getElem _) (List.getElem?_eq_getElem _) hij)
  · intro y
    rw [hmem1, List.mem_filter, List.mem_zipIdx_iff_getElem?]
    simp only [decide_eq_true_eq]
    constructor
    · rintro ⟨c, r, hm, hl, hw, rfl⟩
      refine ⟨?_, hw⟩
      have hx : c.elem ∈ ls := (hlog.calls _ hm).1.2.1.1 hl
      obtain ⟨k, hk⟩ := List.getElem?_of_mem hx
      rw [((C33_leaf he0 hall hlog hk ho).2 c r hm rfl).2]
      exact hk
    · rintro ⟨hk, hw⟩
      obtain ⟨x, k⟩ := y
      simp only at hk hw
      have hx := List.mem_of_getElem? hk
      obtain ⟨h1, h2⟩ := C33_leaf he0 hall hlog hk ho
      obtain ⟨_, hxv, hxl⟩ := leaf_facts hs.process (hloc x hx)
      replace hxv : (T g).Valid x := hxv
      replace hxl : (T g).level x ≤ L := hxl
      obtain ⟨r, c, hce, hm⟩ := h1.2 (by
        rintro a hax hne ⟨d, rfl, hm⟩
        have hav := (hlog.calls _ hm).2.valid he0
        replace hav : (T g).Valid d.elem := hav
        have hleaf : d.isLeaf = false := by
          by_contra hcon
          rw [Bool.not_eq_false] at hcon
          exact hne (ordered_desc ho ((hlog.calls _ hm).1.2.1.1 hcon) hx hax)
        obtain ⟨c1, c2⟩ := hcl d hm hleaf
        obtain ⟨hqp, f, n, hf, hn, q', hq', rfl⟩ := hw
        obtain ⟨h, n, j⟩ := n
        have hL := D.maxLevel g hg
        have hpd : D.OwnsDescendant p g d.elem := by
          obtain ⟨a1, a2, _⟩ := firstDesc_spec hxv (n := L - (T g).level x) (by omega)
          exact ⟨_, hax.trans a1, by omega, hs.process, x, hloc x hx, a1⟩
        rcases hs.lawful.up hg hav hxv (by omega) hax hf hn with ⟨rfl, hdn⟩ | ⟨f', m, k', b1, b2, b3, b4, _⟩
        · have := c1 _ _ (ownsDescendant_of hdn hq') hpd
          omega
        · have := c2 f' _ q' b1 b2 (ownsAtFace_mono (hs.lawful.faces h) b3 b4 hq')
          omega)
      obtain ⟨k1, k2⟩ := h2 c r hm hce
      exact ⟨c, r, hm, k1, by rw [hce]; exact hw, by rw [hce, k2]⟩

/-- The search in one tree. -/
theorem tree_spec (hne : ls ≠ []) (hall : ∀ x ∈ ls, (T g).Desc e0 x) {h : History T} (hans : Answered (callback X) none g h log)
    {s : Data T} (hdata : dataAfter X h = some s) (hid : s.gtreeid < g) (hgood : s.remotes.Good) (hsent : ∀ q, s.remotes.sent q = base q) :
    ∃ s', dataAfter X (h ++ log.map (Sigma.mk g)) = some s' ∧ s'.gtreeid = g ∧ s'.remotes.Good ∧
      ∀ q, s'.remotes.sent q = base q ++ ((ls.zipIdx.filter (fun x => @decide (Wanted X In D p g x.1 q) (Classical.dec _))).map (Sigma.mk g)) := by
  obtain ⟨c, r, rest, hl, hce⟩ := head_log hs hg ho hloc he0 hlog hbase hne hall
  have hmp : X.tables.mpisize = P := hs.arrays.size
  have hent : enterTree X g e0 s = { s with
      gtreeid := g, levelNca := (T g).level e0, maxNumFaces := X.maxNumFaces g e0, boundsPerLevel := [fullBounds P (X.maxNumFaces g e0)] } := by
    rw [enterTree, if_pos (by omega)]
    simp only [fullBounds, hmp]
  rcases after_all hs hg ho hloc he0 hlog hbase log [] h s (enterTree X g e0 s) rfl (by simpa using hans) (by simpa using hdata)
    (by rw [hl]; intro ev hev; obtain rfl := Option.some.inj hev; simp only [Event.call, hce])
    (hent ▸ ⟨⟨rfl, rfl, rfl, by intro b hb; rw [List.mem_singleton] at hb; subst hb; exact fullBounds_length⟩, rfl, by simp, by simp, hgood, by
      intro q; simpa using hsent q⟩) with hnil | ⟨s', h1, h2⟩
  · rw [hnil] at hl; cases hl
  · refine ⟨s', h1, h2.inTree.gtreeid, h2.good, fun q => ?_⟩
    rw [h2.sent q, filter_log hs hg ho hloc he0 hlog hbase hall h2.closed q]

end Tree

end T8.Ghost
