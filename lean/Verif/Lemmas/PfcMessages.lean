/-
Lemmas on the messages of partition for coarsening (`Model/Pfc.lean`).
-/
import Verif.Lemmas.Pfc

namespace T8.Pfc
open T8.Spec T8.Trees RTree

variable {T : Nat → RTree} {S : (g : Nat) → Scheme (T g)} {seq : List (Σ g, (T g).E)}

open Classical in
/-- What a message contributes to the number of children of `x`. -/
noncomputable def contrib (m : Message T) (g : Nat) (x : (T g).E) : Int :=
  if ∃ h : m.gtree = g, h ▸ m.parent = x then m.numSiblings else 0

/-- A message about the leaves `lo, …, hi - 1`: it contributes at most the number of children among them, and exactly this number for
a family that starts at `a` and ends at `b` with `E a b`. -/
structure Message.Tells (seq : List (Σ g, (T g).E)) (m : Message T) (lo hi : Nat) (E : Nat → Nat → Prop) : Prop where
  itree : m.itree = m.gtree
  valid : (T m.gtree).Valid m.parent
  bound : ∀ g x, contrib m g x + cnt seq g x lo ≤ cnt seq g x hi
  exact : ∀ a g x, FamilyAt seq a g x → E a (a + (T g).nc x) → contrib m g x + cnt seq g x lo = cnt seq g x hi

theorem tells_root {lo hi : Nat} {m : Message T} {E : Nat → Nat → Prop} (hlh : lo ≤ hi) (h1 : m.itree = m.gtree)
    (hv : (T m.gtree).Valid m.parent) (hn : m.numSiblings = 0)
    (hE : ∀ a g x, FamilyAt seq a g x → E a (a + (T g).nc x) → cnt seq g x lo = cnt seq g x hi) : m.Tells seq lo hi E := by
  have h0 : ∀ g x, contrib m g x = 0 := by
    intro g x
    rw [contrib, hn]; split <;> rfl
  refine ⟨h1, hv, ?_, ?_⟩
  · intro g x
    have := cnt_mono (seq := seq) (g := g) (x := x) hlh
    rw [h0]; omega
  · intro a g x hf he
    rw [h0, hE a g x hf he]; omega

theorem tells_lower (H : Linear seq) {lo hi r : Nat} {m : Message T} {e : (T m.gtree).E} (hlh : lo < hi) (h1 : m.itree = m.gtree)
    (he : seq[hi - 1]? = some ⟨m.gtree, e⟩) (h0 : 0 < (T m.gtree).level e) (hp : m.parent = (T m.gtree).parent e)
    (hr1 : lo ≤ r) (hr2 : r ≤ hi - 1) (hrun : ∀ i, r ≤ i → i ≤ hi - 1 → Sib seq m.gtree m.parent i)
    (hmax : r = lo ∨ ¬ Sib seq m.gtree m.parent (r - 1)) (hn : m.numSiblings = (hi : Int) - r) :
    m.Tells seq lo hi (fun _ b => hi ≤ b) := by
  have hve := H.valid _ _ _ he
  refine ⟨h1, by rw [hp]; exact (T m.gtree).valid_parent e hve h0, ?_, ?_⟩
  · intro g x
    have hm := cnt_mono (seq := seq) (g := g) (x := x) hlh.le
    rw [contrib]
    split
    · rename_i h
      obtain ⟨rfl, rfl⟩ := h
      have h2 := cnt_run (seq := seq) (show r ≤ hi by omega) (fun i hi1 hi2 => hrun i hi1 (by omega))
      have h3 := cnt_mono (seq := seq) (g := m.gtree) (x := m.parent) hr1
      simp only
      omega
    · omega
  · intro a g x hf hE
    rw [contrib]
    split
    · rename_i h
      obtain ⟨rfl, rfl⟩ := h
      have h2 := cnt_run (seq := seq) (show r ≤ hi by omega) (fun i hi1 hi2 => hrun i hi1 (by omega))
      have h3 : cnt seq m.gtree m.parent r = cnt seq m.gtree m.parent lo := by
        refine cnt_none hr1 ?_
        intro i hi1 hi2 hs
        rcases hmax with h | h
        · omega
        · apply h
          have k1 := (hf.sib H).1 hs
          have k2 := (hf.sib H).1 (hrun r le_rfl hr2)
          exact (hf.sib H).2 (by omega)
      simp only
      omega
    · rename_i h
      rw [cnt_none hlh.le]
      · omega
      · intro i hi1 hi2 hs
        have k1 := (hf.sib H).1 hs
        obtain ⟨e', he', h0', hp'⟩ := (hf.sib H (j := hi - 1)).2 (by omega)
        rw [he] at he'
        have hg : m.gtree = g := congrArg Sigma.fst (Option.some.inj he')
        subst hg
        have he2 : e = e' := by simpa using he'
        subst he2
        exact h ⟨rfl, hp.trans hp'⟩

theorem tells_upper (H : Linear seq) {lo hi r : Nat} {m : Message T} {e : (T m.gtree).E} (hlh : lo < hi) (h1 : m.itree = m.gtree)
    (he : seq[lo]? = some ⟨m.gtree, e⟩) (h0 : 0 < (T m.gtree).level e) (hp : m.parent = (T m.gtree).parent e)
    (hr1 : lo ≤ r) (hr2 : r < hi) (hrun : ∀ i, lo ≤ i → i ≤ r → Sib seq m.gtree m.parent i)
    (hmax : r + 1 = hi ∨ ¬ Sib seq m.gtree m.parent (r + 1)) (hn : m.numSiblings = (r : Int) - lo + 1) :
    m.Tells seq lo hi (fun a _ => a ≤ lo) := by
  have hve := H.valid _ _ _ he
  refine ⟨h1, by rw [hp]; exact (T m.gtree).valid_parent e hve h0, ?_, ?_⟩
  · intro g x
    have hm := cnt_mono (seq := seq) (g := g) (x := x) hlh.le
    rw [contrib]
    split
    · rename_i h
      obtain ⟨rfl, rfl⟩ := h
      have h2 := cnt_run (seq := seq) (show lo ≤ r + 1 by omega) (fun i hi1 hi2 => hrun i hi1 (by omega))
      have h3 := cnt_mono (seq := seq) (g := m.gtree) (x := m.parent) (show r + 1 ≤ hi by omega)
      simp only
      omega
    · omega
  · intro a g x hf hE
    rw [contrib]
    split
    · rename_i h
      obtain ⟨rfl, rfl⟩ := h
      have h2 := cnt_run (seq := seq) (show lo ≤ r + 1 by omega) (fun i hi1 hi2 => hrun i hi1 (by omega))
      have h3 : cnt seq m.gtree m.parent hi = cnt seq m.gtree m.parent (r + 1) := by
        refine cnt_none (by omega) ?_
        intro i hi1 hi2 hs
        rcases hmax with h | h
        · omega
        · apply h
          have k1 := (hf.sib H).1 hs
          have k2 := (hf.sib H).1 (hrun r hr1 le_rfl)
          exact (hf.sib H).2 (by omega)
      simp only
      omega
    · rename_i h
      rw [cnt_none hlh.le]
      · omega
      · intro i hi1 hi2 hs
        have k1 := (hf.sib H).1 hs
        obtain ⟨e', he', h0', hp'⟩ := (hf.sib H (j := lo)).2 (by omega)
        rw [he] at he'
        have hg : m.gtree = g := congrArg Sigma.fst (Option.some.inj he')
        subst hg
        have he2 : e = e' := by simpa using he'
        subst he2
        exact h ⟨rfl, hp.trans hp'⟩

section Part
variable {P : Nat} (R : ElementPartition P seq.length) {bs : Int → List (OffTree (Σ g, (T g).E)) → Option Nat}

/-- The message from `p` to a process `q`. -/
def Told (m : Message T) (p q : Nat) : Prop :=
  m.Tells seq (R.off p) (R.off (p + 1)) (fun a b => (p < q → R.off (p + 1) ≤ b) ∧ (q < p → a ≤ R.off p))

theorem fill_spec (H : Linear seq) (hS : ∀ g, (S g).Lawful) (hbs : ∀ key l, Stash.IsBsearch compareElemTree key l (bs key l))
    {F : Forest T} {p q : Nat} (hp : p < P) (hF : Stored seq (R.off p) (R.off (p + 1)) F) (hne : R.Nonempty p) (hpq : p ≠ q) :
    ∃ m, fill S bs R.table F p q = some m ∧ Told R m p q := by
  have hne' : R.off p < R.off (p + 1) := hne
  have hhi : R.off (p + 1) ≤ seq.length := R.off_le (by omega)
  rcases Nat.lt_or_ge p q with hlt | hge
  · obtain ⟨l, base, hl, hat⟩ := indexInTree_spec hbs hF hhi (j := R.off (p + 1) - 1) (by omega) (by omega)
    have hj := hat.seq_j
    have hve := H.valid _ _ _ hj
    rw [fill, if_neg (by omega), show ((p : Int) + 1) = ((p + 1 : Nat) : Int) by omega, R.rd_table (by omega), R.rd_table (by omega)]
    simp only [Option.bind_eq_bind, Option.bind_some]
    rw [show (R.off (p + 1) : Int) - 1 = ((R.off (p + 1) - 1 : Nat) : Int) by omega, hl]
    simp only [Option.bind_some]
    by_cases h0 : (T l.tree.gtree).level l.element = 0
    · rw [if_pos h0]
      refine ⟨_, rfl, tells_root hne'.le hat.gtreeId hve rfl ?_⟩
      intro a g x hf hE
      refine (cnt_none hne'.le ?_).symm
      intro i hi1 hi2 hs
      have k1 := (hf.sib H).1 hs
      have k3 := hE.1 hlt
      obtain ⟨e', he', h0', hp'⟩ := (hf.sib H (j := R.off (p + 1) - 1)).2 (by omega)
      rw [hj] at he'
      have hg : l.tree.gtree = g := congrArg Sigma.fst (Option.some.inj he')
      subst hg
      have he2 : l.element = e' := by simpa using he'
      rw [he2] at h0
      omega
    · rw [if_neg h0, if_pos (by omega)]
      obtain ⟨r, hr, r1, r2, r3, r4⟩ := hat.down H hS hhi (by omega) (by omega)
      rw [hr]
      refine ⟨_, rfl, ?_⟩
      have ht := tells_lower H (m := ⟨q, l.gtreeId, l.tree.gtree, (T l.tree.gtree).parent l.element, l.index - ((r : Int) - base) + 1⟩)
        hne' hat.gtreeId hj (by simp only; omega) rfl r1 r2 r3 r4 (by simp only; rw [hat.index]; omega)
      exact ⟨ht.1, ht.2, ht.3, fun a g x hf hE => ht.4 a g x hf (hE.1 hlt)⟩
  · obtain ⟨l, base, hl, hat⟩ := indexInTree_spec hbs hF hhi (j := R.off p) (by omega) (by omega)
    have hj := hat.seq_j
    have hve := H.valid _ _ _ hj
    rw [fill, if_pos (by omega), R.rd_table (by omega)]
    simp only [Option.bind_eq_bind, Option.bind_some]
    rw [hl]
    simp only [Option.bind_some]
    by_cases h0 : (T l.tree.gtree).level l.element = 0
    · rw [if_pos h0]
      refine ⟨_, rfl, tells_root hne'.le hat.gtreeId hve rfl ?_⟩
      intro a g x hf hE
      refine (cnt_none hne'.le ?_).symm
      intro i hi1 hi2 hs
      have k1 := (hf.sib H).1 hs
      have k3 := hE.2 (by omega)
      obtain ⟨e', he', h0', hp'⟩ := (hf.sib H (j := R.off p)).2 (by omega)
      rw [hj] at he'
      have hg : l.tree.gtree = g := congrArg Sigma.fst (Option.some.inj he')
      subst hg
      have he2 : l.element = e' := by simpa using he'
      rw [he2] at h0
      omega
    · rw [if_neg h0, if_neg (by omega), assertO_true (by omega)]
      obtain ⟨r, hr, r1, r2, r3, r4⟩ := hat.up H hS hhi (by omega) (by omega)
      simp only [Option.bind_some]
      rw [hr]
      refine ⟨_, rfl, ?_⟩
      have ht := tells_upper H (m := ⟨q, l.gtreeId, l.tree.gtree, (T l.tree.gtree).parent l.element, (r : Int) - base - l.index + 1⟩)
        hne' hat.gtreeId hj (by simp only; omega) rfl r1 r2 r3 r4 (by simp only; rw [hat.index]; omega)
      exact ⟨ht.1, ht.2, ht.3, fun a g x hf hE => ht.4 a g x hf (hE.2 (by omega))⟩

/-! ### Sending and receiving -/

theorem foldlM_collect {α : Type} {f : List α → Nat → Option (List α)} {n : Nat} {g : Nat → List α}
    (h : ∀ k, k < n → ∀ l, f l k = some (l ++ g k)) : (List.range n).foldlM f [] = some ((List.range n).flatMap g) := by
  obtain ⟨b, hb, he⟩ := T8.Owner.foldlM_range (f := f) (fun k b => b = (List.range k).flatMap g) (n := n)
    (fun k hk b hI => ⟨_, h k hk b, by rw [hI, List.range_succ, List.flatMap_append]; simp⟩) (b := []) rfl
  rw [hb, he]

/-- Process `p` exchanges messages with `q`. -/
def Partner (p q : Nat) : Prop := p ≠ q ∧ p < P ∧ q < P ∧ R.Nonempty p ∧ R.Nonempty q ∧ R.off p < R.off (q + 1) + 9 ∧ R.off q < R.off (p + 1) + 9

theorem Partner.symm {p q : Nat} (h : Partner R p q) : Partner R q p := by
  obtain ⟨h1, h2, h3, h4, h5, h6, h7⟩ := h
  exact ⟨h1.symm, h3, h2, h5, h4, h7, h6⟩

/-- The processes that a loop visits without skipping them. -/
theorem partner_iff {p : Nat} (hp : p < P) (hne : R.Nonempty p) {b e : Nat} (heP : e ≤ P)
    (hb : ∀ q, q < P → R.Nonempty q → (b ≤ q ↔ R.off p < R.off (q + 1) + 9))
    (he : ∀ q, q < P → R.Nonempty q → (q < e ↔ R.off q < R.off (p + 1) + 9)) {q : Nat} :
    Partner R p q ↔ b ≤ q ∧ q < e ∧ ¬ ((R.off q : Int) ≥ (R.off (q + 1) : Int) ∨ (q : Int) = p) := by
  unfold Partner
  constructor
  · rintro ⟨h1, h2, h3, h4, h5, h6, h7⟩
    have h5' : R.off q < R.off (q + 1) := h5
    exact ⟨(hb q h3 h5).2 h6, (he q h3 h5).2 h7, by omega⟩
  · rintro ⟨h1, h2, h3⟩
    have h5 : R.Nonempty q := show R.off q < R.off (q + 1) by omega
    exact ⟨by omega, hp, by omega, hne, h5, (hb q (by omega) h5).1 h1, (he q (by omega) h5).1 h2⟩

variable {forests : Nat → Forest T}

theorem sends_spec (H : Linear seq) (hS : ∀ g, (S g).Lawful) (hbs : ∀ key l, Stash.IsBsearch compareElemTree key l (bs key l))
    (hF : ∀ p, p < P → Stored seq (R.off p) (R.off (p + 1)) (forests p)) {p : Nat} (hp : p < P) (hne : R.Nonempty p) :
    ∃ sent, sends S bs R.table P forests p = some sent ∧
      (∀ x ∈ sent, ∃ q : Nat, x.1 = q ∧ Partner R p q ∧ fill S bs R.table (forests p) p q = some x.2) ∧
      (∀ q, Partner R p q → ∃ m, ((q : Int), m) ∈ sent) ∧ sent.Pairwise (fun x y => x.1 < y.1) := by
  have hne' : R.off p < R.off (p + 1) := hne
  obtain ⟨b, e, hbe, hbp, hpe, heP, h1, h2, _, _⟩ := relevantRange_spec R hp hne
  have hpart := fun {q : Nat} => partner_iff R hp hne heP h1 h2 (q := q)
  have hstep : ∀ k : Nat, ∃ s : List (Int × Message T),
      (¬ Partner R p (b + k) → s = []) ∧ (Partner R p (b + k) → ∃ m, fill S bs R.table (forests p) p (b + k : Nat) = some m ∧ s = [(((b + k : Nat) : Int), m)]) := by
    intro k
    by_cases hk : Partner R p (b + k)
    · obtain ⟨m, hm, _⟩ := fill_spec R H hS hbs hp (hF p hp) hne hk.1
      exact ⟨_, fun h => absurd hk h, fun _ => ⟨m, hm, rfl⟩⟩
    · exact ⟨[], fun _ => rfl, fun h => absurd h hk⟩
  choose s hs1 hs2 using hstep
  refine ⟨(List.range (e - b)).flatMap s, ?_, ?_, ?_, ?_⟩
  · have hnum : (forests p).localNum ≠ 0 := by
      rw [(hF p hp).num, T8.Partition.slice_length]
      have := R.off_le (p := p + 1) (by omega)
      omega
    rw [sends, if_pos hnum, sendLoop, hbe]
    simp only [Option.bind_eq_bind, Option.bind_some]
    rw [show ((e : Int) - b).toNat = e - b by omega]
    refine foldlM_collect ?_
    intro k hk l
    rw [show (b : Int) + k = ((b + k : Nat) : Int) by omega, show ((b + k : Nat) : Int) + 1 = ((b + k + 1 : Nat) : Int) by omega,
      R.rd_table (by omega), R.rd_table (by omega)]
    simp only [Option.bind_some]
    by_cases hk' : Partner R p (b + k)
    · obtain ⟨m, hm, hs⟩ := hs2 k hk'
      rw [if_neg (hpart.1 hk').2.2, hm, hs]
      rfl
    · rw [if_pos (by
        by_contra hc
        exact hk' (hpart.2 ⟨by omega, by omega, hc⟩)), hs1 k hk', List.append_nil]
      rfl
  · intro x hx
    obtain ⟨k, hk, hx⟩ := List.mem_flatMap.1 hx
    by_cases hk' : Partner R p (b + k)
    · obtain ⟨m, hm, hs⟩ := hs2 k hk'
      rw [hs, List.mem_singleton] at hx
      subst hx
      exact ⟨b + k, rfl, hk', hm⟩
    · rw [hs1 k hk'] at hx
      cases hx
  · intro q hq
    have := hpart.1 hq
    obtain ⟨m, hm, hs⟩ := hs2 (q - b) (by rw [show b + (q - b) = q by omega]; exact hq)
    rw [show b + (q - b) = q by omega] at hs
    exact ⟨m, List.mem_flatMap.2 ⟨q - b, List.mem_range.2 (by omega), by rw [hs]; simp⟩⟩
  · have hmem : ∀ k, ∀ x ∈ s k, x.1 = ((b + k : Nat) : Int) := by
      intro k x hx
      by_cases hk' : Partner R p (b + k)
      · obtain ⟨m, hm, hs⟩ := hs2 k hk'
        rw [hs, List.mem_singleton] at hx
        rw [hx]
      · rw [hs1 k hk'] at hx
        cases hx
    rw [List.pairwise_flatMap]
    refine ⟨?_, ?_⟩
    · intro k _
      by_cases hk' : Partner R p (b + k)
      · obtain ⟨m, hm, hs⟩ := hs2 k hk'
        rw [hs]; simp
      · rw [hs1 k hk']; simp
    · refine (List.pairwise_lt_range (n := e - b)).imp ?_
      intro k k' hkk x hx y hy
      rw [hmem k x hx, hmem k' y hy]
      omega

/-- Every expected message arrives. -/
theorem inbox_spec (H : Linear seq) (hS : ∀ g, (S g).Lawful) (hbs : ∀ key l, Stash.IsBsearch compareElemTree key l (bs key l))
    (hF : ∀ p, p < P → Stored seq (R.off p) (R.off (p + 1)) (forests p)) {p q : Nat} (h : Partner R p q) :
    ∃ m, inbox S bs R.table P forests p q = some m ∧ Told R m q p := by
  have hsym := h.symm
  obtain ⟨sent, hsent, h1, h2, _⟩ := sends_spec R H hS hbs hF hsym.2.1 hsym.2.2.2.1
  obtain ⟨m, hm⟩ := h2 p hsym
  have hfind : ∃ x, sent.find? (fun m => decide (m.1 = (p : Int))) = some x := by
    cases hx : sent.find? (fun m => decide (m.1 = (p : Int))) with
    | some x => exact ⟨x, rfl⟩
    | none => have := List.find?_eq_none.1 hx _ hm; simp at this
  obtain ⟨x, hx⟩ := hfind
  have hxp : x.1 = (p : Int) := by have := List.find?_some hx; simpa using this
  obtain ⟨p', hp', _, hfill⟩ := h1 x (List.mem_of_find?_eq_some hx)
  have : p' = p := by omega
  subst this
  obtain ⟨m', hm', ht⟩ := fill_spec R H hS hbs hsym.2.1 (hF q hsym.2.1) hsym.2.2.2.1 hsym.1
  rw [hfill] at hm'
  cases hm'
  refine ⟨x.2, ?_, ht⟩
  rw [inbox, show ((q : Int)).toNat = q by omega, hsent]
  simp only [Option.bind_eq_bind, Option.bind_some]
  rw [hx]
  rfl

/-- The received messages, in the order of their senders. -/
theorem recv_spec (H : Linear seq) (hS : ∀ g, (S g).Lawful) (hbs : ∀ key l, Stash.IsBsearch compareElemTree key l (bs key l))
    (hF : ∀ p, p < P → Stored seq (R.off p) (R.off (p + 1)) (forests p)) {p : Nat} (hp : p < P) (hne : R.Nonempty p) :
    ∃ (b e : Nat) (s : Nat → List (Message T)), recvLoop R.table P p (inbox S bs R.table P forests p) = some ((List.range (e - b)).flatMap s) ∧
      b ≤ p ∧ p < e ∧ e ≤ P ∧ R.off b + 9 ≤ max 9 (R.off p) ∧ min seq.length (R.off (p + 1) + 9) ≤ R.off e ∧
      ∀ k, b + k < e → (s k = [] ∧ (b + k = p ∨ R.off (b + k + 1) ≤ R.off (b + k))) ∨
        ∃ m, s k = [m] ∧ b + k ≠ p ∧ m.iproc = ((b + k : Nat) : Int) ∧ Told R m (b + k) p := by
  have hne' : R.off p < R.off (p + 1) := hne
  obtain ⟨b, e, hbe, hbp, hpe, heP, h1, h2, h3, h4⟩ := relevantRange_spec R hp hne
  have hpart := fun {q : Nat} => partner_iff R hp hne heP h1 h2 (q := q)
  have hstep : ∀ k : Nat, ∃ s : List (Message T),
      (¬ Partner R p (b + k) → s = []) ∧ (Partner R p (b + k) → ∃ m, inbox S bs R.table P forests p (b + k : Nat) = some m ∧
        s = [{ m with iproc := ((b + k : Nat) : Int) }] ∧ Told R m (b + k) p) := by
    intro k
    by_cases hk : Partner R p (b + k)
    · obtain ⟨m, hm, ht⟩ := inbox_spec R H hS hbs hF hk
      exact ⟨_, fun h => absurd hk h, fun _ => ⟨m, hm, rfl, ht⟩⟩
    · exact ⟨[], fun _ => rfl, fun h => absurd h hk⟩
  choose s hs1 hs2 using hstep
  refine ⟨b, e, s, ?_, hbp, hpe, heP, h3, h4, ?_⟩
  · rw [recvLoop, hbe]
    simp only [Option.bind_eq_bind, Option.bind_some]
    rw [show ((e : Int) - b).toNat = e - b by omega]
    refine foldlM_collect ?_
    intro k hk l
    rw [show (b : Int) + k = ((b + k : Nat) : Int) by omega, show ((b + k : Nat) : Int) + 1 = ((b + k + 1 : Nat) : Int) by omega,
      R.rd_table (by omega), R.rd_table (by omega)]
    simp only [Option.bind_some]
    by_cases hk' : Partner R p (b + k)
    · obtain ⟨m, hm, hs, _⟩ := hs2 k hk'
      rw [if_neg (hpart.1 hk').2.2, hm, hs]
      rfl
    · rw [if_pos (by
        by_contra hc
        exact hk' (hpart.2 ⟨by omega, by omega, hc⟩)), hs1 k hk', List.append_nil]
      rfl
  · intro k hk
    by_cases hk' : Partner R p (b + k)
    · obtain ⟨m, hm, hs, ht⟩ := hs2 k hk'
      exact Or.inr ⟨_, hs, hk'.1.symm, rfl, ht.1, ht.2, ht.3, ht.4⟩
    · refine Or.inl ⟨hs1 k hk', ?_⟩
      by_contra hc
      exact hk' (hpart.2 ⟨by omega, by omega, by omega⟩)

end Part

end T8.Pfc
