/-
C28, C29, C30: the offset table of a partitioned coarse mesh, the owner queries on it, and the decision
who sends which tree to whom when the coarse mesh is repartitioned.

`none` is a failed assertion, an out-of-bounds access or nontermination; every statement `f .. = some r`
below therefore also says that none of these happens.
-/
import Verif.Lemmas.CmeshOffset

namespace T8.Offset
open T8.Spec
variable {P K : Int} {R F T : TreePartition P K} {off offF offT : List Int}

/-! ### C28: the table answers the tree range queries of the distribution it encodes -/

/-- C28. For every distribution of trees over ranks, the offset array in the documented encoding is
decoded by the queries to exactly the ranges of that distribution. -/
theorem C28_decode (h : R.Encodes off) (p : Int) (h0 : 0 ≤ p) (h1 : p < P) :
    first p off = some (R.first p) ∧
    last p off = some (R.last p) ∧
    numTrees p off = some (R.last p - R.first p + 1) ∧
    (∃ b, empty p off = some b ∧ (b = true ↔ R.Empty p)) ∧
    (∀ t, ∃ b, inRange t p off = some b ∧ (b = true ↔ R.Owns p t)) ∧
    (∃ e, rd off p = some e ∧ (e < 0 ↔ R.SharesFirst p)) := by
  refine ⟨first_eq h h0 h1, last_eq h h0 h1, ?_, ⟨_, empty_eq h h0 h1, ?_⟩,
    fun t => ⟨_, inRange_eq h t h0 h1, ?_⟩, ?_⟩
  · rw [numTrees_eq h h0 h1]; congr 1; omega
  · rw [R.empty_iff h0 h1]; simp
  · simp [TreePartition.Owns, h0, h1]
  · obtain ⟨e, he, h2, _⟩ := rd_sign h h0 h1
    exact ⟨e, he, h2⟩

open Classical in
/-- C28. Writing the entries with `t8_offset_first_tree_to_entry`, and the number of trees as the last
entry, produces a table that encodes the distribution. -/
theorem C28_encode (hlen : (off.length : Int) = P + 1)
    (hent : ∀ p, 0 ≤ p → p < P →
      off[p.toNat]? = some (firstTreeToEntry (R.first p) (decide (R.SharesFirst p))))
    (htop : off[P.toNat]? = some K) : R.Encodes off := by
  refine ⟨hlen, fun p h0 h1 => ?_, htop⟩
  rw [hent p h0 h1]
  by_cases hs : R.SharesFirst p <;> simp [firstTreeToEntry, hs]

/-- C28. The consistency check accepts an array of the right length exactly when it is the encoding of
some distribution of the trees. -/
theorem C28_consistent_iff (hP : 0 < P) (hK : 0 ≤ K) (hlen : (off.length : Int) = P + 1) :
    consistent P off K = some true ↔ ∃ R : TreePartition P K, R.Encodes off :=
  ⟨encodes_of_consistent hP hK hlen, fun ⟨_, h⟩ => consistent_of_encodes h⟩

/-- C28. The encoding determines the distribution: two distributions with the same table have the same
tree ranges on every rank. -/
theorem C28_injective (h : F.Encodes off) (h' : T.Encodes off) (p : Int) (h0 : 0 ≤ p) (h1 : p < P) :
    F.first p = T.first p ∧ F.last p = T.last p := by
  have a := (first_eq h h0 h1).symm.trans (first_eq h' h0 h1)
  have b := (last_eq h h0 h1).symm.trans (last_eq h' h0 h1)
  simp only [Option.some.injEq] at a b
  exact ⟨a, b⟩

/-- C28. `t8_offset_next_nonempty_rank` returns the smallest larger rank that holds a tree, or the number
of ranks. -/
theorem C28_next_nonempty (h : R.Encodes off) (p : Int) (h0 : -1 ≤ p) (h1 : p < P) :
    ∃ q, nextNonemptyRank p P off = some q ∧ p < q ∧ q ≤ P ∧ (q < P → ¬ R.Empty q) ∧
      ∀ x, p < x → x < q → R.Empty x := by
  obtain ⟨r, hr, h2, h3, h4, h5⟩ := scanUp h (q := p + 1) (by omega) (by omega)
  refine ⟨r, hr, by omega, h3, fun hrP => ?_, fun x hx hx' => ?_⟩
  · rw [R.empty_iff (by omega) hrP]
    have := h5 hrP; omega
  · rw [R.empty_iff (by omega) (by omega)]
    exact h4 x (by omega) hx'

/-! ### C29: owner queries -/

/-- C29. For every tree, `any_owner`, `first_owner`, `last_owner` and `all_owners` terminate and return an
owner, the smallest owner, the largest owner and the increasing list of all owners.  The search for any
owner may start at any rank, and the first/last search at any known owner or at `-1`. -/
theorem C29_owner_queries (h : R.Encodes off) (t : Int) (ht0 : 0 ≤ t) (htK : t < K) :
    (∀ start, 0 ≤ start → start < P → ∃ p, anyOwnerExt P start t off = some p ∧ R.Owns p t) ∧
    (∃ p, anyOwner P t off = some p ∧ R.Owns p t) ∧
    (∀ s, (s < 0 ∨ R.Owns s t) →
      ∃ p, firstOwner P t off s = some p ∧ R.Owns p t ∧ ∀ q, R.Owns q t → p ≤ q) ∧
    (∀ s, (s < 0 ∨ R.Owns s t) →
      ∃ p, lastOwner P t off s = some p ∧ R.Owns p t ∧ ∀ q, R.Owns q t → q ≤ p) ∧
    (∃ l, allOwners P t off = some l ∧ l.Pairwise (· < ·) ∧ ∀ q, q ∈ l ↔ R.Owns q t) :=
  ⟨fun _ h0 h1 => anyOwnerExt_spec h ht0 htK h0 h1, anyOwner_spec h ht0 htK,
    fun _ hs => firstOwner_spec h ht0 htK hs, fun _ hs => lastOwner_spec h ht0 htK hs,
    allOwners_spec h ht0 htK⟩

/-- C29. The next/previous owner of a tree after an owner `p`: `-1` if there is none, otherwise the
closest one. -/
theorem C29_next_prev (h : R.Encodes off) (p t : Int) (ho : R.Owns p t) :
    (∃ q, nextOwner P t off p = some q ∧
      ((q = -1 ∧ ∀ x, R.Owns x t → x ≤ p) ∨
       (p < q ∧ R.Owns q t ∧ ∀ x, R.Owns x t → p < x → q ≤ x))) ∧
    (∃ q, prevOwner P t off p = some q ∧
      ((q = -1 ∧ ∀ x, R.Owns x t → p ≤ x) ∨
       (q < p ∧ R.Owns q t ∧ ∀ x, R.Owns x t → x < p → x ≤ q))) :=
  ⟨nextOwner_spec h ho, prevOwner_spec h ho⟩

/-! ### C30: every tree of the new partition is delivered exactly once -/

/-- C30. Going from any distribution `F` to any distribution `T` of the same trees, every tree that rank
`r` is to hold has exactly one rank that sends it to `r`; that rank holds the tree before. (A rank
"sends to itself" what it keeps.) -/
theorem C30_delivered_exactly_once (h : F.Encodes offF) (h' : T.Encodes offT) (r t : Int)
    (hT : T.Owns r t) :
    ∃ s, (0 ≤ s ∧ s < P ∧ sendstree s r t offF offT = some true ∧ F.Owns s t) ∧
      ∀ s', 0 ≤ s' → s' < P → sendstree s' r t offF offT = some true → s' = s := by
  obtain ⟨s, hs, hu⟩ := sends_unique (F := F) hT
  obtain ⟨b, hb, hb2⟩ := sendstree_eq h h' t hs.1.1 hs.1.2.1 hT.1 hT.2.1
  refine ⟨s, ⟨hs.1.1, hs.1.2.1, by rw [hb, hb2.2 hs], hs.1⟩, ?_⟩
  intro s' h0 h1 hs'
  obtain ⟨b', hb', hb2'⟩ := sendstree_eq h h' t h0 h1 hT.1 hT.2.1
  rw [hb'] at hs'
  exact hu s' (hb2'.1 (by simpa using hs'))

/-- C30. Nothing else is sent: a tree is only sent by a rank that holds it to a rank that is to hold it.
The decision is defined for all ranks and trees. -/
theorem C30_nothing_else (h : F.Encodes offF) (h' : T.Encodes offT) (s r t : Int) (s0 : 0 ≤ s) (s1 : s < P)
    (r0 : 0 ≤ r) (r1 : r < P) :
    ∃ b, sendstree s r t offF offT = some b ∧ (b = true → F.Owns s t ∧ T.Owns r t) := by
  obtain ⟨b, hb, hb2⟩ := sendstree_eq h h' t s0 s1 r0 r1
  exact ⟨b, hb, fun hh => ⟨(hb2.1 hh).1, (hb2.1 hh).2.1⟩⟩

/-- C30. The three summaries used to set up the communication agree with the per-tree decision: whether
`s` sends anything to `r`, whether `s` sends nothing at all, and how many ranks of an interval send to
`r`. -/
theorem C30_summaries_agree (h : F.Encodes offF) (h' : T.Encodes offT) :
    (∀ s r, 0 ≤ s → s < P → 0 ≤ r → r < P → ∃ b, sendsto s r offF offT = some b ∧
      (b = true ↔ ∃ t, sendstree s r t offF offT = some true)) ∧
    (∀ s, 0 ≤ s → s < P → ∃ b, nosend s P offF offT = some b ∧
      (b = true ↔ ∀ r t, 0 ≤ r → r < P → sendstree s r t offF offT ≠ some true)) ∧
    (∀ lo hi r, 0 ≤ lo → lo ≤ hi + 1 → hi < P → 0 ≤ r → r < P →
      ∃ n, rangeSend lo hi r offF offT = some n ∧ ∃ l : List Int, l.Nodup ∧ (l.length : Int) = n ∧
        ∀ s, s ∈ l ↔ lo ≤ s ∧ s ≤ hi ∧ sendsto s r offF offT = some true) := by
  have key : ∀ s r t, 0 ≤ s → s < P → 0 ≤ r → r < P →
      (sendstree s r t offF offT = some true ↔ Sends F T s r t) := by
    intro s r t s0 s1 r0 r1
    obtain ⟨b, hb, hb2⟩ := sendstree_eq h h' t s0 s1 r0 r1
    rw [hb, ← hb2]; simp
  refine ⟨fun s r s0 s1 r0 r1 => ?_, fun s s0 s1 => ?_, fun lo hi r lo0 hle hi1 r0 r1 => ?_⟩
  · obtain ⟨b, hb, hb2⟩ := sendsto_eq h h' s0 s1 r0 r1
    exact ⟨b, hb, hb2.trans (exists_congr fun t => (key s r t s0 s1 r0 r1).symm)⟩
  · obtain ⟨b, hb, hb2⟩ := nosend_eq h h' s0 s1
    refine ⟨b, hb, hb2.trans ⟨fun hh r t r0 r1 hs => hh r t ((key s r t s0 s1 r0 r1).1 hs), ?_⟩⟩
    intro hh r t hs
    exact hh r t hs.2.1.1 hs.2.1.2.1 ((key s r t s0 s1 hs.2.1.1 hs.2.1.2.1).2 hs)
  · obtain ⟨n, hn, l, hl, hl2, hl3⟩ := rangeSend_eq h h' r0 r1 lo0 hi1 hle
    refine ⟨n, hn, l, hl, hl2, fun s => ?_⟩
    rw [hl3]
    refine and_congr_right fun h1 => and_congr_right fun h2 => ?_
    obtain ⟨b, hb, hb2⟩ := sendsto_eq h h' (a := s) (b := r) (by omega) (by omega) r0 r1
    rw [hb, ← hb2]; simp

/-! ### A concrete case meeting the hypotheses

Four ranks and three trees: rank 0 holds trees 0 and 1, rank 1 is empty, rank 2 holds only a part of tree 1
(shared with rank 0), rank 3 shares tree 1 as well and holds tree 2. -/

/-- The example distribution. -/
def exPartition : TreePartition 4 3 where
  first p := if p = 0 then 0 else if p = 1 then 2 else 1
  last p := if p = 3 then 2 else 1
  pos := by decide
  first_zero := by decide
  last_top := by decide
  nonneg p h0 h1 := by split_ifs <;> omega
  len p h0 h1 := by split_ifs <;> omega
  next p h0 h1 := by split_ifs <;> omega

/-- A second distribution of the same trees: everything on the last rank but tree 0. -/
def exPartition' : TreePartition 4 3 where
  first p := if p = 0 then 0 else 1
  last p := if p = 3 then 2 else 0
  pos := by decide
  first_zero := by decide
  last_top := by decide
  nonneg p h0 h1 := by split_ifs <;> omega
  len p h0 h1 := by split_ifs <;> omega
  next p h0 h1 := by split_ifs <;> omega

theorem exPartition_encodes : exPartition.Encodes [0, 2, -2, -2, 3] := by
  refine ⟨by decide, fun p h0 h1 => ?_, by decide⟩
  simp only [exPartition.sharesFirst_iff h0 h1]
  obtain rfl | rfl | rfl | rfl : p = 0 ∨ p = 1 ∨ p = 2 ∨ p = 3 := by omega
  all_goals simp [exPartition]

theorem exPartition'_encodes : exPartition'.Encodes [0, 1, 1, 1, 3] := by
  refine ⟨by decide, fun p h0 h1 => ?_, by decide⟩
  simp only [exPartition'.sharesFirst_iff h0 h1]
  obtain rfl | rfl | rfl | rfl : p = 0 ∨ p = 1 ∨ p = 2 ∨ p = 3 := by omega
  all_goals simp [exPartition']

example : first 2 [0, 2, -2, -2, 3] = some 1 := (C28_decode exPartition_encodes 2 (by decide) (by decide)).1

example : ∃ l, allOwners 4 1 [0, 2, -2, -2, 3] = some l ∧ l.Pairwise (· < ·) ∧
    ∀ q, q ∈ l ↔ exPartition.Owns q 1 :=
  (C29_owner_queries exPartition_encodes 1 (by decide) (by decide)).2.2.2.2

example : exPartition.Owns 0 1 ∧ exPartition.Owns 2 1 ∧ exPartition.Owns 3 1 ∧ ¬ exPartition.Owns 1 1 := by
  simp [TreePartition.Owns, exPartition]

example : ∃ s, (0 ≤ s ∧ s < 4 ∧ sendstree s 3 1 [0, 2, -2, -2, 3] [0, 1, 1, 1, 3] = some true ∧
      exPartition.Owns s 1) ∧
    ∀ s', 0 ≤ s' → s' < 4 → sendstree s' 3 1 [0, 2, -2, -2, 3] [0, 1, 1, 1, 3] = some true → s' = s :=
  C30_delivered_exactly_once exPartition_encodes exPartition'_encodes 3 1
    (by simp [TreePartition.Owns, exPartition'])

example : consistent 4 [0, 2, -2, -2, 3] 3 = some true :=
  (C28_consistent_iff (by decide) (by decide) (by decide)).2 ⟨_, exPartition_encodes⟩

end T8.Offset
