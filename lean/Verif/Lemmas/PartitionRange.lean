/-
Lemmas on the ranges of processes that exchange elements, and on the send and receive loops (`Model/Partition.lean`).
-/
import Verif.Model.Partition
import Verif.Spec.Partition
import Verif.Lemmas.CmeshOffset

namespace T8.Spec.ElementPartition
open T8.Offset
variable {P N : Nat} (R : ElementPartition P N)

theorem off_mono {p q : Nat} (hpq : p ≤ q) (hq : q ≤ P) : R.off p ≤ R.off q := by
  induction q with
  | zero => have : p = 0 := by omega
            subst this; exact le_rfl
  | succ q ih =>
    rcases Nat.lt_or_ge p (q + 1) with h | h
    · exact (ih (by omega) (by omega)).trans (R.mono q (by omega))
    · have : p = q + 1 := by omega
      subst this; exact le_rfl

theorem off_le {p : Nat} (hp : p ≤ P) : R.off p ≤ N := by
  exact (R.off_mono hp le_rfl).trans_eq R.top

theorem rd_table {p : Nat} (hp : p ≤ P) : rd R.table (p : Int) = some (R.off p : Int) := by
  have hlt : p < P + 1 := by omega
  rw [rd, if_neg (by omega), Int.toNat_natCast, table, List.getElem?_map, List.getElem?_range hlt]
  rfl

/-- The partition as a partition of trees. -/
def toTree : TreePartition (P : Int) (N : Int) where
  first := fun p => R.off p.toNat
  last := fun p => (R.off (p.toNat + 1) : Int) - 1
  pos := by have := R.pos; omega
  first_zero := by simp [R.zero]
  last_top := by
    have := R.pos
    rw [show ((P : Int) - 1).toNat + 1 = P by omega, R.top]
  nonneg := by intros; omega
  len := by
    intro p h0 h1
    have := R.mono p.toNat (by omega)
    omega
  next := by
    intro p h0 h1
    left
    rw [show (p + 1).toNat = p.toNat + 1 by omega]
    omega

theorem encodes : R.toTree.Encodes R.table := by
  have hns : ∀ p : Int, ¬ R.toTree.SharesFirst p := by
    rintro p ⟨⟨h1, h2, _, h4⟩, q, hq, k1, k2, _, k4⟩
    simp only [toTree] at h4 k4
    have := R.off_mono (p := q.toNat + 1) (q := p.toNat) (by omega) (by omega)
    omega
  refine ⟨by simp [table], ?_, ?_⟩
  · intro p h0 h1
    rw [if_neg (hns p), table, List.getElem?_map, List.getElem?_range (by omega)]
    rfl
  · rw [table, List.getElem?_map, List.getElem?_range (by omega), Int.toNat_natCast, Option.map_some, R.top]

end T8.Spec.ElementPartition

namespace T8.Partition
open T8.Spec T8.Offset ElementPartition

variable {P N : Nat} {A B : ElementPartition P N}

theorem ownerOfElement_spec (R : ElementPartition P N) {s e : Nat} (hs : s < P) (he : e < N) :
    ∃ p : Nat, ownerOfElement P s e R.table = some (p : Int) ∧ p < P ∧ R.off p ≤ e ∧ e < R.off (p + 1) := by
  obtain ⟨p, h1, h2, h3, h4, h5⟩ := anyOwnerExt_spec R.encodes (t := (e : Int)) (s := (s : Int)) (by omega) (by omega)
    (by omega) (by omega)
  simp only [ElementPartition.toTree] at h4 h5
  refine ⟨p.toNat, ?_, by omega, by omega, by omega⟩
  rw [ownerOfElement, h1, Int.toNat_of_nonneg h2]

theorem emptyRank_spec (R : ElementPartition P N) {p : Nat} (hp : p < P) :
    emptyRank R.table p = some (decide (R.off (p + 1) ≤ R.off p)) := by
  rw [emptyRank, R.rd_table (by omega), Option.bind_eq_bind, Option.bind_some,
    show (p : Int) + 1 = ((p + 1 : Nat) : Int) by omega, R.rd_table (by omega)]
  simp only [Option.bind_eq_bind, Option.bind_some]
  congr 1
  rw [decide_eq_decide]
  omega

theorem overlap_iff (A B : ElementPartition P N) (p q : Nat) :
    Overlap A B p q ↔ max (A.off p) (B.off q) < min (A.off (p + 1)) (B.off (q + 1)) := by
  constructor
  · rintro ⟨e, h⟩; omega
  · intro h; exact ⟨max (A.off p) (B.off q), by omega⟩

/-- Range of the processes that share an element with `q`; here process `q` of `B` and processes `a, …, b` of `A`. -/
structure Range (A B : ElementPartition P N) (q a b : Nat) : Prop where
  lt : b < P
  le : a ≤ b
  first : A.off a ≤ B.off q ∧ B.off q < A.off (a + 1)
  last : A.off b < B.off (q + 1) ∧ B.off (q + 1) ≤ A.off (b + 1)

theorem range_of {q a b : Nat} (hq : q < P) (hne : B.Nonempty q) (ha : a < P) (hb : b < P)
    (h1 : A.off a ≤ B.off q ∧ B.off q < A.off (a + 1))
    (h2 : A.off b ≤ B.off (q + 1) - 1 ∧ B.off (q + 1) - 1 < A.off (b + 1)) : Range A B q a b := by
  have hne' : B.off q < B.off (q + 1) := hne
  refine ⟨hb, ?_, h1, by omega⟩
  by_contra hc
  have := A.off_mono (p := b + 1) (q := a) (by omega) (by omega)
  omega

/-- In the range, overlap means that the process is not empty. -/
theorem Range.overlap {q a b p : Nat} (h : Range A B q a b) (h1 : a ≤ p) (h2 : p ≤ b) (hne : A.Nonempty p)
    (hB : B.Nonempty q) : Overlap A B p q := by
  have hne' : A.off p < A.off (p + 1) := hne
  have hB' : B.off q < B.off (q + 1) := hB
  rw [overlap_iff]
  have hl := h.lt
  have hf := h.first
  have hla := h.last
  have e1 : B.off q < A.off (p + 1) := hf.2.trans_le (A.off_mono (by omega) (by omega))
  have e2 : A.off p < B.off (q + 1) := (A.off_mono h2 (by omega)).trans_lt hla.1
  omega

theorem Range.of_overlap {q a b p : Nat} (h : Range A B q a b) (hp : p < P) (ho : Overlap A B p q) :
    a ≤ p ∧ p ≤ b := by
  rw [overlap_iff] at ho
  have hl := h.lt
  have hf := h.first
  have hla := h.last
  constructor
  · by_contra hc
    have := A.off_mono (p := p + 1) (q := a) (by omega) (by have := h.le; omega)
    omega
  · by_contra hc
    have := A.off_mono (p := b + 1) (q := p) (by omega) (by omega)
    omega

theorem Overlap.symm {p q : Nat} (h : Overlap A B p q) : Overlap B A q p := by
  obtain ⟨e, h1, h2, h3, h4⟩ := h
  exact ⟨e, h3, h4, h1, h2⟩

theorem recvRange_spec {q : Nat} (hq : q < P) (hne : B.Nonempty q) :
    ∃ a b : Nat, recvRange P q A.table B.table = some ((a : Int), (b : Int)) ∧ Range A B q a b := by
  have hne' : B.off q < B.off (q + 1) := hne
  have hN := B.off_le (p := q + 1) (by omega)
  obtain ⟨a, a1, a2, a3, a4⟩ := ownerOfElement_spec A hq (e := B.off q) (by omega)
  obtain ⟨b, b1, b2, b3, b4⟩ := ownerOfElement_spec A hq (e := B.off (q + 1) - 1) (by omega)
  refine ⟨a, b, ?_, range_of hq hne a2 b2 ⟨a3, a4⟩ ⟨b3, b4⟩⟩
  rw [recvRange, B.rd_table (by omega), Option.bind_eq_bind, Option.bind_some,
    show (q : Int) + 1 = ((q + 1 : Nat) : Int) by omega, B.rd_table (by omega)]
  simp only [Option.bind_eq_bind, Option.bind_some]
  rw [if_neg (by omega), a1, Option.bind_some,
    show (B.off (q + 1) : Int) - 1 = ((B.off (q + 1) - 1 : Nat) : Int) by omega, b1, Option.bind_some]

theorem sendRange_spec {p : Nat} (hp : p < P) (hne : A.Nonempty p) {n : Int} (hn : n = (A.off (p + 1) : Int) - A.off p) :
    ∃ a b : Nat, sendRange P p n A.table B.table = some ((a : Int), (b : Int)) ∧ Range B A p a b := by
  have hne' : A.off p < A.off (p + 1) := hne
  have hN := A.off_le (p := p + 1) (by omega)
  obtain ⟨a, a1, a2, a3, a4⟩ := ownerOfElement_spec B hp (e := A.off p) (by omega)
  obtain ⟨b, b1, b2, b3, b4⟩ := ownerOfElement_spec B hp (e := A.off (p + 1) - 1) (by omega)
  refine ⟨a, b, ?_, range_of hp hne a2 b2 ⟨a3, a4⟩ ⟨b3, b4⟩⟩
  rw [sendRange, if_neg (by omega), A.rd_table (by omega), Option.bind_eq_bind, Option.bind_some,
    show (p : Int) + 1 = ((p + 1 : Nat) : Int) by omega, A.rd_table (by omega)]
  simp only [Option.bind_eq_bind, Option.bind_some]
  rw [a1, Option.bind_some,
    show (A.off (p + 1) : Int) - 1 = ((A.off (p + 1) - 1 : Nat) : Int) by omega, b1, Option.bind_some]

/-! ### The send loop -/

/-- The local elements `lo, …, hi - 1` of `p` go to `q`. -/
def lo (A B : ElementPartition P N) (p q : Nat) : Nat := max (A.off p) (B.off q) - A.off p
def hi (A B : ElementPartition P N) (p q : Nat) : Nat := min (A.off (p + 1)) (B.off (q + 1)) - A.off p

/-- What a list of posted messages guarantees for the receivers from `q` up to `b`. -/
structure Posted {M : Type} (Carries : M → Nat → Nat → Prop) (A B : ElementPartition P N) (p q b : Nat) (l : List (Int × M)) :
    Prop where
  dest : ∀ d m, (d, m) ∈ l → ∃ r : Nat, d = r ∧ q ≤ r ∧ r ≤ b ∧ Overlap A B p r ∧ Carries m (lo A B p r) (hi A B p r)
  all : ∀ r, q ≤ r → r ≤ b → Overlap A B p r → ∃ m, l.lookup (r : Int) = some m ∧ Carries m (lo A B p r) (hi A B p r)
  sorted : (l.map Prod.fst).Pairwise (· < ·)

theorem sendLoop_spec {M : Type} {Carries : M → Nat → Nat → Prop} {Cur : Int → Nat → Prop}
    {fill : Int → Int → Int → Option (M × Int)} {p a b : Nat} (hp : p < P) (hA : A.Nonempty p) (hr : Range B A p a b)
    (h0 : Cur 0 0)
    (hfill : ∀ ct (x y : Nat), Cur ct x → x < y → y ≤ A.off (p + 1) - A.off p →
      ∃ m ct', fill ct x ((y : Int) - 1) = some (m, ct') ∧ Carries m x y ∧ Cur ct' y) :
    ∀ (left q : Nat) (ct : Int), left = b + 1 - q → a ≤ q → q ≤ b + 1 → (a < q → q ≤ b → Cur ct (lo A B p q)) →
    ∃ l, sendLoop fill ((A.off (p + 1) : Int) - A.off p) (A.off p) B.table a b left q ct = some l ∧
      Posted Carries A B p q b l := by
  have hb := hr.lt
  have hf := hr.first
  have hl := hr.last
  intro left
  induction left with
  | zero =>
    intro q ct hleft haq hqb _
    exact ⟨[], rfl, ⟨by simp, fun r h1 h2 => by omega, by simp⟩⟩
  | succ left ih =>
    intro q ct hleft haq hqb hct
    have hqb' : q ≤ b := by omega
    have hfirst : (if (q : Int) = (a : Int) then some 0 else (rd B.table q).map (· - (A.off p : Int))) =
        some ((lo A B p q : Nat) : Int) := by
      by_cases hqa : q = a
      · rw [if_pos (by omega), lo, hqa, show max (A.off p) (B.off a) - A.off p = 0 by omega]; rfl
      · rw [if_neg (by omega), B.rd_table (by omega), Option.map_some, lo]
        have := B.off_mono (p := a + 1) (q := q) (by omega) (by omega)
        congr 1; omega
    have hlast : (if (q : Int) = (b : Int) then some ((A.off (p + 1) : Int) - A.off p - 1)
        else (rd B.table ((q : Int) + 1)).map (· - 1 - (A.off p : Int))) = some (((hi A B p q : Nat) : Int) - 1) := by
      by_cases hqb2 : q = b
      · rw [if_pos (by omega), hi, hqb2]
        congr 1
        have := A.off_mono (p := p) (q := p + 1) (by omega) (by omega)
        omega
      · rw [if_neg (by omega), show (q : Int) + 1 = ((q + 1 : Nat) : Int) by omega, B.rd_table (by omega), Option.map_some, hi]
        have h1 := B.off_mono (p := q + 1) (q := b) (by omega) (by omega)
        have h2 := B.off_mono (p := a + 1) (q := q + 1) (by omega) (by omega)
        congr 1; omega
    have hnext : (q + 1 ≤ b) → lo A B p (q + 1) = max (lo A B p q) (hi A B p q) := by
      intro hq1
      have h1 := B.off_mono (p := q + 1) (q := b) (by omega) (by omega)
      have h2 := B.off_mono (p := a + 1) (q := q + 1) (by omega) (by omega)
      have h3 := B.off_mono (p := q) (q := q + 1) (by omega) (by omega)
      simp only [lo, hi]
      omega
    have hov : Overlap A B p q ↔ lo A B p q < hi A B p q := by
      rw [overlap_iff, lo, hi]
      have := A.off_mono (p := p) (q := p + 1) (by omega) (by omega)
      omega
    have hcur : Cur (if (q : Int) = (a : Int) then 0 else ct) (lo A B p q) := by
      by_cases hqa : q = a
      · rw [if_pos (by omega), lo, hqa, show max (A.off p) (B.off a) - A.off p = 0 by omega]; exact h0
      · rw [if_neg (by omega)]; exact hct (by omega) hqb'
    rw [sendLoop, hfirst, hlast]
    simp only [Option.bind_eq_bind, Option.bind_some]
    by_cases ho : lo A B p q < hi A B p q
    · rw [if_pos (by omega)]
      obtain ⟨m, ct', e1, e2, e3⟩ := hfill _ (lo A B p q) (hi A B p q) hcur ho (by simp only [hi]; omega)
      rw [e1, Option.bind_some]
      dsimp only
      obtain ⟨l, f1, f2⟩ := ih (q + 1) ct' (by omega) (by omega) (by omega) (fun _ hq1 => by
        rw [hnext hq1, Nat.max_eq_right ho.le]; exact e3)
      rw [show (q : Int) + 1 = ((q + 1 : Nat) : Int) by omega, f1]
      refine ⟨(q, m) :: l, rfl, ⟨?_, ?_, ?_⟩⟩
      · intro d m' hm
        rcases List.mem_cons.1 hm with h | h
        · obtain ⟨rfl, rfl⟩ := Prod.mk.inj h
          exact ⟨q, rfl, le_rfl, hqb', hov.2 ho, e2⟩
        · obtain ⟨r, g1, g2, g3, g4⟩ := f2.dest d m' h
          exact ⟨r, g1, by omega, g3, g4⟩
      · intro r h1 h2 h3
        rcases Nat.eq_or_lt_of_le h1 with rfl | h1
        · exact ⟨m, by simp, e2⟩
        · obtain ⟨m', g1, g2⟩ := f2.all r (by omega) h2 h3
          refine ⟨m', ?_, g2⟩
          rw [List.lookup_cons, show ((r : Int) == (q : Int)) = false by simp; omega]
          exact g1
      · rw [List.map_cons, List.pairwise_cons]
        refine ⟨?_, f2.sorted⟩
        intro d hd
        obtain ⟨⟨d', m'⟩, h1, rfl⟩ := List.mem_map.1 hd
        obtain ⟨r, g1, g2, _⟩ := f2.dest d' m' h1
        dsimp only
        omega
    · rw [if_neg (by omega)]
      obtain ⟨l, f1, f2⟩ := ih (q + 1) (if (q : Int) = (a : Int) then 0 else ct) (by omega) (by omega) (by omega) (fun _ hq1 => by
        rw [hnext hq1, Nat.max_eq_left (by omega)]; exact hcur)
      rw [show (q : Int) + 1 = ((q + 1 : Nat) : Int) by omega, f1]
      refine ⟨l, rfl, ⟨?_, ?_, f2.sorted⟩⟩
      · intro d m' hm
        obtain ⟨r, g1, g2, g3, g4⟩ := f2.dest d m' hm
        exact ⟨r, g1, by omega, g3, g4⟩
      · intro r h1 h2 h3
        rcases Nat.eq_or_lt_of_le h1 with rfl | h1
        · exact absurd (hov.1 h3) ho
        · exact f2.all r (by omega) h2 h3

/-- What a process posts. -/
theorem sends_spec {M : Type} {Carries : M → Nat → Nat → Prop} {Cur : Int → Nat → Prop}
    {fill : Int → Int → Int → Option (M × Int)} {p : Nat} (hp : p < P) {n : Int} (hn : n = (A.off (p + 1) : Int) - A.off p)
    (h0 : Cur 0 0)
    (hfill : ∀ ct (x y : Nat), Cur ct x → x < y → y ≤ A.off (p + 1) - A.off p →
      ∃ m ct', fill ct x ((y : Int) - 1) = some (m, ct') ∧ Carries m x y ∧ Cur ct' y) :
    ∃ l, sends fill P p n A.table B.table = some l ∧
      (∀ d m, (d, m) ∈ l → ∃ q : Nat, d = q ∧ q < P ∧ Overlap A B p q ∧ Carries m (lo A B p q) (hi A B p q)) ∧
      (∀ q, q < P → Overlap A B p q → ∃ m, l.lookup (q : Int) = some m ∧ Carries m (lo A B p q) (hi A B p q)) ∧
      (l.map Prod.fst).Pairwise (· < ·) := by
  have hm := A.mono p hp
  have hrd : rd A.table (p : Int) = some (A.off p : Int) := A.rd_table (by omega)
  by_cases hA : A.Nonempty p
  · obtain ⟨a, b, h1, h2⟩ := sendRange_spec (B := B) hp hA hn
    have hle := h2.le
    have hlt := h2.lt
    obtain ⟨l, l1, l2⟩ := sendLoop_spec hp hA h2 h0 hfill (b + 1 - a) a 0 rfl le_rfl (by omega) (by omega)
    refine ⟨l, ?_, ?_, ?_, l2.sorted⟩
    · rw [sends, h1]
      simp only [Option.bind_eq_bind, Option.bind_some]
      rw [show assertO (0 ≤ (b : Int) - a + 1) = some () from assertO_true (by omega), Option.bind_some, hrd, Option.bind_some, hn,
        show ((b : Int) - a + 1).toNat = b + 1 - a by omega, l1]
    · intro d m hdm
      obtain ⟨r, g1, g2, g3, g4, g5⟩ := l2.dest d m hdm
      exact ⟨r, g1, by omega, g4, g5⟩
    · intro q hq ho
      obtain ⟨h3, h4⟩ := h2.of_overlap hq (Overlap.symm ho)
      exact l2.all q h3 h4 ho
  · have hA' : A.off (p + 1) = A.off p := by
      have : ¬ A.off p < A.off (p + 1) := hA
      omega
    refine ⟨[], ?_, by simp, ?_, by simp⟩
    · rw [sends, sendRange, if_pos (by omega)]
      simp only [Option.bind_eq_bind, Option.bind_some]
      rw [show assertO (0 ≤ (-1 : Int) - 0 + 1) = some () from assertO_true (by omega), Option.bind_some, hrd, Option.bind_some]
      rfl
    · intro q hq ho
      rw [overlap_iff] at ho
      omega

/-! ### The receive loop -/

/-- Receiving: `Have n r k` says that after `n` messages the state `r` holds the elements from `B.off q` up to before `k`. -/
theorem recvLoop_spec {M R : Type} {recv : Nat → M → R → Option R} {inbox : Int → Option M} {Have : Nat → R → Nat → Prop}
    {q a b : Nat} (hB : B.Nonempty q) (hr : Range A B q a b)
    (hin : ∀ p, p < P → Overlap A B p q → ∃ m, inbox p = some m ∧ ∀ n r,
      Have n r (max (A.off p) (B.off q)) → ∃ r', recv n m r = some r' ∧ Have (n + 1) r' (min (A.off (p + 1)) (B.off (q + 1)))) :
    ∀ (left p n : Nat) (r : R), left = b + 1 - p → a ≤ p → p ≤ b + 1 →
      Have n r (min (max (A.off p) (B.off q)) (B.off (q + 1))) →
    ∃ r' n', recvLoop recv inbox A.table left p n r = some r' ∧ Have n' r' (B.off (q + 1)) := by
  have hlt := hr.lt
  have hf := hr.first
  have hl := hr.last
  intro left
  induction left with
  | zero =>
    intro p n r hleft h1 h2 hh
    have : p = b + 1 := by omega
    subst this
    refine ⟨r, n, rfl, ?_⟩
    rw [Nat.min_eq_right (by omega)] at hh
    exact hh
  | succ left ih =>
    intro p n r hleft h1 h2 hh
    have hpb : p ≤ b := by omega
    rw [recvLoop, emptyRank_spec A (by omega)]
    simp only [Option.bind_eq_bind, Option.bind_some]
    have e1 := A.off_mono (p := p) (q := b) hpb (by omega)
    have e2 := A.off_mono (p := a + 1) (q := p + 1) (by omega) (by omega)
    have e3 := A.mono p (by omega)
    by_cases hne : A.off (p + 1) ≤ A.off p
    · rw [decide_eq_true hne, if_pos rfl, show (p : Int) + 1 = ((p + 1 : Nat) : Int) by omega]
      refine ih (p + 1) n r (by omega) (by omega) (by omega) ?_
      rw [show A.off (p + 1) = A.off p by omega]; exact hh
    · rw [decide_eq_false hne, if_neg (by simp)]
      have ho := hr.overlap h1 hpb (show A.off p < A.off (p + 1) by omega) hB
      obtain ⟨m, g1, g2⟩ := hin p (by omega) ho
      rw [g1, Option.bind_some]
      have hB' : B.off q < B.off (q + 1) := hB
      obtain ⟨r', g3, g4⟩ := g2 n r (by rw [Nat.min_eq_left (by omega)] at hh; exact hh)
      rw [g3, Option.bind_some, show (p : Int) + 1 = ((p + 1 : Nat) : Int) by omega]
      refine ih (p + 1) (n + 1) r' (by omega) (by omega) (by omega) ?_
      rw [Nat.max_eq_left (by omega)]
      exact g4

/-- The processes from which messages are expected. -/
theorem expects_spec {q a b : Nat} (hr : Range A B q a b) :
    ∀ (left p : Nat), left = b + 1 - p → a ≤ p → p ≤ b + 1 →
    ∃ l, expects A.table left p = some l ∧ (l.Pairwise (· < ·)) ∧
      ∀ d : Int, d ∈ l ↔ ∃ r : Nat, d = r ∧ p ≤ r ∧ r ≤ b ∧ A.Nonempty r := by
  have hlt := hr.lt
  intro left
  induction left with
  | zero =>
    intro p hleft h1 h2
    refine ⟨[], rfl, by simp, fun d => ⟨by simp, ?_⟩⟩
    rintro ⟨r, _, h3, h4, _⟩
    omega
  | succ left ih =>
    intro p hleft h1 h2
    obtain ⟨l, l1, l2, l3⟩ := ih (p + 1) (by omega) (by omega) (by omega)
    rw [expects, emptyRank_spec A (by omega)]
    simp only [Option.bind_eq_bind, Option.bind_some]
    rw [show (p : Int) + 1 = ((p + 1 : Nat) : Int) by omega, l1, Option.bind_some]
    refine ⟨_, rfl, ?_, ?_⟩
    · split
      · exact l2
      · rw [List.pairwise_cons]
        refine ⟨fun d hd => ?_, l2⟩
        obtain ⟨r, h3, h4, _⟩ := (l3 d).1 hd
        omega
    · intro d
      by_cases hne : A.off (p + 1) ≤ A.off p
      · rw [decide_eq_true hne, if_pos rfl, l3]
        constructor
        · rintro ⟨r, g1, g2, g3, g4⟩; exact ⟨r, g1, by omega, g3, g4⟩
        · rintro ⟨r, g1, g2, g3, g4⟩
          have g4' : A.off r < A.off (r + 1) := g4
          refine ⟨r, g1, ?_, g3, g4⟩
          rcases Nat.eq_or_lt_of_le g2 with rfl | h
          · omega
          · omega
      · rw [decide_eq_false hne, if_neg (by simp), List.mem_cons, l3]
        constructor
        · rintro (rfl | ⟨r, g1, g2, g3, g4⟩)
          · exact ⟨p, rfl, le_rfl, by omega, by show A.off p < _; omega⟩
          · exact ⟨r, g1, by omega, g3, g4⟩
        · rintro ⟨r, g1, g2, g3, g4⟩
          rcases Nat.eq_or_lt_of_le g2 with rfl | h
          · exact Or.inl g1
          · exact Or.inr ⟨r, g1, by omega, g3, g4⟩

end T8.Partition
