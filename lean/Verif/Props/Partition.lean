/-
C23, C24, C25: repartition.
-/
import Verif.Lemmas.PartitionForest

namespace T8.Partition
open T8.Spec T8.Offset ElementPartition

variable {P N : Nat} {A B : ElementPartition P N} {size : Nat → Nat} {forests : Int → Forest}

/-- The distribution `A` describes where the leaves of the forests are. -/
structure Distributed (size : Nat → Nat) (forests : Int → Forest) (A : ElementPartition P N) : Prop where
  wf : ∀ p : Nat, p < P → WF size (forests p)
  count : ∀ p : Nat, p < P → (forests p).localNum = (A.off (p + 1) : Int) - A.off p
  linear : Linear (globalSeq P forests)

theorem Distributed.len (h : Distributed size forests A) {p : Nat} (hp : p < P) :
    A.off (p + 1) = A.off p + (forests p).seq.length := by
  have h1 := h.count p hp
  have h2 := (h.wf p hp).num
  have h3 := A.mono p hp
  omega

/-- What `p` posts. -/
theorem posted (h : Distributed size forests A) (B : ElementPartition P N) {p : Nat} (hp : p < P) :
    ∃ l, sends (fillBuffer size (forests p)) P p (forests p).localNum A.table B.table = some l ∧
      (∀ d m, (d, m) ∈ l → ∃ q : Nat, d = q ∧ q < P ∧ Overlap A B p q) ∧
      (∀ q, q < P → Overlap A B p q → ∃ m, l.lookup (q : Int) = some m ∧
        ∃ g ts, IsMsg size m g ts ∧ treesSeq g ts =
          slice (globalSeq P forests) (max (A.off p) (B.off q)) (min (A.off (p + 1)) (B.off (q + 1)))) ∧
      (l.map Prod.fst).Pairwise (· < ·) := by
  have hwf := h.wf p hp
  have hlen := h.len hp
  have htot : (forests p).seq.length = total (forests p).trees := treesSeq_length _ _
  obtain ⟨l, l1, l2, l3, l4⟩ := sends_spec (A := A) (B := B) (Cur := Cur (forests p))
    (Carries := fun m x y => ∃ g ts, IsMsg size m g ts ∧ treesSeq g ts = slice (forests p).seq x y)
    (fill := fillBuffer size (forests p)) hp (h.count p hp)
    (by
      refine ⟨0, rfl, by omega, by simp [offs, total], ?_⟩
      rcases Nat.eq_zero_or_pos (forests p).trees.length with h0 | h0
      · right
        rw [List.length_eq_zero_iff.1 h0]; rfl
      · obtain ⟨t, _, _, h1, h2, _⟩ := hwf.getElem h0
        left; omega)
    (fun ct x y hc hxy hy => fillBuffer_spec hwf hc hxy (by omega))
  refine ⟨l, l1, ?_, ?_, l4⟩
  · intro d m hm
    obtain ⟨q, q1, q2, q3, _⟩ := l2 d m hm
    exact ⟨q, q1, q2, q3⟩
  · intro q hq ho
    obtain ⟨m, m1, g, ts, m2, m3⟩ := l3 q hq ho
    refine ⟨m, m1, g, ts, m2, ?_⟩
    rw [m3]
    rw [overlap_iff] at ho
    have hs := cat_slice (s := fun p : Nat => (forests p).seq) (off := A.off) A.zero (fun p hp => h.len hp) (p := p)
      (x := lo A B p q) (y := hi A B p q) hp (by simp only [hi]; omega)
    rw [← hs, globalSeq]
    simp only [lo, hi]
    congr 1 <;> omega

/-- **C23.** After the repartition, process `q` has exactly the leaves of its new range, in order and with their trees; and its
local part is consistent again. -/
theorem C23_partition (h : Distributed size forests A) (B : ElementPartition P N) {q : Nat} (hq : q < P) :
    ∃ f, partitionGiven size P forests A.table B.table q = some f ∧ WF size f ∧
      f.seq = slice (globalSeq P forests) (B.off q) (B.off (q + 1)) := by
  have hempty : WF size ⟨0, -1, [], 0⟩ := ⟨rfl, rfl, by simp, by simp, by simp⟩
  obtain ⟨l, l1, -⟩ := posted h B hq
  rw [partitionGiven]
  dsimp only
  rw [l1]
  simp only [Option.bind_eq_bind, Option.bind_some]
  rw [B.rd_table (by omega), Option.bind_some, show (q : Int) + 1 = ((q + 1 : Nat) : Int) by omega, B.rd_table (by omega),
    Option.bind_some]
  by_cases hne : B.off q < B.off (q + 1)
  · rw [if_pos (by omega)]
    obtain ⟨a, b, r1, r2⟩ := recvRange_spec (A := A) hq hne
    have hle := r2.le
    have hlt := r2.lt
    rw [r1, Option.bind_some]
    dsimp only
    rw [show ((b : Int) - a + 1).toNat = b + 1 - a by omega]
    have hGlen : (globalSeq P forests).length = N := by
      rw [← A.top]
      exact cat_length (s := fun p : Nat => (forests p).seq) (off := A.off) A.zero (fun p hp => h.len hp) P le_rfl
    have hfirst := r2.first
    have hloop := recvLoop_spec (A := A) (B := B) (recv := recvMessage size)
      (inbox := inboxOf (fun p => sends (fillBuffer size (forests p)) P p (forests p).localNum A.table B.table) q)
      (Have := fun n f k => (n = 0 ∧ k = B.off q ∧ f = ⟨0, -1, [], 0⟩) ∨
        (0 < n ∧ WF size f ∧ f.trees ≠ [] ∧ B.off q < k ∧ f.seq = slice (globalSeq P forests) (B.off q) k))
      hne r2 ?_ (b + 1 - a) a 0 ⟨0, -1, [], 0⟩ rfl le_rfl (by omega) (Or.inl ⟨rfl, by omega, rfl⟩)
    · obtain ⟨f, n, f1, f2⟩ := hloop
      rcases f2 with ⟨_, f3, _⟩ | ⟨_, f3, _, _, f5⟩
      · omega
      · exact ⟨f, f1, f3, f5⟩
    · intro p hp ho
      obtain ⟨lp, p1, -, p3, -⟩ := posted h B hp
      obtain ⟨m, m1, g, ts, m2, m3⟩ := p3 q hq ho
      refine ⟨m, ?_, ?_⟩
      · rw [inboxOf, p1]
        exact m1
      · intro n f hf
        obtain ⟨u, us, hu⟩ := List.exists_cons_of_ne_nil m2.ne
        have hinfo : m.infos[0]? = some ⟨g, u.eclass, u.leaves.length⟩ := by rw [m2.infos, hu]; rfl
        rw [overlap_iff] at ho
        have hBN := B.off_le (p := q + 1) (by omega)
        rcases hf with ⟨rfl, hk, rfl⟩ | ⟨hn, f1, f2, f3, f4⟩
        · have hwf : WF size ⟨g, g - 1, [], 0⟩ := ⟨by show g - 1 = g + ((0 : Nat) : Int) - 1; omega, rfl, by simp, by simp, by simp⟩
          obtain ⟨f', g1, g2, g3, g4, g5⟩ := recvTrees_spec m2 hwf (Or.inl (by show g = g - 1 + 1; omega))
          have g4' : f'.seq = treesSeq g ts := g4
          refine ⟨f', ?_, Or.inr ⟨by omega, g2, ?_, by omega, ?_⟩⟩
          · rw [recvMessage, hinfo]
            simp only [Option.bind_eq_bind, Option.bind_some]
            rw [if_pos trivial, m2.num, Int.toNat_natCast]
            exact g1
          · intro hc
            have h1 : f'.seq = [] := by rw [Forest.seq, hc]; rfl
            have h2 := congrArg List.length (g4'.symm.trans h1)
            rw [m3, slice_length, hGlen] at h2
            simp at h2
            omega
          · rw [g4', m3, hk]
        · have hc : Continues f g ts := continues_of_linear h.linear f1 f3 ho f4 (by rw [hGlen]; omega) f2 m2.sized m2.ne m3
          obtain ⟨f', g1, g2, g3, g4, g5⟩ := recvTrees_spec m2 f1 hc
          refine ⟨f', ?_, Or.inr ⟨by omega, g2, ?_, by omega, ?_⟩⟩
          · rw [recvMessage, hinfo]
            simp only [Option.bind_eq_bind, Option.bind_some]
            rw [if_neg (by omega), m2.num, Int.toNat_natCast]
            exact g1
          · intro hc
            have h1 : f'.seq = [] := by rw [Forest.seq, hc]; rfl
            have h2 := congrArg List.length (g4.symm.trans h1)
            rw [List.length_append, m3, slice_length, hGlen] at h2
            simp at h2
            omega
          · rw [g4, m3, f4, slice_cat _ f3.le ho.le]
  · rw [if_neg (by omega)]
    refine ⟨_, rfl, hempty, ?_⟩
    rw [slice_empty _ (Or.inl (by omega))]
    rfl

/-- **C23.** The sequence of all leaves is unchanged. -/
theorem C23_sequence (h : Distributed size forests A) (B : ElementPartition P N) :
    ∃ forests' : Int → Forest, (∀ q : Nat, q < P → partitionGiven size P forests A.table B.table q = some (forests' q)) ∧
      globalSeq P forests' = globalSeq P forests ∧ Distributed size forests' B := by
  have hex : ∀ q : Nat, ∃ f : Forest, q < P → partitionGiven size P forests A.table B.table q = some f ∧ WF size f ∧
      f.seq = slice (globalSeq P forests) (B.off q) (B.off (q + 1)) := by
    intro q
    by_cases hq : q < P
    · obtain ⟨f, hf⟩ := C23_partition h B hq
      exact ⟨f, fun _ => hf⟩
    · exact ⟨⟨0, -1, [], 0⟩, fun h => absurd h hq⟩
  choose f hf using hex
  have h1 := fun q hq => (hf q hq).1
  have h2 := fun q hq => (hf q hq).2.1
  have h3 := fun q hq => (hf q hq).2.2
  have hGlen : (globalSeq P forests).length = N := by
    rw [← A.top]
    exact cat_length (s := fun p : Nat => (forests p).seq) (off := A.off) A.zero (fun p hp => h.len hp) P le_rfl
  have hglob : globalSeq P (fun q => f q.toNat) = globalSeq P forests := by
    have key : ∀ n, n ≤ P → (List.range n).flatMap (fun p : Nat => (f p).seq) = slice (globalSeq P forests) 0 (B.off n) := by
      intro n
      induction n with
      | zero => intro _; rw [B.zero]; simp [slice]
      | succ n ih =>
        intro hn
        rw [flatMap_range_succ, ih (by omega), h3 n (by omega), slice_cat _ (by omega) (B.mono n (by omega))]
    have := key P le_rfl
    rw [B.top, slice_self _ (by omega)] at this
    exact this
  refine ⟨fun q => f q.toNat, fun q hq => by simpa using h1 q hq, hglob, ?_, ?_, ?_⟩
  · intro q hq; simpa using h2 q hq
  · intro q hq
    have e1 := (h2 q hq).num
    rw [h3 q hq, slice_length, hGlen] at e1
    have e2 := B.off_le (p := q + 1) (by omega)
    have e3 := B.mono q hq
    simp only [Int.toNat_natCast]
    omega
  · rw [hglob]; exact h.linear

/-- **C24.** A process awaits a message from exactly the processes that post one for it, and each posts only one; so no receive blocks
and no message is left over. -/
theorem C24_match (h : Distributed size forests A) (B : ElementPartition P N) {p q : Nat} (hp : p < P) (hq : q < P) :
    ∃ l w, sends (fillBuffer size (forests p)) P p (forests p).localNum A.table B.table = some l ∧
      awaits P q A.table B.table = some w ∧ (l.map Prod.fst).Nodup ∧ w.Nodup ∧
      ((q : Int) ∈ l.map Prod.fst ↔ (p : Int) ∈ w) ∧ ((p : Int) ∈ w ↔ Overlap A B p q) ∧
      (∀ d ∈ l.map Prod.fst, 0 ≤ d ∧ d < P) ∧ (∀ d ∈ w, 0 ≤ d ∧ d < P) := by
  obtain ⟨l, l1, l2, l3, l4⟩ := posted h B hp
  have hl : (q : Int) ∈ l.map Prod.fst ↔ Overlap A B p q := by
    constructor
    · intro hm
      obtain ⟨⟨d, m⟩, h1, h2⟩ := List.mem_map.1 hm
      obtain ⟨r, r1, r2, r3⟩ := l2 d m h1
      dsimp only at h2
      have : r = q := by omega
      rw [← this]; exact r3
    · intro ho
      obtain ⟨m, m1, _⟩ := l3 q hq ho
      obtain ⟨l1', l2', h1, _⟩ := List.lookup_eq_some_iff.1 m1
      rw [h1]; simp
  have hd : ∀ d ∈ l.map Prod.fst, 0 ≤ d ∧ d < P := by
    intro d hm
    obtain ⟨⟨d', m⟩, h1, rfl⟩ := List.mem_map.1 hm
    obtain ⟨r, r1, r2, _⟩ := l2 d' m h1
    dsimp only; omega
  have hnd : ∀ w : List Int, w.Pairwise (· < ·) → w.Nodup := fun w hw => hw.imp (fun h => by omega)
  suffices hw : ∃ w, awaits P q A.table B.table = some w ∧ w.Pairwise (· < ·) ∧
      ∀ d : Int, d ∈ w ↔ ∃ r : Nat, d = r ∧ r < P ∧ Overlap A B r q by
    obtain ⟨w, w1, w2, w3⟩ := hw
    have hpw : (p : Int) ∈ w ↔ Overlap A B p q := by
      rw [w3]
      constructor
      · rintro ⟨r, r1, _, r3⟩
        have : r = p := by omega
        rw [← this]; exact r3
      · intro ho; exact ⟨p, rfl, hp, ho⟩
    refine ⟨l, w, l1, w1, hnd _ l4, hnd _ w2, by rw [hl, hpw], hpw, hd, ?_⟩
    intro d hd
    obtain ⟨r, r1, r2, _⟩ := (w3 d).1 hd
    omega
  rw [awaits, B.rd_table (by omega), Option.bind_eq_bind, Option.bind_some, show (q : Int) + 1 = ((q + 1 : Nat) : Int) by omega,
    B.rd_table (by omega), Option.bind_eq_bind, Option.bind_some]
  by_cases hne : B.off q < B.off (q + 1)
  · rw [if_pos (by omega)]
    obtain ⟨a, b, r1, r2⟩ := recvRange_spec (A := A) hq hne
    have hle := r2.le
    have hlt := r2.lt
    rw [r1, Option.bind_some]
    dsimp only
    rw [show ((b : Int) - a + 1).toNat = b + 1 - a by omega]
    obtain ⟨w, w1, w2, w3⟩ := expects_spec r2 (b + 1 - a) a rfl le_rfl (by omega)
    refine ⟨w, w1, w2, fun d => ?_⟩
    rw [w3]
    constructor
    · rintro ⟨r, e1, e2, e3, e4⟩
      exact ⟨r, e1, by omega, r2.overlap e2 e3 e4 hne⟩
    · rintro ⟨r, e1, e2, e3⟩
      obtain ⟨f1, f2⟩ := r2.of_overlap e2 e3
      rw [overlap_iff] at e3
      exact ⟨r, e1, f1, f2, by show A.off r < A.off (r + 1); omega⟩
  · rw [if_neg (by omega)]
    refine ⟨[], rfl, by simp, fun d => ⟨by simp, ?_⟩⟩
    rintro ⟨r, _, _, e3⟩
    rw [overlap_iff] at e3
    omega

/-! ### C25 -/

/-- The datum number `i` of an array. -/
def datum (elemSize : Nat) (data : Bytes) (i : Nat) : Bytes := (data.drop (i * elemSize)).take elemSize

theorem datum_slice {es : Nat} {D : Bytes} {a b i : Nat} (h : i < b - a) :
    datum es (slice D (a * es) (b * es)) i = datum es D (a + i) := by
  have h1 : i * es + es ≤ b * es - a * es := by
    rw [← Nat.sub_mul, ← Nat.succ_mul]; exact Nat.mul_le_mul_right _ h
  rw [datum, datum, slice, List.drop_take, List.take_take, List.drop_drop, Nat.add_mul, Nat.min_eq_left (by omega)]

/-- **C25.** `t8_forest_partition_data` puts the datum of each element at the new position of the element. `out` is the array that
receives the data. -/
theorem C25_data {es : Nat} (hes : 0 < es) (A B : ElementPartition P N) {data : Int → Bytes}
    (hdata : ∀ p : Nat, p < P → (data p).length = (A.off (p + 1) - A.off p) * es) {q : Nat} (hq : q < P) {out : Bytes}
    (hout : out.length = (B.off (q + 1) - B.off q) * es) :
    ∃ res, partitionData es P (fun p => (A.off (p.toNat + 1) : Int) - A.off p.toNat)
        (fun p => (B.off (p.toNat + 1) : Int) - B.off p.toNat) A.table B.table data out q = some res ∧
      res.length = out.length ∧
      ∀ p i j, p < P → i < A.off (p + 1) - A.off p → j < B.off (q + 1) - B.off q → A.off p + i = B.off q + j →
        datum es res j = datum es (data p) i := by
  -- all data in a row
  let D : Bytes := (List.range P).flatMap (fun p : Nat => data p)
  have hoff : ∀ p, p < P → A.off (p + 1) * es = A.off p * es + (data p).length := by
    intro p hp
    rw [hdata p hp, ← Nat.add_mul]; congr 1; have := A.mono p hp; omega
  have hD : ∀ {p x y : Nat}, p < P → y ≤ A.off (p + 1) - A.off p →
      slice D ((A.off p + x) * es) ((A.off p + y) * es) = slice (data p) (x * es) (y * es) := by
    intro p x y hp hy
    rw [Nat.add_mul, Nat.add_mul]
    exact cat_slice (s := fun p : Nat => data p) (off := fun p => A.off p * es) (by simp [A.zero]) hoff hp
      (by rw [hdata p hp]; exact Nat.mul_le_mul_right _ hy)
  have hDlen : D.length = N * es := by
    rw [← A.top]
    exact cat_length (s := fun p : Nat => data p) (off := fun p => A.off p * es) (by simp [A.zero]) hoff P le_rfl
  have hpost : ∀ {p : Nat}, p < P → ∃ l, sends (fun ct a b => (fillBufferData es (data p) a b).map (·, ct)) P p
        ((A.off (p + 1) : Int) - A.off p) A.table B.table = some l ∧
      ∀ q, q < P → Overlap A B p q → ∃ m, l.lookup (q : Int) = some m ∧
        m = slice D (max (A.off p) (B.off q) * es) (min (A.off (p + 1)) (B.off (q + 1)) * es) := by
    intro p hp
    obtain ⟨l, l1, _, l3, _⟩ := sends_spec (A := A) (B := B) (Cur := fun _ _ => True)
      (Carries := fun m x y => y ≤ A.off (p + 1) - A.off p ∧ m = slice (data p) (x * es) (y * es))
      (fill := fun ct a b => (fillBufferData es (data p) a b).map (·, ct)) hp rfl trivial
      (fun ct x y _ hxy hy => by
        have e1 : ((y : Int) - 1 - x + 1) * es = (((y - x) * es : Nat) : Int) := by
          rw [show (y : Int) - 1 - x + 1 = ((y - x : Nat) : Int) by omega]; push_cast; rfl
        have e2 : (x : Int) * es = ((x * es : Nat) : Int) := by push_cast; rfl
        have e3 : x * es + (y - x) * es ≤ (data p).length := by
          rw [hdata p hp, ← Nat.add_mul]; exact Nat.mul_le_mul_right _ (by omega)
        refine ⟨slice (data p) (x * es) (y * es), ct, ?_, ⟨hy, rfl⟩, trivial⟩
        rw [fillBufferData, e1, e2]
        simp only [Option.bind_eq_bind]
        rw [show assertO (0 ≤ (((y - x) * es : Nat) : Int) ∧ 0 ≤ (x : Int) ∧
            ((x * es : Nat) : Int) + (((y - x) * es : Nat) : Int) ≤ ((data p).length : Int)) = some () from
          assertO_true ⟨by omega, by omega, by omega⟩, Option.bind_some, Int.toNat_natCast, Int.toNat_natCast, Option.map_some,
          slice, Nat.sub_mul])
    refine ⟨l, l1, fun q hq ho => ?_⟩
    obtain ⟨m, m1, m2, m3⟩ := l3 q hq ho
    refine ⟨m, m1, ?_⟩
    rw [m3, ← hD hp m2]
    rw [overlap_iff] at ho
    simp only [lo, hi]
    congr 2 <;> omega
  suffices hres : ∃ res, partitionData es P (fun p => (A.off (p.toNat + 1) : Int) - A.off p.toNat)
        (fun p => (B.off (p.toNat + 1) : Int) - B.off p.toNat) A.table B.table data out q = some res ∧
      res = slice D (B.off q * es) (B.off (q + 1) * es) by
    obtain ⟨res, r1, r2⟩ := hres
    have hBN := B.off_le (p := q + 1) (by omega)
    refine ⟨res, r1, ?_, ?_⟩
    · rw [r2, slice_length, hDlen, hout, Nat.sub_mul, Nat.min_eq_left (Nat.mul_le_mul_right _ hBN)]
    · intro p i j hp hi hj hij
      rw [r2, datum_slice hj, ← hij]
      have := hD (x := i) (y := i + 1) hp (by omega)
      have h2 := datum_slice (es := es) (D := D) (a := A.off p + i) (b := A.off p + (i + 1)) (i := 0) (by omega)
      have h3 := datum_slice (es := es) (D := data p) (a := i) (b := i + 1) (i := 0) (by omega)
      rw [← Nat.add_zero (A.off p + i), ← h2, show i = i + 0 from rfl, ← h3, ← this]
      rfl
  obtain ⟨l, l1, -⟩ := hpost hq
  rw [partitionData]
  dsimp only
  rw [Int.toNat_natCast, l1]
  simp only [Option.bind_eq_bind, Option.bind_some]
  by_cases hne : B.off q < B.off (q + 1)
  · rw [if_pos (by omega)]
    obtain ⟨a, b, r1, r2⟩ := recvRange_spec (A := A) hq hne
    have hle := r2.le
    have hlt := r2.lt
    have hfirst := r2.first
    have hBN := B.off_le (p := q + 1) (by omega)
    rw [r1, Option.bind_some]
    dsimp only
    rw [show ((b : Int) - a + 1).toNat = b + 1 - a by omega]
    have hloop := recvLoop_spec (A := A) (B := B) (recv := fun _ m st => recvMessageData es m st)
      (inbox := inboxOf (fun p => sends (fun ct a b => (fillBufferData es (data p) a b).map (·, ct)) P p
        ((A.off (p.toNat + 1) : Int) - A.off p.toNat) A.table B.table) q)
      (Have := fun _ st k => B.off q ≤ k ∧ k ≤ B.off (q + 1) ∧ st.1.length = out.length ∧ st.2 = k - B.off q ∧
        st.1.take ((k - B.off q) * es) = slice D (B.off q * es) (k * es))
      hne r2 ?_ (b + 1 - a) a 0 (out, 0) rfl le_rfl (by omega)
      ⟨by omega, by omega, rfl, by omega, by
        rw [show min (max (A.off a) (B.off q)) (B.off (q + 1)) = B.off q by omega, slice_empty _ (Or.inl le_rfl)]; simp⟩
    · obtain ⟨⟨res, last⟩, n, f1, f2, f3, f4, f5, f6⟩ := hloop
      rw [f1, Option.bind_some]
      refine ⟨res, rfl, ?_⟩
      dsimp only at f6 f4
      rw [← f6, List.take_of_length_le]
      omega
    · intro p hp ho
      obtain ⟨lp, p1, p3⟩ := hpost hp
      obtain ⟨m, m1, m2⟩ := p3 q hq ho
      refine ⟨m, ?_, ?_⟩
      · rw [inboxOf, Int.toNat_natCast, p1]
        exact m1
      · rw [overlap_iff] at ho
        generalize hk : max (A.off p) (B.off q) = k at *
        generalize hk' : min (A.off (p + 1)) (B.off (q + 1)) = k' at *
        rintro n ⟨o, last⟩ ⟨f1, f2, f3, f4, f5⟩
        dsimp only at f3 f4 f5
        have hmlen : m.length = (k' - k) * es := by
          rw [m2, slice_length, hDlen, Nat.min_eq_left (Nat.mul_le_mul_right _ (by omega)), Nat.sub_mul]
        have hpos : es * last = (k - B.off q) * es := by rw [f4, Nat.mul_comm]
        have hsum : (k - B.off q) * es + (k' - k) * es = (k' - B.off q) * es := by
          rw [← Nat.add_mul]; congr 1; omega
        have hfit : (k' - B.off q) * es ≤ o.length := by rw [f3, hout]; exact Nat.mul_le_mul_right _ (by omega)
        have htake : (o.take ((k - B.off q) * es)).length = (k - B.off q) * es := by rw [List.length_take]; omega
        refine ⟨(o.take ((k - B.off q) * es) ++ m ++ o.drop ((k' - B.off q) * es), k' - B.off q), ?_, by omega, by omega, ?_, rfl, ?_⟩
        · rw [recvMessageData, memcpy, if_pos (by rw [hpos, hmlen, hsum]; exact hfit), hpos, hmlen, hsum]
          simp only [Option.bind_eq_bind, Option.bind_some]
          rw [show assertO ((k' - k) * es % es = 0) = some () from assertO_true (Nat.mul_mod_left _ _), Option.bind_some,
            Nat.mul_div_cancel _ hes, f4]
          congr 2; omega
        · dsimp only
          rw [List.length_append, List.length_append, htake, hmlen, List.length_drop]; omega
        · dsimp only
          have hl2 : (o.take ((k - B.off q) * es) ++ m).length = (k' - B.off q) * es := by
            rw [List.length_append, htake, hmlen, hsum]
          rw [← hl2, List.take_left, f5, m2, slice_cat _ (Nat.mul_le_mul_right _ f1) (Nat.mul_le_mul_right _ ho.le)]
  · rw [if_neg (by omega)]
    refine ⟨out, rfl, ?_⟩
    rw [slice_empty _ (Or.inl (Nat.mul_le_mul_right _ (by omega))), ← List.length_eq_zero_iff, hout,
      show B.off (q + 1) - B.off q = 0 by omega, Nat.zero_mul]

/-! ### A case

Three processes and two trees of different classes. The first tree is split between the processes 0 and 1, process 2 is
empty; in the new partition process 1 is empty. -/

namespace Case

def oldPart : ElementPartition 3 4 where
  off := fun p => min (2 * p) 4
  pos := by decide
  zero := rfl
  top := rfl
  mono := by intros; omega

def newPart : ElementPartition 3 4 where
  off := fun p => if p = 0 then 0 else if p ≤ 2 then 1 else 4
  pos := by decide
  zero := rfl
  top := rfl
  mono := by decide

def parts : Int → Forest := fun p =>
  if p = 0 then ⟨0, 0, [⟨0, 0, [[1], [2]]⟩], 2⟩
  else if p = 1 then ⟨0, 1, [⟨0, 0, [[3]]⟩, ⟨1, 1, [[4, 5]]⟩], 2⟩
  else ⟨0, -1, [], 0⟩

theorem distributed : Distributed (fun c => c + 1) parts oldPart where
  wf := by
    intro p hp
    obtain rfl | rfl | rfl : p = 0 ∨ p = 1 ∨ p = 2 := by omega
    · refine ⟨rfl, rfl, by decide, ?_, by decide⟩
      rintro (_ | i) t ht
      · obtain rfl := Option.some.inj ht; rfl
      · cases ht
    · refine ⟨rfl, rfl, by decide, ?_, by decide⟩
      rintro (_ | _ | i) t ht
      · obtain rfl := Option.some.inj ht; rfl
      · obtain rfl := Option.some.inj ht; rfl
      · cases ht
    · refine ⟨rfl, rfl, by decide, ?_, by decide⟩
      rintro i t ht
      cases ht
  count := by decide
  linear := by
    rintro (_ | _ | _ | _ | i) a b ha hb
    · obtain rfl := Option.some.inj ha; obtain rfl := Option.some.inj hb; exact Or.inl ⟨rfl, rfl⟩
    · obtain rfl := Option.some.inj ha; obtain rfl := Option.some.inj hb; exact Or.inl ⟨rfl, rfl⟩
    · obtain rfl := Option.some.inj ha; obtain rfl := Option.some.inj hb; exact Or.inr rfl
    · cases hb
    · cases ha

/-- Process 2 gets the rest of the first tree from two processes, and the second tree. -/
theorem result : ∃ f, partitionGiven (fun c => c + 1) 3 parts oldPart.table newPart.table 2 = some f ∧
    f.seq = [(0, 0, [2]), (0, 0, [3]), (1, 1, [4, 5])] := by
  obtain ⟨f, h1, _, h3⟩ := C23_partition distributed newPart (q := 2) (by decide)
  exact ⟨f, h1, h3⟩

end Case

end T8.Partition
