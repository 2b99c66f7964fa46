/-
C43: packing and unpacking vectors.
-/
import Verif.Model.VectorHandler
import Mathlib.Tactic.Linarith

namespace T8.VectorHandler
variable {α : Type} [Inhabited α] (H : Item α)

/-- The user supplied handler of single items round-trips: the size is the number of packed bytes, and unpacking
into a fresh item, at the position where an item was packed, returns the item and consumes its bytes, whatever
follows. -/
structure RoundTrip : Prop where
  size : ∀ x, H.size x = (H.pack x).length
  unpack : ∀ x r, H.unpack default (H.pack x ++ r) = some (x, (H.pack x).length)

/-- The bytes of a vector. -/
def bytes (l : List α) : List Byte := intBytes (BitVec.ofNat 32 l.length) ++ l.flatMap H.pack

theorem bytesInt_intBytes (v : BitVec 32) (r : List Byte) : bytesInt (intBytes v ++ r) = some v := by
  simp only [intBytes, List.cons_append, List.nil_append, bytesInt, Option.some.injEq]
  apply BitVec.eq_of_getLsbD_eq
  intro i hi
  simp only [BitVec.getLsbD_append, BitVec.getLsbD_extractLsb']
  by_cases h1 : i < 8
  · simp [h1]
  · by_cases h2 : i - 8 < 8
    · simp [h1, h2, show 8 + (i - 8) = i by omega]
    · by_cases h3 : i - 8 - 8 < 8
      · simp [h1, h2, h3, show 16 + (i - 8 - 8) = i by omega]
      · simp [h1, h2, h3, show 24 + (i - 8 - 8 - 8) = i by omega, show i - 8 - 8 - 8 < 8 by omega]

theorem foldl_size (h : RoundTrip H) : ∀ (l : List α) (s : Nat),
    l.foldl (fun sum item => sum + H.size item) s = s + (l.flatMap H.pack).length
  | [], s => by simp
  | x :: l, s => by
    rw [List.foldl_cons, foldl_size h l, List.flatMap_cons, List.length_append, h.size]; omega

theorem write_eq {buffer bs : List Byte} {pos : Nat} (h : pos + bs.length ≤ buffer.length) :
    write buffer pos bs = some (buffer.take pos ++ bs ++ buffer.drop (pos + bs.length)) := by
  rw [write, if_pos h]

omit [Inhabited α] in
theorem pack_loop : ∀ (l : List α) (buffer : List Byte) (pos : Nat),
    pos + (l.flatMap H.pack).length ≤ buffer.length →
    l.foldlM (fun (s : List Byte × Nat) item => (do
      let b ← write s.1 s.2 (H.pack item)
      some (b, s.2 + (H.pack item).length) : Option (List Byte × Nat))) (buffer, pos) =
    some (buffer.take pos ++ l.flatMap H.pack ++ buffer.drop (pos + (l.flatMap H.pack).length),
      pos + (l.flatMap H.pack).length)
  | [], buffer, pos, _ => by simp
  | x :: l, buffer, pos, h => by
    rw [List.flatMap_cons, List.length_append] at h
    rw [List.foldlM_cons]
    simp only [write_eq (show pos + (H.pack x).length ≤ buffer.length by omega), Option.bind_eq_bind,
      Option.bind_some]
    have hl : (buffer.take pos ++ H.pack x).length = pos + (H.pack x).length := by
      rw [List.length_append, List.length_take, Nat.min_eq_left (by omega)]
    have hlen : (buffer.take pos ++ H.pack x ++ buffer.drop (pos + (H.pack x).length)).length = buffer.length := by
      rw [List.length_append, hl, List.length_drop]; omega
    have := pack_loop l (buffer.take pos ++ H.pack x ++ buffer.drop (pos + (H.pack x).length))
      (pos + (H.pack x).length) (by rw [hlen]; omega)
    simp only [Option.bind_eq_bind] at this
    rw [this, List.flatMap_cons, List.length_append]
    rw [List.take_left' hl, List.drop_append, List.drop_eq_nil_of_le (by rw [hl]; omega), List.nil_append,
      List.drop_drop, hl]
    simp only [List.append_assoc, Option.some.injEq, Prod.mk.injEq]
    refine ⟨?_, by omega⟩
    congr 4
    omega

omit [Inhabited α] in
theorem pack_eq (l : List α) (buffer : List Byte) (pos : Nat) (h : pos + (bytes H l).length ≤ buffer.length) :
    packVectorPrefix H (some l) buffer pos =
      some (buffer.take pos ++ bytes H l ++ buffer.drop (pos + (bytes H l).length), pos + (bytes H l).length) := by
  have h4 : (intBytes (BitVec.ofNat 32 l.length)).length = 4 := rfl
  unfold bytes at h ⊢
  rw [List.length_append, h4] at h
  have hl : (buffer.take pos ++ intBytes (BitVec.ofNat 32 l.length)).length = pos + 4 := by
    rw [List.length_append, List.length_take, Nat.min_eq_left (by omega), h4]
  unfold packVectorPrefix
  simp only [Option.bind_eq_bind, Option.bind_some]
  rw [write_eq (by rw [h4]; omega), Option.bind_some, h4]
  have := pack_loop H l (buffer.take pos ++ intBytes (BitVec.ofNat 32 l.length) ++ buffer.drop (pos + 4)) (pos + 4)
    (by rw [List.length_append, hl, List.length_drop]; omega)
  simp only [Option.bind_eq_bind] at this
  rw [this, List.length_append, h4]
  rw [List.take_left' hl, List.drop_append, List.drop_eq_nil_of_le (by rw [hl]; omega), List.nil_append,
    List.drop_drop, hl]
  simp only [List.append_assoc, Option.some.injEq, Prod.mk.injEq]
  refine ⟨?_, by omega⟩
  congr 4
  omega

theorem unpackItems_eq (h : RoundTrip H) : ∀ (l : List α) (pre post : List Byte),
    unpackItems H (pre ++ l.flatMap H.pack ++ post) (List.replicate l.length default) pre.length =
      some (l, pre.length + (l.flatMap H.pack).length)
  | [], pre, post => by simp [unpackItems]
  | x :: l, pre, post => by
    rw [List.length_cons, List.replicate_succ, unpackItems]
    have e : (pre ++ (x :: l).flatMap H.pack ++ post).drop pre.length = H.pack x ++ (l.flatMap H.pack ++ post) := by
      rw [List.append_assoc, List.drop_left, List.flatMap_cons, List.append_assoc]
    have ih := unpackItems_eq h l (pre ++ H.pack x) post
    rw [show pre ++ (x :: l).flatMap H.pack ++ post = pre ++ H.pack x ++ l.flatMap H.pack ++ post by
      simp [List.append_assoc]] at e ⊢
    rw [e, h.unpack]
    simp only [Option.bind_eq_bind, Option.bind_some]
    rw [← List.length_append, ih]
    simp only [Option.bind_some, List.flatMap_cons, List.length_append]
    congr 2
    omega

/-- C43. The computed buffer size is the number of bytes written: into every buffer with this many bytes left at the
current position, packing succeeds, moves the position by the buffer size and changes nothing outside of its range. -/
theorem C43_buffer_size (h : RoundTrip H) (l : List α) (buffer : List Byte) (pos : Nat)
    (hb : pos + bufferSize H (some l) ≤ buffer.length) :
    ∃ written, written.length = bufferSize H (some l) ∧
      packVectorPrefix H (some l) buffer pos =
        some (buffer.take pos ++ written ++ buffer.drop (pos + bufferSize H (some l)), pos + bufferSize H (some l)) := by
  have hs : bufferSize H (some l) = (bytes H l).length := by
    rw [bufferSize, bytes, List.length_append]
    show 4 + l.foldl _ 0 = 4 + _
    rw [foldl_size H h]; omega
  rw [hs] at hb ⊢
  exact ⟨bytes H l, rfl, pack_eq H l buffer pos hb⟩

/-- C43. What one handler packs, another handler unpacks to the same vector, whatever its data was before (also a null
pointer) and whatever surrounds the data in the message; exactly the bytes written are consumed. The number of
items has to fit into an `int`. -/
theorem C43_round_trip (h : RoundTrip H) (l : List α) (hl : l.length < 2 ^ 31) (buffer : List Byte) (pos : Nat)
    (hb : pos + bufferSize H (some l) ≤ buffer.length) (old : Option (List α)) :
    ∃ b, packVectorPrefix H (some l) buffer pos = some (b, pos + bufferSize H (some l)) ∧
      unpackVectorPrefix H old b pos = some (l, (l.length : Int), pos + bufferSize H (some l)) := by
  have hs : bufferSize H (some l) = (bytes H l).length := by
    rw [bufferSize, bytes, List.length_append]
    show 4 + l.foldl _ 0 = 4 + _
    rw [foldl_size H h]; omega
  rw [hs] at hb ⊢
  refine ⟨_, pack_eq H l buffer pos hb, ?_⟩
  have hpre : (buffer.take pos).length = pos := by rw [List.length_take]; omega
  have hint : (BitVec.ofNat 32 l.length).toInt = l.length := by
    rw [BitVec.toInt_ofNat', Int.bmod_def]
    have : ((l.length : Int) % (2 ^ 32 : Nat)) = l.length := Int.emod_eq_of_lt (by omega) (by omega)
    rw [this, if_pos (by omega)]
  have h4 : (intBytes (BitVec.ofNat 32 l.length)).length = 4 := rfl
  unfold unpackVectorPrefix
  rw [List.append_assoc, List.drop_left' hpre, bytes, List.append_assoc, bytesInt_intBytes]
  simp only [Option.bind_eq_bind, Option.bind_some, hint]
  rw [show assertO ((0 : Int) ≤ l.length) = some () from assertO_true (by omega), Option.bind_some]
  have key := unpackItems_eq H h l (buffer.take pos ++ intBytes (BitVec.ofNat 32 l.length))
    (buffer.drop (pos + (bytes H l).length))
  rw [List.length_append, hpre, h4, List.append_assoc, List.append_assoc] at key
  have hsum : unpackItems H (buffer.take pos ++ (intBytes (BitVec.ofNat 32 l.length) ++
      (l.flatMap H.pack ++ buffer.drop (pos + (bytes H l).length)))) (List.replicate l.length default) (pos + 4) =
      some (l, pos + (bytes H l).length) := by
    rw [key, bytes, List.length_append, h4]
    congr 2; omega
  cases old <;>
  · simp only [List.take_zero, List.length_nil, List.nil_append, Int.toNat_natCast, Nat.sub_zero]
    rw [show (intBytes (BitVec.ofNat 32 l.length) ++ List.flatMap H.pack l).length = (bytes H l).length from rfl, hsum]
    rfl

/-- C43 for messages: a receiver obtains exactly the vector that was sent. -/
theorem C43_send_recv (h : RoundTrip H) (l : List α) (hl : l.length < 2 ^ 31) (old : Option (List α)) :
    ∃ msg, send H (some l) = some msg ∧ msg.length = bufferSize H (some l) ∧
      recv H old msg = some (l, (l.length : Int)) := by
  obtain ⟨b, h1, h2⟩ := C43_round_trip H h l hl (List.replicate (bufferSize H (some l)) 0) 0 (by simp) old
  obtain ⟨w, h3, h4⟩ := C43_buffer_size H h l (List.replicate (bufferSize H (some l)) 0) 0 (by simp)
  refine ⟨b, by rw [send, h1]; rfl, ?_, by rw [recv, h2]; rfl⟩
  rw [h1] at h4
  simp only [Option.some.injEq, Prod.mk.injEq] at h4
  rw [h4.1]
  simp [h3]

/-- C43 for an exchange: afterwards each of the two processes holds the vector of the other one. -/
theorem C43_sendrecv (h : RoundTrip H) (l0 l1 : List α) (h0 : l0.length < 2 ^ 31) (h1 : l1.length < 2 ^ 31) :
    sendrecv H (some l0) (some l1) = some ((l1, (l1.length : Int)), (l0, (l0.length : Int))) := by
  obtain ⟨m0, a1, a2, a3⟩ := C43_send_recv H h l0 h0 (some l1)
  obtain ⟨m1, b1, b2, b3⟩ := C43_send_recv H h l1 h1 (some l0)
  unfold send at a1 b1
  simp only [Option.bind_eq_bind, Option.bind_eq_some_iff] at a1 b1
  obtain ⟨⟨c0, p0⟩, a4, a5⟩ := a1
  obtain ⟨⟨c1, p1⟩, b4, b5⟩ := b1
  simp only [Option.some.injEq] at a5 b5
  subst a5 b5
  unfold sendrecv
  simp only [a4, b4, Option.bind_eq_bind, Option.bind_some]
  rw [show assertO (c1.length ≤ bufferSize H (some l1) ∧ c0.length ≤ bufferSize H (some l0)) = some () from
    assertO_true (by omega)]
  rw [Option.bind_some, b3, a3]
  rfl

/-- A handler with items of varying size that round-trips: a list of bytes, preceded by its length. -/
def exampleItem : Item (List Byte) where
  size l := 4 + l.length
  pack l := intBytes (BitVec.ofNat 32 l.length) ++ l
  unpack _ b := do
    let v ← bytesInt b
    some ((b.drop 4).take v.toNat, 4 + v.toNat)

/-- The hypotheses of the theorems are met for a vector of two lists of different lengths, whose items round-trip. -/
example : let l : List (List Byte) := [[1, 2, 3], []]
    (∀ x ∈ l, ∀ r ∈ [[], [7, 8]], exampleItem.unpack default (exampleItem.pack x ++ r) =
      some (x, (exampleItem.pack x).length)) ∧ bufferSize exampleItem (some l) = 15 ∧
    recv exampleItem (some [[9]]) ((send exampleItem (some l)).getD []) = some (l, 2) := by
  decide +kernel

/-- A handler that round-trips for all items: one byte. -/
example : RoundTrip (α := Byte) ⟨fun _ => 1, fun x => [x], fun _ b => b.head?.map (fun x => (x, 1))⟩ where
  size _ := rfl
  unpack _ _ := rfl

end T8.VectorHandler
