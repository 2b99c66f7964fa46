/-
Lemmas for C56: what is written to a message is read from it.
-/
import Verif.Model.GhostMessage
import Verif.Lemmas.GhostAdd

namespace T8.Ghost
open T8.RTree

variable {T : Nat → RTree} {C : Codec T}

/-- What is known about the memory of elements. -/
structure Codec.Lawful (C : Codec T) : Prop where
  eclass : ∀ g, C.eclass g < 2 ^ 32
  size : ∀ g, 0 < C.size (C.eclass g)
  length : ∀ g e, (C.encode g e).length = C.size (C.eclass g)
  decode : ∀ g e, (T g).Valid e → C.decode g (C.encode g e) = e

/-! ### Bytes -/

theorem length_toBytes (k n : Nat) : (toBytes k n).length = k := by
  induction k generalizing n with
  | zero => rfl
  | succ k ih => rw [toBytes, List.length_cons, ih]

theorem ofBytes_toBytes {k n : Nat} (h : n < 256 ^ k) : ofBytes (toBytes k n) = n := by
  induction k generalizing n with
  | zero => rw [toBytes, ofBytes]; omega
  | succ k ih =>
    rw [toBytes, ofBytes, ih (by rw [Nat.pow_succ] at h; omega), UInt8.toNat_ofNat']
    omega

/-- Bytes with the padding behind them. -/
def pad (bytes : List UInt8) : List UInt8 := bytes ++ List.replicate (addPadding bytes.length) 0

theorem length_pad (bytes : List UInt8) : (pad bytes).length = bytes.length + addPadding bytes.length := by
  rw [pad, List.length_append, List.length_replicate]

theorem pad_mod (bytes : List UInt8) : (pad bytes).length % 8 = 0 := by
  rw [length_pad, addPadding]
  omega

theorem addPadding_add {n : Nat} (h : n % 8 = 0) (k : Nat) : addPadding (n + k) = addPadding k := by
  rw [addPadding, addPadding]
  omega

theorem writePadded_eq {pre bytes : List UInt8} (hpre : pre.length % 8 = 0) {m : Nat} (hm : (pad bytes).length ≤ m) :
    writePadded (pre ++ List.replicate m 0, pre.length) bytes =
      some (pre ++ pad bytes ++ List.replicate (m - (pad bytes).length) 0, (pre ++ pad bytes).length) := by
  rw [length_pad] at hm
  rw [writePadded, memcpy]
  simp only [List.length_append, List.length_replicate]
  rw [if_pos (by omega)]
  simp only [Option.bind_eq_bind, Option.bind_some, Option.pure_def, Option.some.injEq, Prod.mk.injEq]
  constructor
  · rw [List.take_left, List.drop_append, List.drop_of_length_le (by omega), List.nil_append, List.drop_replicate, pad, List.append_assoc,
      List.append_assoc, List.append_assoc, List.append_cancel_left_eq, List.append_cancel_left_eq, List.replicate_append_replicate]
    congr 1
    rw [← pad, length_pad]
    omega
  · rw [addPadding_add hpre, length_pad]
    omega

theorem readBytes_eq {pre bytes post : List UInt8} {k : Nat} (hk : bytes.length = k) :
    readBytes (pre ++ bytes ++ post) pre.length k = some bytes := by
  rw [readBytes, if_pos (by simp; omega), List.append_assoc, List.drop_left, List.take_append_of_le_length (by omega),
    List.take_of_length_le (by omega)]

theorem readBytes_pad {pre bytes post : List UInt8} {k : Nat} (hk : bytes.length = k) :
    readBytes (pre ++ pad bytes ++ post) pre.length k = some bytes := by
  rw [pad, ← List.append_assoc pre, List.append_assoc (pre ++ bytes), readBytes_eq hk]

theorem readPadded_eq {pre post : List UInt8} (hpre : pre.length % 8 = 0) {k n : Nat} (hn : n < 256 ^ k) :
    readPadded (pre ++ pad (toBytes k n) ++ post) pre.length k = some (n, (pre ++ pad (toBytes k n)).length) := by
  rw [readPadded, pad, ← List.append_assoc pre, List.append_assoc (pre ++ toBytes k n), readBytes_eq (length_toBytes k n)]
  simp only [Option.bind_eq_bind, Option.bind_some, Option.pure_def, ofBytes_toBytes hn, Option.some.injEq, Prod.mk.injEq, true_and]
  rw [addPadding_add hpre]
  simp only [List.length_append, length_toBytes, List.length_replicate]

/-! ### Messages -/

/-- The bytes of an element array. -/
def elementBytes (C : Codec T) (t : RemoteTree T) : List UInt8 := t.elements.flatMap (fun x => C.encode t.gtreeid x.1)

/-- The part of a message for one tree. -/
def block (C : Codec T) (t : RemoteTree T) : List UInt8 :=
  pad (toBytes sizeofGloidx t.gtreeid) ++ pad (toBytes sizeofEclass (C.eclass t.gtreeid)) ++ pad (toBytes sizeofSize t.elements.length) ++
    pad (elementBytes C t)

theorem length_elementBytes (hC : C.Lawful) (t : RemoteTree T) :
    (elementBytes C t).length = t.elements.length * C.size (C.eclass t.gtreeid) := by
  rw [elementBytes, List.length_flatMap]
  simp only [hC.length, List.map_const', List.sum_replicate]
  rfl

theorem block_mod (t : RemoteTree T) : (block C t).length % 8 = 0 := by
  have h1 := pad_mod (toBytes sizeofGloidx t.gtreeid)
  have h2 := pad_mod (toBytes sizeofEclass (C.eclass t.gtreeid))
  have h3 := pad_mod (toBytes sizeofSize t.elements.length)
  have h4 := pad_mod (elementBytes C t)
  simp only [block, List.length_append]
  omega

theorem countTree_eq (hC : C.Lawful) {n : Nat} (hn : n % 8 = 0) (t : RemoteTree T) : countTree C n t = n + (block C t).length := by
  simp only [block, List.length_append, length_pad, length_toBytes, length_elementBytes hC]
  simp only [countTree, sizeofGloidx, sizeofEclass, sizeofSize, addPadding, Nat.mul_comm (C.size _)]
  omega

theorem writeTree_eq {pre : List UInt8} (hpre : pre.length % 8 = 0) (t : RemoteTree T) {m : Nat} (hm : (block C t).length ≤ m) :
    writeTree C (pre ++ List.replicate m 0, pre.length) t =
      some (pre ++ block C t ++ List.replicate (m - (block C t).length) 0, (pre ++ block C t).length) := by
  have h1 := pad_mod (toBytes sizeofGloidx t.gtreeid)
  have h2 := pad_mod (toBytes sizeofEclass (C.eclass t.gtreeid))
  have h3 := pad_mod (toBytes sizeofSize t.elements.length)
  simp only [block, List.length_append] at hm
  rw [writeTree]
  simp only [Option.bind_eq_bind]
  rw [writePadded_eq hpre (by omega), Option.bind_some, writePadded_eq (by rw [List.length_append]; omega) (by omega), Option.bind_some,
    writePadded_eq (by rw [List.length_append, List.length_append]; omega) (by omega), Option.bind_some]
  change writePadded _ (elementBytes C t) = _
  rw [writePadded_eq (by rw [List.length_append, List.length_append, List.length_append]; omega) (by omega), block]
  simp only [List.append_assoc, List.length_append, Nat.sub_sub, Nat.add_assoc]

/-- The message for some trees. -/
def messageOf (C : Codec T) (trees : List (RemoteTree T)) : List UInt8 := pad (toBytes sizeofSize trees.length) ++ trees.flatMap (block C)

theorem numBytes_eq (hC : C.Lawful) (trees : List (RemoteTree T)) : numBytes C trees = (messageOf C trees).length := by
  have key : ∀ (ts : List (RemoteTree T)) n, n % 8 = 0 → ts.foldl (countTree C) n = n + (ts.flatMap (block C)).length := by
    intro ts
    induction ts with
    | nil => intro n _; simp
    | cons t ts ih =>
      intro n hn
      rw [List.foldl_cons, countTree_eq hC hn, ih _ (by have := block_mod (C := C) t; omega), List.flatMap_cons, List.length_append]
      omega
  rw [numBytes, key _ _ (by decide), messageOf, List.length_append, length_pad, length_toBytes]
  rfl

theorem message_eq (hC : C.Lawful) (trees : List (RemoteTree T)) : message C trees = some (messageOf C trees) := by
  have key : ∀ (ts : List (RemoteTree T)) (pre : List UInt8) m, pre.length % 8 = 0 → (ts.flatMap (block C)).length = m →
      ts.foldlM (writeTree C) (pre ++ List.replicate m 0, pre.length) = some (pre ++ ts.flatMap (block C), (pre ++ ts.flatMap (block C)).length) := by
    intro ts
    induction ts with
    | nil => intro pre m _ hm; simp at hm; subst hm; simp
    | cons t ts ih =>
      intro pre m hpre hm
      rw [List.flatMap_cons, List.length_append] at hm
      rw [List.foldlM_cons, writeTree_eq hpre t (by omega)]
      simp only [Option.bind_eq_bind, Option.bind_some]
      rw [ih _ _ (by rw [List.length_append]; have := block_mod (C := C) t; omega) (by omega), List.flatMap_cons, List.append_assoc]
  have hn := numBytes_eq hC trees
  rw [messageOf, List.length_append] at hn
  rw [message]
  simp only [Option.bind_eq_bind]
  have h0 := writePadded_eq (pre := []) (bytes := toBytes sizeofSize trees.length) rfl (m := numBytes C trees) (by omega)
  rw [List.nil_append, List.length_nil] at h0
  rw [h0, Option.bind_some, List.nil_append, key _ _ _ (pad_mod _) (by omega), Option.bind_some]
  rw [assertO_true (by rw [numBytes_eq hC]; rfl)]
  rfl

/-! ### Reading -/

theorem decodeElements_eq (hC : C.Lawful) (g : Nat) : ∀ (l : List ((T g).E × Nat)), (∀ x ∈ l, (T g).Valid x.1) →
    decodeElements C g (C.size (C.eclass g)) l.length (l.flatMap (fun x => C.encode g x.1)) = l.map Prod.fst
  | [], _ => rfl
  | x :: l, h => by
    rw [List.length_cons, decodeElements, List.flatMap_cons, List.take_append_of_le_length (by rw [hC.length]),
      List.take_of_length_le (by rw [hC.length]), List.drop_append_of_le_length (by rw [hC.length]),
      List.drop_of_length_le (by rw [hC.length]), List.nil_append, decodeElements_eq hC g l (fun y hy => h y (by simp [hy])), hC.decode _ _ (h x (by simp)),
      List.map_cons]

/-- Elements of a tree without their indices. -/
def RemoteTree.leaves (t : RemoteTree T) : List (T t.gtreeid).E := t.elements.map Prod.fst

/-- Insert the elements of a tree that is sent. -/
def insertTree (C : Codec T) (L : Layer T) (offset : Nat) (t : RemoteTree T) : Option (Layer T × Nat × Nat) :=
  insertElements C { L with numGhosts := L.numGhosts + t.elements.length } offset t.gtreeid (C.eclass t.gtreeid) t.elements.length
    (elementBytes C t)

theorem parseTree_eq (hC : C.Lawful) {pre post : List UInt8} (hpre : pre.length % 8 = 0) {t : RemoteTree T} (hg : t.gtreeid < 2 ^ 64)
    (hn : t.elements.length < 2 ^ 64) (s : ParseState T) (hs : s.bytesRead = pre.length) (i : Nat) :
    parseTree C (pre ++ block C t ++ post) s i = (insertTree C s.layer s.currentOffset t).map (fun r => {
      bytesRead := (pre ++ block C t).length
      layer := r.1
      currentOffset := s.currentOffset + t.elements.length
      firstTree := if i = 0 then r.2.1 else s.firstTree
      firstElement := if i = 0 then r.2.2 else s.firstElement }) := by
  have h1 := pad_mod (toBytes sizeofGloidx t.gtreeid)
  have h2 := pad_mod (toBytes sizeofEclass (C.eclass t.gtreeid))
  have h3 := pad_mod (toBytes sizeofSize t.elements.length)
  rw [parseTree, hs]
  simp only [block]
  rw [show pre ++ (pad (toBytes sizeofGloidx t.gtreeid) ++ pad (toBytes sizeofEclass (C.eclass t.gtreeid)) ++
      pad (toBytes sizeofSize t.elements.length) ++ pad (elementBytes C t)) ++ post =
      pre ++ pad (toBytes sizeofGloidx t.gtreeid) ++ (pad (toBytes sizeofEclass (C.eclass t.gtreeid)) ++
      (pad (toBytes sizeofSize t.elements.length) ++ (pad (elementBytes C t) ++ post))) by simp only [List.append_assoc]]
  rw [readPadded_eq hpre (k := sizeofGloidx) (by exact hg)]
  simp only [Option.bind_eq_bind, Option.bind_some]
  rw [← List.append_assoc, readPadded_eq (by rw [List.length_append]; omega) (k := sizeofEclass) (by exact hC.eclass _)]
  simp only [Option.bind_some]
  rw [← List.append_assoc, readPadded_eq (by rw [List.length_append, List.length_append]; omega) (k := sizeofSize) (by exact hn)]
  simp only [Option.bind_some]
  rw [← List.append_assoc]
  rw [readBytes_pad (length_elementBytes hC t)]
  simp only [Option.bind_some, Option.pure_def]
  rw [insertTree]
  cases insertElements C { s.layer with numGhosts := s.layer.numGhosts + t.elements.length } s.currentOffset t.gtreeid
      (C.eclass t.gtreeid) t.elements.length (elementBytes C t) with
  | none => rfl
  | some r =>
    simp only [Option.bind_some, Option.map_some, Option.some.injEq, ParseState.mk.injEq, and_true, true_and]
    rw [← length_elementBytes hC, addPadding_add (by simp only [List.length_append]; omega)]
    simp only [List.length_append, length_pad]
    omega

/-- The state after some trees of a message. -/
def insertTrees (C : Codec T) : List (RemoteTree T) → Nat → ParseState T → Option (ParseState T)
  | [], _, s => some s
  | t :: ts, i, s => do
    let r ← insertTree C s.layer s.currentOffset t
    insertTrees C ts (i + 1) {
      bytesRead := s.bytesRead + (block C t).length
      layer := r.1
      currentOffset := s.currentOffset + t.elements.length
      firstTree := if i = 0 then r.2.1 else s.firstTree
      firstElement := if i = 0 then r.2.2 else s.firstElement }

theorem parseTrees_eq (hC : C.Lawful) : ∀ (ts : List (RemoteTree T)) (pre : List UInt8), pre.length % 8 = 0 →
    (∀ t ∈ ts, t.gtreeid < 2 ^ 64 ∧ t.elements.length < 2 ^ 64) → ∀ (s : ParseState T), s.bytesRead = pre.length → ∀ i,
    (List.range' i ts.length).foldlM (parseTree C (pre ++ ts.flatMap (block C))) s = insertTrees C ts i s
  | [], _, _, _, _, _, _ => rfl
  | t :: ts, pre, hpre, hts, s, hs, i => by
    rw [List.length_cons, List.range'_succ, List.foldlM_cons, insertTrees, List.flatMap_cons, ← List.append_assoc,
      parseTree_eq hC hpre (hts t (by simp)).1 (hts t (by simp)).2 s hs]
    cases insertTree C s.layer s.currentOffset t with
    | none => rfl
    | some r =>
      simp only [Option.map_some, Option.bind_eq_bind, Option.bind_some]
      rw [hs, ← List.length_append]
      exact parseTrees_eq hC ts (pre ++ block C t) (by rw [List.length_append]; have := block_mod (C := C) t; omega)
        (fun t' h' => hts t' (by simp [h'])) _ rfl (i + 1)

theorem insertTrees_bytes : ∀ (ts : List (RemoteTree T)) (i : Nat) (s s' : ParseState T), insertTrees C ts i s = some s' →
    s'.bytesRead = s.bytesRead + (ts.flatMap (block C)).length
  | [], _, s, s', h => by rw [← Option.some.inj h]; simp
  | t :: ts, i, s, s', h => by
    rw [insertTrees] at h
    cases hr : insertTree C s.layer s.currentOffset t with
    | none => rw [hr] at h; cases h
    | some r =>
      rw [hr] at h
      rw [insertTrees_bytes ts (i + 1) _ s' h, List.flatMap_cons, List.length_append]
      simp only
      omega

/-- A message whose number of bytes is an `int` can be read. -/
structure Fits (C : Codec T) (trees : List (RemoteTree T)) : Prop where
  ids : ∀ t ∈ trees, t.gtreeid < 2 ^ 63
  bytes : numBytes C trees < 2 ^ 31

theorem length_le_flatMap {α β : Type} {f : α → List β} {l : List α} (h : ∀ a ∈ l, f a ≠ []) : l.length ≤ (l.flatMap f).length := by
  induction l with
  | nil => simp
  | cons a l ih =>
    rw [List.flatMap_cons, List.length_append, List.length_cons]
    have h1 := List.length_pos_iff.2 (h a (by simp))
    have h2 := ih (fun b hb => h b (by simp [hb]))
    omega

theorem Fits.lengths (hC : C.Lawful) {trees : List (RemoteTree T)} (h : Fits C trees) : trees.length < 2 ^ 31 ∧
    ∀ t ∈ trees, t.gtreeid < 2 ^ 64 ∧ t.elements.length < 2 ^ 64 := by
  have hb := h.bytes
  rw [numBytes_eq hC, messageOf, List.length_append] at hb
  constructor
  · have := length_le_flatMap (f := block C) (l := trees) (fun t _ hc => by
      have : (block C t).length = 0 := by rw [hc]; rfl
      simp only [block, List.length_append, length_pad, length_toBytes, sizeofGloidx] at this
      omega)
    omega
  · intro t ht
    refine ⟨(h.ids t ht).trans (by decide), ?_⟩
    have h1 : (block C t).length ≤ (trees.flatMap (block C)).length := by
      obtain ⟨a, b, rfl⟩ := List.append_of_mem ht
      rw [List.flatMap_append, List.flatMap_cons, List.length_append, List.length_append]
      omega
    have h2 : (elementBytes C t).length ≤ (block C t).length := by
      simp only [block, List.length_append, length_pad]
      omega
    rw [length_elementBytes hC] at h2
    have := Nat.mul_le_mul_left t.elements.length (hC.size t.gtreeid)
    omega

theorem toLocidx_eq {n : Nat} (h : n < 2 ^ 31) : toLocidx n = n := by
  unfold toLocidx
  rw [Int.bmod_def]
  split <;> omega

theorem readCount {trees : List (RemoteTree T)} (h1 : trees.length < 2 ^ 31) :
    readPadded (messageOf C trees) 0 sizeofSize = some (trees.length, (pad (toBytes sizeofSize trees.length)).length) := by
  have h0 := readPadded_eq (pre := []) (post := trees.flatMap (block C)) rfl (k := sizeofSize) (n := trees.length)
    (by rw [show sizeofSize = 8 from rfl]; omega)
  rw [List.nil_append, List.length_nil, ← messageOf] at h0
  exact h0

/-- The part of `parseMessage` after the number of trees is read. -/
def parseRest (C : Codec T) (L : Layer T) (currentOffset : Nat) (recvRank : Int) (buffer : List UInt8) (numTrees n : Nat) :
    Option (Layer T × Nat) := do
  let s ← (List.range numTrees).foldlM (parseTree C buffer) ⟨n, L, currentOffset, 0, 0⟩
  assertO (s.bytesRead = buffer.length)
  assertO (s.layer.processOffsets.all (fun e => e.rank ≠ recvRank))
  return ({ s.layer with processOffsets := s.layer.processOffsets ++ [⟨recvRank, L.numGhosts, s.firstTree, s.firstElement⟩] },
    s.currentOffset)

theorem parseMessage_rest (L : Layer T) (offset : Nat) (rank : Int) (buffer : List UInt8) :
    parseMessage C L offset rank buffer = (readPadded buffer 0 sizeofSize).bind (fun r =>
      parseRest C L offset rank buffer (toLocidx r.1).toNat r.2) := rfl

theorem parseMessage_eq (hC : C.Lawful) {trees : List (RemoteTree T)} (h : Fits C trees) (L : Layer T) (offset : Nat) (rank : Int) :
    parseMessage C L offset rank (messageOf C trees) = (do
      let s ← insertTrees C trees 0 ⟨(pad (toBytes sizeofSize trees.length)).length, L, offset, 0, 0⟩
      assertO (s.layer.processOffsets.all (fun e => e.rank ≠ rank))
      return ({ s.layer with processOffsets := s.layer.processOffsets ++ [⟨rank, L.numGhosts, s.firstTree, s.firstElement⟩] },
        s.currentOffset)) := by
  obtain ⟨h1, h2⟩ := h.lengths hC
  have h3 := parseTrees_eq hC trees (pad (toBytes sizeofSize trees.length)) (pad_mod _) h2
    ⟨(pad (toBytes sizeofSize trees.length)).length, L, offset, 0, 0⟩ rfl 0
  rw [← messageOf, ← List.range_eq_range'] at h3
  have hr : (toLocidx trees.length).toNat = trees.length := by
    rw [toLocidx_eq h1, Int.toNat_natCast]
  rw [parseMessage_rest, readCount h1, Option.bind_some]
  show parseRest C L offset rank (messageOf C trees) (toLocidx trees.length).toNat _ = _
  rw [hr, parseRest, h3]
  have hlen : (messageOf C trees).length = (pad (toBytes sizeofSize trees.length)).length + (trees.flatMap (block C)).length := by
    rw [messageOf, List.length_append]
  generalize (pad (toBytes sizeofSize trees.length)).length = N at hlen ⊢
  simp only [Option.bind_eq_bind]
  cases hs : insertTrees C trees 0 ⟨N, L, offset, 0, 0⟩ with
  | none => rfl
  | some s =>
    simp only [Option.bind_some]
    rw [assertO_true (by rw [insertTrees_bytes _ _ _ _ hs, hlen])]
    rfl

end T8.Ghost
