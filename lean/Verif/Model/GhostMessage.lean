/-
Model of the second phase of the creation of a ghost layer: the messages with the elements, src/t8_forest/t8_forest_ghost.cxx:923-1503.

Messages are lists of bytes. Numbers are stored in little-endian order; it only matters that all processes use the same order. The counters
`t8_locidx_t` are natural numbers here: they are assumed not to overflow. Only the number of trees of a message is converted, because the
library stores it with another size than it was sent with. Memory management is not modelled.

MPI is not modelled either, but what the model needs from it is an argument: the list of the messages that arrive at a process.
-/
import Verif.Model.Ghost

namespace T8.Ghost
open T8.RTree

variable {T : Nat → RTree}

/-! ### Bytes -/

/-- A number as `k` bytes. -/
def toBytes : (k n : Nat) → List UInt8
  | 0, _ => []
  | k + 1, n => UInt8.ofNat n :: toBytes k (n / 256)

/-- The number that is stored in some bytes. -/
def ofBytes : List UInt8 → Nat
  | [] => 0
  | b :: bs => b.toNat + 256 * ofBytes bs

/-- `sizeof (size_t)`, `sizeof (t8_gloidx_t)`, `sizeof (t8_eclass_t)`. -/
def sizeofSize : Nat := 8
def sizeofGloidx : Nat := 8
def sizeofEclass : Nat := 4

/-- `T8_ADD_PADDING`, src/t8.h:133-136; the padding size is that of a pointer. -/
def addPadding (x : Nat) : Nat := (8 - x % 8) % 8

/-- `memcpy` into a buffer at an offset. -/
def memcpy (buffer : List UInt8) (offset : Nat) (bytes : List UInt8) : Option (List UInt8) :=
  if offset + bytes.length ≤ buffer.length then some (buffer.take offset ++ bytes ++ buffer.drop (offset + bytes.length)) else none

/-- Read `n` bytes of a buffer. -/
def readBytes (buffer : List UInt8) (offset n : Nat) : Option (List UInt8) :=
  if offset + n ≤ buffer.length then some ((buffer.drop offset).take n) else none

/-- How elements are stored in memory. -/
structure Codec (T : Nat → RTree) where
  /-- The class of a tree, as a number. -/
  eclass : Nat → Nat
  /-- `get_element_size` -/
  size : Nat → Nat
  /-- The bytes of an element of a tree. -/
  encode : (g : Nat) → (T g).E → List UInt8
  /-- The element that is stored in some bytes. -/
  decode : (g : Nat) → List UInt8 → (T g).E

variable (C : Codec T)

/-! ### Sending -/

/-- The loop that counts the bytes of a message, t8_forest_ghost.cxx:976-997. -/
def countTree (numBytes : Nat) (t : RemoteTree T) : Nat :=
  let n := numBytes + sizeofGloidx
  let n := n + addPadding n
  let n := n + sizeofEclass
  let n := n + addPadding n
  let elementBytes := C.size (C.eclass t.gtreeid) * t.elements.length
  let n := n + sizeofSize
  let n := n + addPadding n
  let n := n + elementBytes
  n + addPadding n

/-- `num_bytes`, t8_forest_ghost.cxx:967-997. -/
def numBytes (trees : List (RemoteTree T)) : Nat :=
  let n := 0 + sizeofSize
  let n := n + addPadding n
  trees.foldl (countTree C) n

/-- Copy to the buffer and advance, with padding. -/
def writePadded (s : List UInt8 × Nat) (bytes : List UInt8) : Option (List UInt8 × Nat) := do
  let buffer ← memcpy s.1 s.2 bytes
  let n := s.2 + bytes.length
  return (buffer, n + addPadding n)

/-- The body of the loop that writes a message, t8_forest_ghost.cxx:1010-1037. The data of an element array are the bytes of its
elements. -/
def writeTree (s : List UInt8 × Nat) (t : RemoteTree T) : Option (List UInt8 × Nat) := do
  let s ← writePadded s (toBytes sizeofGloidx t.gtreeid)
  let s ← writePadded s (toBytes sizeofEclass (C.eclass t.gtreeid))
  let s ← writePadded s (toBytes sizeofSize t.elements.length)
  writePadded s (t.elements.flatMap (fun x => C.encode t.gtreeid x.1))

/-- The message for one process, t8_forest_ghost.cxx:958-1039: the buffer. -/
def message (trees : List (RemoteTree T)) : Option (List UInt8) := do
  let buffer := List.replicate (numBytes C trees) 0
  let s ← writePadded (buffer, 0) (toBytes sizeofSize trees.length)
  let s ← trees.foldlM (writeTree C) s
  assertO (s.2 = numBytes C trees)
  return s.1

/-- `t8_forest_ghost_send_start`, t8_forest_ghost.cxx:930-1044: the messages with the processes that they are sent to. -/
def sendStart (G : Remotes T) : Option (List (Int × List UInt8)) :=
  G.processes.mapM (fun rank => do
    let r ← G.ghosts.find? (fun r => r.rank = rank)
    let m ← message C r.trees
    return (rank, m))

/-! ### Receiving -/

/-- `t8_ghost_tree_t`, t8_forest_ghost.cxx:54-60. -/
structure GhostTree (T : Nat → RTree) where
  gtreeid : Nat
  eclass : Nat
  offset : Nat
  elements : List (T gtreeid).E

/-- `t8_ghost_process_hash_t`, t8_forest_ghost.cxx:74-80. -/
structure ProcessOffset where
  rank : Int
  ghostOffset : Nat
  treeIndex : Nat
  firstElement : Nat

/-- The members `ghost_trees`, `global_tree_to_ghost_tree`, `process_offsets` and `num_ghosts_elements` of `t8_forest_ghost`. The hash tables
are lists of their entries. -/
structure Layer (T : Nat → RTree) where
  trees : List (GhostTree T)
  treeHash : List (Nat × Nat)
  processOffsets : List ProcessOffset
  numGhosts : Nat

/-- The variables that change while a message is read: `bytes_read`, the ghost structure, `current_element_offset`,
`first_tree_index` and `first_element_index`. -/
structure ParseState (T : Nat → RTree) where
  bytesRead : Nat
  layer : Layer T
  currentOffset : Nat
  firstTree : Nat
  firstElement : Nat

/-- Read a number of `k` bytes and skip the padding behind it. -/
def readPadded (buffer : List UInt8) (bytesRead k : Nat) : Option (Nat × Nat) := do
  let bytes ← readBytes buffer bytesRead k
  let n := bytesRead + k
  return (ofBytes bytes, n + addPadding n)

/-- The elements in the bytes of an element array. -/
def decodeElements (g size : Nat) : (n : Nat) → List UInt8 → List (T g).E
  | 0, _ => []
  | n + 1, bytes => C.decode g (bytes.take size) :: decodeElements g size n (bytes.drop size)

/-- Insert elements into the ghost trees, t8_forest_ghost.cxx:1184-1223: the tree is added if it is not there already. The new ghost structure,
the index of the tree and the number of elements that it had before. -/
def insertElements (L : Layer T) (currentOffset gtreeid eclass numElements : Nat) (bytes : List UInt8) : Option (Layer T × Nat × Nat) :=
  match L.treeHash.find? (fun e => e.1 = gtreeid) with
  | none =>
    let index := L.trees.length
    some ({ L with
      trees := L.trees ++ [⟨gtreeid, eclass, currentOffset, decodeElements C gtreeid (C.size eclass) numElements bytes⟩],
      treeHash := L.treeHash ++ [(gtreeid, index)] }, index, 0)
  | some (_, index) => do
    let t ← L.trees[index]?
    assertO (t.eclass = eclass)
    assertO (t.gtreeid = gtreeid)
    return ({ L with
      trees := L.trees.set index { t with
        elements := t.elements ++ decodeElements C t.gtreeid (C.size eclass) numElements bytes } }, index, t.elements.length)

/-- The body of the loop over the trees of a message, t8_forest_ghost.cxx:1155-1242. -/
def parseTree (buffer : List UInt8) (s : ParseState T) (itree : Nat) : Option (ParseState T) := do
  let (globalId, n) ← readPadded buffer s.bytesRead sizeofGloidx
  let (eclass, n) ← readPadded buffer n sizeofEclass
  let (numElements, n) ← readPadded buffer n sizeofSize
  let layer := { s.layer with numGhosts := s.layer.numGhosts + numElements }
  let bytes ← readBytes buffer n (numElements * C.size eclass)
  let (layer, index, oldCount) ← insertElements C layer s.currentOffset globalId eclass numElements bytes
  let n := n + numElements * C.size eclass
  return {
    bytesRead := n + addPadding n
    layer := layer
    currentOffset := s.currentOffset + numElements
    firstTree := if itree = 0 then index else s.firstTree
    firstElement := if itree = 0 then oldCount else s.firstElement }

/-- The conversion of `size_t` to `t8_locidx_t`. -/
def toLocidx (n : Nat) : Int := (n : Int).bmod (2 ^ 32)

/-- `t8_forest_ghost_parse_received_message`, t8_forest_ghost.cxx:1126-1261: the new ghost structure and `current_element_offset`. -/
def parseMessage (L : Layer T) (currentOffset : Nat) (recvRank : Int) (buffer : List UInt8) : Option (Layer T × Nat) := do
  let (numTrees, n) ← readPadded buffer 0 sizeofSize
  let ghostsOffset := L.numGhosts
  let s ← (List.range (toLocidx numTrees).toNat).foldlM (parseTree C buffer) ⟨n, L, currentOffset, 0, 0⟩
  assertO (s.bytesRead = buffer.length)
  assertO (s.layer.processOffsets.all (fun e => e.rank ≠ recvRank))
  return ({ s.layer with processOffsets := s.layer.processOffsets ++ [⟨recvRank, ghostsOffset, s.firstTree, s.firstElement⟩] },
    s.currentOffset)

/-- The variables of `t8_forest_ghost_receive`: the buffers, `none` if nothing was received, the number of the messages that are
parsed, the ghost structure and `current_element_offset`. -/
structure RecvState (T : Nat → RTree) where
  buffers : List (Option (List UInt8))
  parsed : Nat
  layer : Layer T
  currentOffset : Nat

/-- The loop that parses messages in the order of the ranks, t8_forest_ghost.cxx:1438-1444. There are `fuel` messages at most. -/
def parseReceived (remotes : List Int) : (fuel : Nat) → RecvState T → Option (RecvState T)
  | 0, s => some s
  | fuel + 1, s =>
    match s.buffers[s.parsed]? with
    | some (some buffer) => do
      let rank ← remotes[s.parsed]?
      let (layer, offset) ← parseMessage C s.layer s.currentOffset rank buffer
      parseReceived remotes fuel { s with parsed := s.parsed + 1, layer := layer, currentOffset := offset }
    | _ => some s

/-- A message arrives, t8_forest_ghost.cxx:1396-1444. -/
def arrive (remotes : List Int) (s : RecvState T) (m : Int × List UInt8) : Option (RecvState T) := do
  let pos ← remotes.findIdx? (fun r => r = m.1)
  assertO (s.buffers[pos]? = some none)
  assertO (s.parsed ≤ pos)
  parseReceived C remotes remotes.length { s with buffers := s.buffers.set pos (some m.2) }

/-- `t8_forest_ghost_receive`, t8_forest_ghost.cxx:1300-1503, for the messages in the order in which they arrive: the ghost structure and the
sorted array `remote_processes`. If there are fewer messages than expected, then the program waits forever. -/
def receive (G : Remotes T) (arrivals : List (Int × List UInt8)) : Option (Layer T × Remotes T) :=
  if G.processes.length = 0 then some (⟨[], [], [], 0⟩, G)
  else do
    let remotes := G.processes.mergeSort (fun a b => decide (a ≤ b))
    assertO (remotes.length ≤ arrivals.length)
    let s ← (arrivals.take remotes.length).foldlM (arrive C remotes)
      ⟨List.replicate remotes.length none, 0, ⟨[], [], [], 0⟩, 0⟩
    assertO (s.parsed = remotes.length)
    return (s.layer, { G with processes := remotes })

/-- The messages that arrive at process `p` if process `q` sends the messages `msgs q`. -/
def delivered {α : Type} (P : Nat) (msgs : Nat → List (Int × List α)) (p : Nat) : List (Int × List α) :=
  (List.range P).flatMap (fun q : Nat => ((msgs q).filter (fun m => decide (m.1 = (p : Int)))).map (fun m => ((q : Int), m.2)))

end T8.Ghost
