/-
Model of the repartition of a forest: src/t8_forest/t8_forest_partition.cxx, from `t8_forest_partition_owner_of_element` on.

An element is the byte block of its struct; an element array is a list of such blocks. A message carries the number of
trees, the tree infos and the bytes of the elements; the bytes of the first two parts and the padding between them are not
modelled. `T8_ALLOC`ed bytes are 0. Local indices are integers without bound (`t8_locidx_t`, `int` and `size_t` in the code).
A collective call is described by what all processes do: `inbox` is what the others have sent. Profiling and freeing memory
are left out.
-/
import Verif.Model.CmeshOffset

namespace T8.Partition
open T8.Offset

/-- The bytes of an element struct. -/
abbrev Bytes := List UInt8

/-- `t8_tree_struct`, src/t8_forest/t8_forest_types.h: the parts that partition uses. -/
structure Tree where
  eclass : Nat
  elementsOffset : Int
  leaves : List Bytes

/-- The part of a forest that is stored by a process. -/
structure Forest where
  firstLocalTree : Int
  lastLocalTree : Int
  trees : List Tree
  localNum : Int

/-- `t8_forest_partition_tree_info_t`, t8_forest_partition.cxx:42-47. -/
structure Info where
  gtree : Int
  eclass : Nat
  numElements : Int

/-- A send buffer, t8_forest_partition.cxx:736. -/
structure Message where
  numTrees : Int
  infos : List Info
  bytes : Bytes

/-- `memcpy` of `src` to position `pos` of a buffer. -/
def memcpy (buf : Bytes) (pos : Nat) (src : Bytes) : Option Bytes :=
  if pos + src.length ≤ buf.length then some (buf.take pos ++ src ++ buf.drop (pos + src.length)) else none

/-- `num` structs of `size` bytes in a row, as an array. -/
def chunks (size : Nat) : (num : Nat) → Bytes → List Bytes
  | 0, _ => []
  | num + 1, bytes => bytes.take size :: chunks size num (bytes.drop size)

/-! ### Who sends to whom -/

/-- `t8_forest_partition_owner_of_element`, t8_forest_partition.cxx:622-630. -/
def ownerOfElement (mpisize mpirank gelement : Int) (offset : List Int) : Option Int :=
  anyOwnerExt mpisize mpirank gelement offset

/-- `t8_forest_partition_recvrange`, t8_forest_partition.cxx:633-656. -/
def recvRange (mpisize mpirank : Int) (offOld offNew : List Int) : Option (Int × Int) := do
  let first ← rd offNew mpirank
  let next ← rd offNew (mpirank + 1)
  let last := next - 1
  if last < first then some (0, -1)
  else do
    let a ← ownerOfElement mpisize mpirank first offOld
    let b ← ownerOfElement mpisize mpirank last offOld
    some (a, b)

/-- `t8_forest_partition_sendrange`, t8_forest_partition.cxx:659-687. -/
def sendRange (mpisize mpirank localNum : Int) (offOld offNew : List Int) : Option (Int × Int) := do
  if localNum = 0 then some (0, -1)
  else do
    let first ← rd offOld mpirank
    let next ← rd offOld (mpirank + 1)
    let last := next - 1
    let a ← ownerOfElement mpisize mpirank first offNew
    let b ← ownerOfElement mpisize mpirank last offNew
    some (a, b)

/-- `t8_forest_partition_empty`, t8_forest_partition.cxx:64-71. -/
def emptyRank (offset : List Int) (rank : Int) : Option Bool := do
  let a ← rd offset rank
  let b ← rd offset (rank + 1)
  some (decide (a ≥ b))

/-! ### Sending -/

/-- `t8_forest_partition_tree_first_last_el`, t8_forest_partition.cxx:695-727. -/
def treeFirstLast (tree : Tree) (treeId firstSend lastSend currentTree : Int) : Int × Int × Bool :=
  let num : Int := tree.leaves.length
  (if treeId = currentTree then firstSend - tree.elementsOffset else 0,
   if tree.elementsOffset + num > lastSend then lastSend - tree.elementsOffset else num - 1,
   decide (lastSend - tree.elementsOffset = num - 1))

/-- The variables of the first loop of `t8_forest_partition_fill_buffer`. -/
structure FillState where
  currentElement : Int
  treeId : Int
  numTrees : Int
  elementAlloc : Int
  lastIsLast : Bool

/-- The body of the first loop of `t8_forest_partition_fill_buffer`, t8_forest_partition.cxx:764-781. `size` is the size of the
element struct of a class. -/
def fillCountBody (size : Nat → Nat) (f : Forest) (currentTree firstSend lastSend : Int) (s : FillState) :
    Option FillState := do
  let tree ← rd f.trees s.treeId
  let (a, b, l) := treeFirstLast tree s.treeId firstSend lastSend currentTree
  let num := b - a + 1
  assertO (0 ≤ num)
  some ⟨s.currentElement + num, s.treeId + 1, s.numTrees + 1, s.elementAlloc + num * size tree.eclass, l⟩

/-- The second loop of `t8_forest_partition_fill_buffer`, t8_forest_partition.cxx:803-827; `left` is
`num_trees_send - tree_id`. The result is the infos and the bytes of the elements. -/
def fillTrees (size : Nat → Nat) (f : Forest) (currentTree firstSend lastSend : Int) :
    (left : Nat) → (treeId elementPos : Int) → Bytes → Option (List Info × Bytes)
  | 0, _, _, buf => some ([], buf)
  | left + 1, treeId, elementPos, buf => do
    let tree ← rd f.trees (treeId + currentTree)
    let (a, b, _) := treeFirstLast tree (treeId + currentTree) firstSend lastSend currentTree
    let num := b - a + 1
    assertO (0 ≤ num)
    let info : Info := ⟨treeId + currentTree + f.firstLocalTree, tree.eclass, num⟩
    if 0 < num then do
      -- the elements are read from the array of the tree
      assertO (0 ≤ a ∧ a + num ≤ tree.leaves.length)
      let src := ((tree.leaves.drop a.toNat).take num.toNat).flatten
      let buf ← memcpy buf elementPos.toNat src
      let (infos, buf) ← fillTrees size f currentTree firstSend lastSend left (treeId + 1)
        (elementPos + num * size tree.eclass) buf
      some (info :: infos, buf)
    else do
      let (infos, buf) ← fillTrees size f currentTree firstSend lastSend left (treeId + 1) elementPos buf
      some (info :: infos, buf)

/-- `t8_forest_partition_fill_buffer`, t8_forest_partition.cxx:740-830: the message and the new `current_tree`. Positions in the
buffer are relative to the first element. -/
def fillBuffer (size : Nat → Nat) (f : Forest) (currentTree firstSend lastSend : Int) : Option (Message × Int) := do
  let s ← whileO (fun s : FillState => some (decide (s.currentElement ≤ lastSend)))
    (fillCountBody size f currentTree firstSend lastSend) ⟨firstSend, currentTree, 0, 0, false⟩
  let buf := List.replicate s.elementAlloc.toNat (0 : UInt8)
  let (infos, buf) ← fillTrees size f currentTree firstSend lastSend s.numTrees.toNat 0 0 buf
  some (⟨s.numTrees, infos, buf⟩, currentTree + (s.numTrees - 1 + if s.lastIsLast then 1 else 0))

/-- `t8_forest_partition_fill_buffer_data`, t8_forest_partition.cxx:839-871. `data` is the array of the local elements' data as
bytes, `elemSize` the size of an entry. (The padding of the buffer is not sent.) -/
def fillBufferData (elemSize : Nat) (data : Bytes) (firstSend lastSend : Int) : Option Bytes := do
  let alloc := (lastSend - firstSend + 1) * elemSize
  assertO (0 ≤ alloc ∧ 0 ≤ firstSend ∧ firstSend * elemSize + alloc ≤ data.length)
  some ((data.drop (firstSend * elemSize).toNat).take alloc.toNat)

/-- The loop of `t8_forest_partition_sendloop`, t8_forest_partition.cxx:924-997; `left` is `send_last - iproc + 1`. `fill` is one
of the two functions above. The result is the list of messages with their receivers; a message of a process to
itself is not sent but kept. -/
def sendLoop {M : Type} (fill : Int → Int → Int → Option (M × Int)) (localNum gfirstLocal : Int) (offNew : List Int)
    (sendFirst sendLast : Int) : (left : Nat) → (iproc currentTree : Int) → Option (List (Int × M))
  | 0, _, _ => some []
  | left + 1, iproc, currentTree => do
    let firstSend ← (if iproc = sendFirst then some 0 else (rd offNew iproc).map (· - gfirstLocal))
    let currentTree := if iproc = sendFirst then 0 else currentTree
    let lastSend ← (if iproc = sendLast then some (localNum - 1)
      else (rd offNew (iproc + 1)).map (· - 1 - gfirstLocal))
    if 0 < lastSend - firstSend + 1 then do
      let (msg, currentTree) ← fill currentTree firstSend lastSend
      let rest ← sendLoop fill localNum gfirstLocal offNew sendFirst sendLast left (iproc + 1) currentTree
      some ((iproc, msg) :: rest)
    else sendLoop fill localNum gfirstLocal offNew sendFirst sendLast left (iproc + 1) currentTree

/-- The sending part of `t8_forest_partition_given`, t8_forest_partition.cxx:1273-1288. -/
def sends {M : Type} (fill : Int → Int → Int → Option (M × Int)) (mpisize mpirank localNum : Int) (offOld offNew : List Int) :
    Option (List (Int × M)) := do
  let (a, b) ← sendRange mpisize mpirank localNum offOld offNew
  assertO (0 ≤ b - a + 1)
  let g ← rd offOld mpirank
  sendLoop fill localNum g offNew a b (b - a + 1).toNat a 0

/-! ### Receiving -/

/-- The loop over the trees of `t8_forest_partition_recv_message`, t8_forest_partition.cxx:1124-1188; `left` is
`num_trees - itree`. -/
def recvTrees (size : Nat → Nat) (msg : Message) : (left : Nat) → (itree : Nat) → (elementCursor elementSize : Nat) → Forest →
    Option Forest
  | 0, _, _, _, f => some f
  | left + 1, itree, elementCursor, elementSize, f => do
    let info ← msg.infos[itree]?
    assertO (info.gtree ≥ f.lastLocalTree)
    let (f, elementSize) ← (if info.gtree > f.lastLocalTree then do
        -- a new tree
        let off ← (if f.lastLocalTree ≥ f.firstLocalTree then do
            let t ← f.trees.getLast?
            some (t.elementsOffset + t.leaves.length)
          else some 0)
        let sz := size info.eclass
        assertO (elementCursor + info.numElements.toNat * sz ≤ msg.bytes.length)
        let tree : Tree := ⟨info.eclass, off, chunks sz info.numElements.toNat (msg.bytes.drop elementCursor)⟩
        some ({ f with trees := f.trees ++ [tree] }, sz)
      else do
        assertO (itree = 0)
        -- append to a tree that is already present
        let tree ← rd f.trees (f.lastLocalTree - f.firstLocalTree)
        assertO (tree.eclass = info.eclass)
        if 0 < info.numElements then do
          let sz := size tree.eclass
          assertO (elementCursor + info.numElements.toNat * sz ≤ msg.bytes.length)
          let tree := { tree with
            leaves := tree.leaves ++ chunks sz info.numElements.toNat (msg.bytes.drop elementCursor) }
          some ({ f with trees := f.trees.set (f.lastLocalTree - f.firstLocalTree).toNat tree }, sz)
        else some (f, elementSize))
    let f := { f with localNum := f.localNum + info.numElements, lastLocalTree := info.gtree }
    recvTrees size msg left (itree + 1) (elementCursor + elementSize * info.numElements.toNat) elementSize f

/-- `t8_forest_partition_recv_message`, t8_forest_partition.cxx:1062-1200. -/
def recvMessage (size : Nat → Nat) (prevRecvd : Nat) (msg : Message) (f : Forest) : Option Forest := do
  let info ← msg.infos[0]?
  let f := if prevRecvd = 0 then { f with firstLocalTree := info.gtree, lastLocalTree := info.gtree - 1 } else f
  recvTrees size msg msg.numTrees.toNat 0 0 0 f

/-- `t8_forest_partition_recv_message_data`, t8_forest_partition.cxx:1001-1049, on the pair of `data_out` and
`last_loc_elem_recvd`. -/
def recvMessageData (elemSize : Nat) (msg : Bytes) : Bytes × Nat → Option (Bytes × Nat)
  | (out, lastRecvd) => do
    let out ← memcpy out (elemSize * lastRecvd) msg
    assertO (msg.length % elemSize = 0)
    some (out, lastRecvd + msg.length / elemSize)

/-- The loop of `t8_forest_partition_recvloop`, t8_forest_partition.cxx:1237-1265; `left` is `recv_last - iproc + 1`, `recv` one of
the two functions above. `none` as the content of the inbox means that the receive blocks forever. -/
def recvLoop {M R : Type} (recv : Nat → M → R → Option R) (inbox : Int → Option M) (offOld : List Int) :
    (left : Nat) → (iproc : Int) → (prevRecvd : Nat) → R → Option R
  | 0, _, _, r => some r
  | left + 1, iproc, prevRecvd, r => do
    let e ← emptyRank offOld iproc
    if e then recvLoop recv inbox offOld left (iproc + 1) prevRecvd r
    else do
      let msg ← inbox iproc
      let r ← recv prevRecvd msg r
      recvLoop recv inbox offOld left (iproc + 1) (prevRecvd + 1) r

/-- The processes from which a process expects a message (`t8_forest_partition_recvloop`). -/
def expects (offOld : List Int) : (left : Nat) → (iproc : Int) → Option (List Int)
  | 0, _ => some []
  | left + 1, iproc => do
    let e ← emptyRank offOld iproc
    let rest ← expects offOld left (iproc + 1)
    some (if e then rest else iproc :: rest)

/-- The processes from which `t8_forest_partition_given`, t8_forest_partition.cxx:1290-1315, receives. -/
def awaits (mpisize mpirank : Int) (offOld offNew : List Int) : Option (List Int) := do
  let a ← rd offNew mpirank
  let b ← rd offNew (mpirank + 1)
  if 0 < b - a then do
    let (r, s) ← recvRange mpisize mpirank offOld offNew
    expects offOld (s - r + 1).toNat r
  else some []

/-- The message that a process finds from `src`: the one that `src` has posted for it. -/
def inboxOf {M : Type} (sent : Int → Option (List (Int × M))) (mpirank src : Int) : Option M := do
  let l ← sent src
  l.lookup mpirank

/-- `t8_forest_partition_given`, t8_forest_partition.cxx:1268-1330, for elements. `forests` are the local parts of `set_from` of all
processes. The new forest of `mpirank` results. -/
def partitionGiven (size : Nat → Nat) (mpisize : Int) (forests : Int → Forest) (offOld offNew : List Int) (mpirank : Int) :
    Option Forest := do
  let sent := fun p => sends (fillBuffer size (forests p)) mpisize p (forests p).localNum offOld offNew
  -- this process sends before it receives
  let _ ← sent mpirank
  let a ← rd offNew mpirank
  let b ← rd offNew (mpirank + 1)
  if 0 < b - a then do
    let (r, s) ← recvRange mpisize mpirank offOld offNew
    recvLoop (recvMessage size) (inboxOf sent mpirank) offOld (s - r + 1).toNat r 0 ⟨0, -1, [], 0⟩
  else some ⟨0, -1, [], 0⟩

/-- `t8_forest_partition_data`, t8_forest_partition.cxx:1401-1440 (with `t8_forest_partition_given` in data mode): the array
`data_out` of `mpirank`. `localNum`, `localNumTo` are the numbers of local elements of the two forests. -/
def partitionData (elemSize : Nat) (mpisize : Int) (localNum localNumTo : Int → Int) (offOld offNew : List Int)
    (data : Int → Bytes) (out : Bytes) (mpirank : Int) : Option Bytes := do
  let sent := fun p => sends (fun ct a b => (fillBufferData elemSize (data p) a b).map (·, ct)) mpisize p (localNum p) offOld offNew
  let _ ← sent mpirank
  if 0 < localNumTo mpirank then do
    let (r, s) ← recvRange mpisize mpirank offOld offNew
    let (out, _) ← recvLoop (fun _ m st => recvMessageData elemSize m st) (inboxOf sent mpirank) offOld (s - r + 1).toNat r 0 (out, 0)
    some out
  else some out

end T8.Partition
