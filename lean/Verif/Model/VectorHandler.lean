/-
Model of `t8_vector_handler`, src/t8_data/t8_vector_handler.hxx.

A message buffer is a list of bytes, a position in it is a natural number. `MPI_Pack`/`MPI_Unpack` of one
`MPI_INT` write and read four bytes and `MPI_Pack_size` of one `MPI_INT` is 4 (the representation used by common MPI
libraries on homogeneous machines). The specialisations of `t8_data_handler` are supplied by the user; they
are an arbitrary structure `Item`. `int` arithmetic is exact (an overflow would be undefined behaviour).
-/
import Verif.Model.Loop
import Mathlib.Data.List.Basic

namespace T8.VectorHandler

abbrev Byte := BitVec 8

/-- `t8_data_handler`, src/t8_data/t8_data_handler.hxx:57-113, for items of type `α`. `pack` gives the bytes that are
written at the current position; `unpack` reads from the current position on, it may use the old value of the
item, and returns the number of bytes it has consumed. -/
structure Item (α : Type) where
  size : α → Nat
  pack : α → List Byte
  unpack : α → List Byte → Option (α × Nat)

/-- The memory `buffer` after writing `bs` at position `pos`; `none` if there is not enough space. -/
def write (buffer : List Byte) (pos : Nat) (bs : List Byte) : Option (List Byte) :=
  if pos + bs.length ≤ buffer.length then some (buffer.take pos ++ bs ++ buffer.drop (pos + bs.length)) else none

/-- The four bytes of an `int`. -/
def intBytes (v : BitVec 32) : List Byte :=
  [v.extractLsb' 0 8, v.extractLsb' 8 8, v.extractLsb' 16 8, v.extractLsb' 24 8]

/-- The `int` stored in four bytes. -/
def bytesInt : List Byte → Option (BitVec 32)
  | a :: b :: c :: d :: _ => some (d ++ c ++ b ++ a)
  | _ => none

variable {α : Type} (H : Item α)

/-- `buffer_size`, t8_vector_handler.hxx:195-207; `m_data` may be a null pointer. -/
def bufferSize (data : Option (List α)) : Nat :=
  4 + match data with
    | some l => l.foldl (fun sum item => sum + H.size item) 0
    | none => 0

/-- `pack_vector_prefix`, t8_vector_handler.hxx:217-226: the buffer and the position afterwards. The number of items is
converted to `int`. `none`: null pointer or buffer overrun. -/
def packVectorPrefix (data : Option (List α)) (buffer : List Byte) (pos : Nat) : Option (List Byte × Nat) := do
  let l ← data
  let buffer ← write buffer pos (intBytes (BitVec.ofNat 32 l.length))
  l.foldlM (fun (s : List Byte × Nat) item => do
    let b ← write s.1 s.2 (H.pack item)
    some (b, s.2 + (H.pack item).length)) (buffer, pos + 4)

/-- The loop over the items of the vector in `unpack_vector_prefix`: each item is replaced by what is unpacked. -/
def unpackItems (buffer : List Byte) : List α → Nat → Option (List α × Nat)
  | [], pos => some ([], pos)
  | old :: rest, pos => do
    let (x, n) ← H.unpack old (buffer.drop pos)
    let (xs, pos) ← unpackItems buffer rest (pos + n)
    some (x :: xs, pos)

/-- `unpack_vector_prefix`, t8_vector_handler.hxx:237-253: `m_data`, `outcount` and the position afterwards. A new or
resized vector has value-initialised items (`default`). -/
def unpackVectorPrefix [Inhabited α] (data : Option (List α)) (buffer : List Byte) (pos : Nat) :
    Option (List α × Int × Nat) := do
  let v ← bytesInt (buffer.drop pos)
  let outcount := v.toInt
  assertO (0 ≤ outcount)
  let vec : List α := match data with
    | none => List.replicate outcount.toNat default
    | some old =>
      -- `clear ()`, then `resize (outcount)`
      let cleared := old.take 0
      cleared ++ List.replicate (outcount.toNat - cleared.length) default
  let (l, pos) ← unpackItems H buffer vec (pos + 4)
  some (l, outcount, pos)

/-- `send`, t8_vector_handler.hxx:266-277: the message. The buffer is a zero initialised `std::vector<char>`. -/
def send (data : Option (List α)) : Option (List Byte) := do
  let (b, _) ← packVectorPrefix H data (List.replicate (bufferSize H data) 0) 0
  some b

/-- `recv`, t8_vector_handler.hxx:291-307, of the message `msg`. -/
def recv [Inhabited α] (data : Option (List α)) (msg : List Byte) : Option (List α × Int) := do
  let (l, n, _) ← unpackVectorPrefix H data msg 0
  some (l, n)

/-- `sendrecv`, t8_vector_handler.hxx:323-361, of two processes that are each other's source and destination. The first
exchange transmits the sizes, the second one the buffers; a receive buffer that is too small makes the second
exchange fail (MPI truncation error, `none`). -/
def sendrecv [Inhabited α] (data0 data1 : Option (List α)) : Option ((List α × Int) × (List α × Int)) := do
  let n0 := bufferSize H data0
  let n1 := bufferSize H data1
  let (b0, _) ← packVectorPrefix H data0 (List.replicate n0 0) 0
  let (b1, _) ← packVectorPrefix H data1 (List.replicate n1 0) 0
  assertO (b1.length ≤ n1 ∧ b0.length ≤ n0)
  let r0 ← recv H data0 b1
  let r1 ← recv H data1 b0
  some (r0, r1)

end T8.VectorHandler
