/-
Model of the stash of an uncommitted coarse mesh, src/t8_cmesh/t8_cmesh_internal/t8_cmesh_stash.c, and of the
placement of tree attributes in the memory of a committed replicated coarse mesh
(t8_cmesh_trees.cxx, t8_cmesh_commit.cxx).

The memory of the (only) part of the committed mesh is a list of bytes; an address is an index into it.
`size_t` values occupy eight bytes, `int` values four, little endian, without padding in
`t8_attribute_info_struct_t` (24 bytes: package_id, key, attribute_offset, attribute_size).
`sc_array_sort` and `sc_array_bsearch` belong to libsc; they are modelled by their documented behaviour.
-/
import Verif.Model.Loop
import Mathlib.Data.List.Basic

namespace T8.Stash

abbrev Byte := BitVec 8

/-- `t8_stash_joinface_struct_t`, t8_cmesh_stash.h:54-62. -/
structure JoinFace where
  id1 : Int
  id2 : Int
  face1 : Int
  face2 : Int
  orientation : Int
  deriving DecidableEq, Repr

/-- `t8_stash_class_struct_t`, t8_cmesh_stash.h:44-48; the class is an arbitrary type. -/
structure ClassEntry (C : Type) where
  id : Int
  eclass : C

/-- `t8_stash_attribute_struct_t`, t8_cmesh_stash.h:65-75, `attr_size` is the length of `data`. -/
structure Attr where
  id : Int
  package : BitVec 32
  key : BitVec 32
  data : List Byte
  deriving DecidableEq, Repr

/-- The record pushed by `t8_stash_add_facejoin`, t8_cmesh_stash.c:120-135. -/
def facejoin (gid1 gid2 face1 face2 orientation : Int) : JoinFace where
  face1 := if gid1 ≤ gid2 then face1 else face2
  face2 := if gid1 ≤ gid2 then face2 else face1
  id1 := if gid1 ≤ gid2 then gid1 else gid2
  id2 := if gid1 ≤ gid2 then gid2 else gid1
  orientation := orientation

/-- `t8_stash_facejoin_compare`, t8_cmesh_stash.c:141-150. -/
def facejoinCompare (j1 j2 : JoinFace) : Int :=
  if j1.id1 < j2.id1 then -1 else if j1.id1 ≠ j2.id1 then 1 else 0

/-- `t8_stash_class_compare`, t8_cmesh_stash.c:87-95. -/
def classCompare {C : Type} (c1 c2 : ClassEntry C) : Int :=
  if c1.id < c2.id then -1 else if c1.id ≠ c2.id then 1 else 0

/-- `t8_stash_class_compare_index`, t8_cmesh_stash.c:105-114. -/
def classCompareIndex {C : Type} (index : Int) (c : ClassEntry C) : Int :=
  if index < c.id then -1 else if index ≠ c.id then 1 else 0

/-- `t8_stash_attribute_compare`, t8_cmesh_stash.c:221-234. -/
def attrCompare (a1 a2 : Attr) : Int :=
  if a1.id = a2.id then
    if a1.package = a2.package then
      if a1.key.toInt < a2.key.toInt then -1 else if a1.key.toInt > a2.key.toInt then 1 else 0
    else if a1.package.toInt < a2.package.toInt then -1 else 1
  else if a1.id < a2.id then -1 else if a1.id > a2.id then 1 else 0

/-- The three operations that add to the stash, and the stash as the three arrays. -/
inductive Op (C : Type) where
  | addClass (id : Int) (c : C)
  | addFacejoin (gid1 gid2 face1 face2 orientation : Int)
  | addAttribute (a : Attr)

/-- `t8_stash_struct_t`, t8_cmesh_stash.h:78-83. -/
structure State (C : Type) where
  classes : List (ClassEntry C)
  joinfaces : List JoinFace
  attributes : List Attr

/-- `t8_stash_add_class` (t8_cmesh_stash.c:72-82), `t8_stash_add_facejoin` (120-135) and `t8_stash_add_attribute`
(161-178): each pushes one record to the end of its array. -/
def step {C : Type} (s : State C) : Op C → State C
  | .addClass id c => { s with classes := s.classes ++ [⟨id, c⟩] }
  | .addFacejoin g1 g2 f1 f2 o => { s with joinfaces := s.joinfaces ++ [facejoin g1 g2 f1 f2 o] }
  | .addAttribute a => { s with attributes := s.attributes ++ [a] }

/-- A sequence of operations, starting with the empty stash of `t8_stash_init` (t8_cmesh_stash.c:32-42). -/
def run {C : Type} (ops : List (Op C)) : State C := ops.foldl step ⟨[], [], []⟩

/-- The documented behaviour of `sc_array_sort` (the C function `qsort`): a permutation, ordered by `cmp`. -/
def IsSortOf {α : Type} (cmp : α → α → Int) (l' l : List α) : Prop :=
  l'.Perm l ∧ l'.Pairwise (fun x y => cmp x y ≤ 0)

/-- The precondition of `sc_array_bsearch` (the C function `bsearch`): first the entries before the key, then those that
match, then those behind it. -/
def Partitioned {κ α : Type} (cmp : κ → α → Int) (key : κ) (l : List α) : Prop :=
  l.Pairwise (fun x y => cmp key y > 0 → cmp key x > 0) ∧ l.Pairwise (fun x y => cmp key y = 0 → 0 ≤ cmp key x)

/-- The documented behaviour of `sc_array_bsearch`: if the precondition holds, the index of some match, or -1
(`none`) if there is no match. -/
def IsBsearch {κ α : Type} (cmp : κ → α → Int) (key : κ) (l : List α) (r : Option Nat) : Prop :=
  Partitioned cmp key l → match r with
    | some i => ∃ x, l[i]? = some x ∧ cmp key x = 0
    | none => ∀ x ∈ l, cmp key x ≠ 0

/-! ### Memory of a committed replicated mesh -/

/-- Little endian representation of a number in `n` bytes. -/
def leBytes : Nat → Nat → List Byte
  | 0, _ => []
  | n + 1, v => BitVec.ofNat 8 v :: leBytes n (v / 256)

/-- The number represented by a list of bytes. -/
def leNat : List Byte → Nat
  | [] => 0
  | b :: bs => b.toNat + 256 * leNat bs

/-- Copy `bs` to address `pos`; `none` if this leaves the allocated memory. -/
def store (mem : List Byte) (pos : Nat) (bs : List Byte) : Option (List Byte) :=
  if pos + bs.length ≤ mem.length then some (mem.take pos ++ bs ++ mem.drop (pos + bs.length)) else none

/-- The `n` bytes at address `pos`; `none` if this leaves the allocated memory. -/
def load (mem : List Byte) (pos n : Nat) : Option (List Byte) :=
  if pos + n ≤ mem.length then some ((mem.drop pos).take n) else none

/-- `sizeof (t8_attribute_info_struct_t)`, t8_cmesh_types.h:221-234. -/
def infoSize : Nat := 24

/-- Subtraction of `size_t` values. -/
def subSize (x y : Nat) : Nat := (x + (2 ^ 64 - y % 2 ^ 64)) % 2 ^ 64

/-- Addition of `size_t` values. -/
def addSize (x y : Nat) : Nat := (x + y) % 2 ^ 64

/-- `tree->num_attributes` as counted in t8_cmesh_commit.cxx:167-175. -/
def numAttributes (attrs : List Attr) (t : Nat) : Nat :=
  (attrs.filter (fun a => decide (a.id = (t : Int)))).length

/-- The address `T8_TREE_FIRST_ATT_INFO (tree)` as set up by `t8_cmesh_trees_finish_part`,
t8_cmesh_trees.cxx:345-361, where `base` is `first_face + face_neigh_bytes`: the address of the tree is
`temp_offset` and its `att_offset` is `base - temp_offset + num_tree_attributes * 24`. -/
def firstInfo (base : Nat) (attrs : List Attr) (t : Nat) : Nat :=
  base + ((List.range t).map (numAttributes attrs)).sum * infoSize

/-- `t8_cmesh_trees_finish_part`, t8_cmesh_trees.cxx:262-416, for `numTrees` trees and no ghosts: the memory that
is allocated (the `base` bytes for the trees and the face connections are not looked at). -/
def finishPart (base numTrees : Nat) (attrs : List Attr) : Option (List Byte) :=
  let num := ((List.range numTrees).map (numAttributes attrs)).sum
  let dataBytes := (attrs.map (fun a => a.data.length)).sum
  let mem := List.replicate (base + num * infoSize + dataBytes) (0 : Byte)
  if 0 < num then store mem (base + 8) (leBytes 8 (num * infoSize)) else some mem

/-- `t8_cmesh_trees_add_attribute`, t8_cmesh_trees.cxx:720-760, where `start` is the address of the first attribute info
of the tree, `num` the number of attributes of the tree and `part->first_tree_id` is 0. -/
def addAttribute (numTrees start num : Nat) (mem : List Byte) (a : Attr) (tree index : Nat) : Option (List Byte) := do
  let info := start + index * infoSize
  let off ← load mem (info + 8) 8
  let mem ← store mem (addSize start (leNat off)) a.data
  let mem ← store mem (info + 4) (leBytes 4 a.key.toNat)
  let mem ← store mem info (leBytes 4 a.package.toNat)
  let mem ← store mem (info + 16) (leBytes 8 a.data.length)
  if ¬ (index + 1 = num ∧ numTrees = tree + 1) then do
    let off ← load mem (info + 8) 8
    let next := info + infoSize
    let mem ← store mem (next + 8) (leBytes 8 (addSize (leNat off) a.data.length))
    if index + 1 = num then do
      let off ← load mem (next + 8) 8
      store mem (next + 8) (leBytes 8 (subSize (leNat off) (num * infoSize)))
    else some mem
  else some mem

/-- One round of the loop in `t8_cmesh_add_attributes`, t8_cmesh_commit.cxx:100-133, for a replicated mesh
(`first_tree` is 0 and there are no ghosts; an attribute of a tree that does not exist violates an assertion). The
state is the memory, `ltree` and `sj`. -/
def addOne (base numTrees : Nat) (attrs : List Attr) (s : List Byte × Int × Nat) (a : Attr) :
    Option (List Byte × Int × Nat) := do
  let (mem, ltree, sj) := s
  let enter := decide (a.id > ltree)
  let sj := if enter then 0 else sj
  let ltree := if enter then a.id else ltree
  assertO (0 ≤ a.id ∧ a.id < numTrees)
  let t := a.id.toNat
  let mem ← addAttribute numTrees (firstInfo base attrs t) (numAttributes attrs t) mem a t sj
  some (mem, ltree, sj + 1)

/-- The attribute part of `t8_cmesh_commit_replicated_new`, t8_cmesh_commit.cxx:137-190: `attrs` is the stash and
`sorted` the stash after `t8_stash_attribute_sort`. -/
def commitAttributes (base numTrees : Nat) (attrs sorted : List Attr) : Option (List Byte) := do
  assertO (∀ a ∈ attrs, 0 ≤ a.id ∧ a.id < (numTrees : Int))
  let mem ← finishPart base numTrees attrs
  let (mem, _, _) ← sorted.foldlM (addOne base numTrees attrs) (mem, (-1 : Int), 0)
  some mem

/-- `t8_cmesh_trees_compare_keyattr`, t8_cmesh_trees.cxx:805-827, the second argument is (package, key) of an info. -/
def compareKeyattr (k x : BitVec 32 × BitVec 32) : Int :=
  if k.1.toInt < x.1.toInt then -1
  else if k.1.toInt > x.1.toInt then 1
  else if k.2.toInt < x.2.toInt then -1 else if k.2 ≠ x.2 then 1 else 0

/-- (package, key) of the attribute info at an address. -/
def infoKey (mem : List Byte) (info : Nat) : Option (BitVec 32 × BitVec 32) := do
  let p ← load mem info 4
  let k ← load mem (info + 4) 4
  some (BitVec.ofNat 32 (leNat p), BitVec.ofNat 32 (leNat k))

/-- The attribute that `t8_cmesh_trees_get_attribute`, t8_cmesh_trees.cxx:830-888, gives for a local tree, if the binary
search has the result `r`: `some none` is a null pointer, `some (some bytes)` the `size` bytes at the address returned,
`none` an access outside of the memory. -/
def getAttribute (base : Nat) (attrs : List Attr) (mem : List Byte) (t : Nat) (r : Option Nat) :
    Option (Option (List Byte)) :=
  if numAttributes attrs t = 0 then some none
  else match r with
    | none => some none
    | some i => do
      let info := firstInfo base attrs t + i * infoSize
      let size ← load mem (info + 16) 8
      let off ← load mem (info + 8) 8
      let bytes ← load mem (addSize (firstInfo base attrs t) (leNat off)) (leNat size)
      some (some bytes)

/-- The array that `t8_cmesh_trees_get_attribute` passes to the binary search: (package, key) of all attribute infos of
the tree. -/
def infoKeys (base : Nat) (attrs : List Attr) (mem : List Byte) (t : Nat) : Option (List (BitVec 32 × BitVec 32)) :=
  (List.range (numAttributes attrs t)).mapM (fun i => infoKey mem (firstInfo base attrs t + i * infoSize))

end T8.Stash
