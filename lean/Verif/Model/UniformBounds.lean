/-
Model of the arithmetic that distributes a uniform refinement of the coarse mesh over the processes:
`src/t8_cmesh/t8_cmesh.hxx` and `src/t8_cmesh/t8_cmesh.cxx`.

`uint32_t`, `uint64_t` are `BitVec 32`, `BitVec 64` in `firstElementOfProcess`. In the other functions
`t8_gloidx_t` and `int` are `Int`; the theorems assume that the number of elements is below `2^63`, so that no
`t8_gloidx_t` overflows. Division of `t8_gloidx_t` truncates (`Int.tdiv`). Optional output pointers are
never `NULL` here. `none` is a failing assertion.
-/
import Verif.Model.Loop
import Mathlib.Data.Rat.Floor

namespace T8.Uniform

/-- `t8_cmesh_get_first_element_of_process`: src/t8_cmesh/t8_cmesh.hxx:72-97. -/
def firstElementOfProcess (process mpisize : BitVec 32) (globalNumElements : BitVec 64) :
    Option (BitVec 64) := do
  assertO (mpisize > 0)
  assertO (process ≤ mpisize)
  let process64 := process.setWidth 64
  let mpisize64 := mpisize.setWidth 64
  let elemOverSize := globalNumElements / mpisize64
  let remainder0 := globalNumElements % mpisize64
  let procOverSize := process64 / mpisize64
  let remainder1 := process64 % mpisize64
  let sum0 := (elemOverSize * procOverSize) * mpisize64
  let sum1 := elemOverSize * (process64 % mpisize64)
  let sum2 := procOverSize * (globalNumElements % mpisize64)
  let sum3 := (remainder0 * remainder1) / mpisize64
  return sum0 + sum1 + sum2 + sum3

/-- The call of `t8_cmesh_get_first_element_of_process` with an `int` rank, an `int` size and a `t8_gloidx_t`
count, and the conversion of the result to `t8_gloidx_t` (src/t8_cmesh/t8_cmesh.cxx:1543, 1546, 1658-1661). -/
def firstElem (process mpisize globalNum : Int) : Option Int :=
  (firstElementOfProcess (BitVec.ofInt 32 process) (BitVec.ofInt 32 mpisize) (BitVec.ofInt 64 globalNum)).map
    BitVec.toInt

/-- The output parameters of the bounds functions. -/
structure Bounds where
  firstLocalTree : Int
  childInTreeBegin : Int
  lastLocalTree : Int
  childInTreeEnd : Int
  firstTreeShared : Bool
  deriving DecidableEq, Repr

/-- One class in the loop over the element classes, src/t8_cmesh/t8_cmesh.cxx:1522-1532. The state is
`children_per_tree` and `global_num_children`. -/
def classStep (s : Int × Int) (c : Int × Int) : Option (Int × Int) :=
  if c.1 > 0 then
    if c.2 ≥ 0 then some (c.2, s.2 + c.1 * c.2) else none
  else some s

/-- `t8_cmesh_uniform_bounds_equal_element_count`: src/t8_cmesh/t8_cmesh.cxx:1472-1602. `perClass` lists, for
each element class, `cmesh->num_trees_per_eclass[class]` and `count_leaves_from_root (class, level)`. The debug
only assertions about `prev_last_tree` are not modelled. -/
def boundsEqualElementCount (perClass : List (Int × Int)) (mpirank mpisize : Int) : Option Bounds := do
  -- debug: all used classes have the same number of children (lines 1505-1520)
  assertO (∀ c ∈ perClass, c.1 > 0 → ((perClass.find? (fun c => decide (c.1 > 0))).map (·.2)).getD 0 = c.2)
  -- lines 1522-1532
  let s ← perClass.foldlM classStep (0, 0)
  let childrenPerTree := s.1
  let globalNumChildren := s.2
  assertO (childrenPerTree ≠ 0)
  -- lines 1534-1553
  let firstGlobalChild ← (if mpirank = 0 then some 0 else firstElem mpirank mpisize globalNumChildren)
  let lastGlobalChild ← (if mpirank ≠ mpisize - 1 then firstElem (mpirank + 1) mpisize globalNumChildren
    else some globalNumChildren)
  assertO (0 ≤ firstGlobalChild ∧ firstGlobalChild ≤ globalNumChildren)
  assertO (0 ≤ lastGlobalChild ∧ lastGlobalChild ≤ globalNumChildren)
  -- lines 1558-1588
  let firstLocalTree := firstGlobalChild.tdiv childrenPerTree
  let childInTreeBegin := firstGlobalChild - firstLocalTree * childrenPerTree
  let lastLocalTree := (lastGlobalChild - 1).tdiv childrenPerTree
  let isEmpty := decide (firstLocalTree ≥ lastLocalTree) && decide (firstGlobalChild ≥ lastGlobalChild)
  let firstTreeShared := !isEmpty && decide (mpirank > 0) && decide (childInTreeBegin > 0)
  let childInTreeEnd := lastGlobalChild - lastLocalTree * childrenPerTree
  -- lines 1589-1601
  if isEmpty then
    let firstLocalTree' := lastGlobalChild.tdiv childrenPerTree
    let firstLocalTree'' :=
      if firstGlobalChild.tmod childrenPerTree ≠ 0 then firstLocalTree' + 1 else firstLocalTree'
    return ⟨firstLocalTree'', childInTreeBegin, firstLocalTree'' - 1, childInTreeEnd, firstTreeShared⟩
  else
    return ⟨firstLocalTree, childInTreeBegin, lastLocalTree, childInTreeEnd, firstTreeShared⟩

/-- The loop over all trees of an empty process: src/t8_cmesh/t8_cmesh.cxx:1690-1712. `leaves` are the
numbers of leaves of the trees `igtree, igtree + 1, …`, `offset` is `current_tree_element_offset`. -/
def emptyTreeLoop (firstChild : Int) : (leaves : List Int) → (igtree offset : Int) → Bounds → Bounds
  | [], _, _, b => b
  | n :: leaves, igtree, offset, b =>
    let b' := if offset ≤ firstChild ∧ firstChild < offset + n then
        { b with childInTreeBegin := firstChild - offset, firstLocalTree := igtree,
                 lastLocalTree := igtree - 1, firstTreeShared := decide (offset < firstChild) }
      else b
    emptyTreeLoop firstChild leaves (igtree + 1) (offset + n) b'

/-- The loop over all trees of a process that is not empty: src/t8_cmesh/t8_cmesh.cxx:1717-1755.
`numTrees` is the number of all trees. -/
def treeLoop (numTrees firstChild lastChild : Int) :
    (leaves : List Int) → (igtree offset : Int) → Bounds → Option Bounds
  | [], _, _, _ => do
    assertO (numTrees = 0)
    return ⟨-1, -1, -1, -1, false⟩
  | n :: leaves, igtree, offset, b =>
    let b' := if offset ≤ firstChild ∧ firstChild < offset + n then
        { b with childInTreeBegin := firstChild - offset, firstLocalTree := igtree,
                 firstTreeShared := decide (offset < firstChild) }
      else b
    if offset < lastChild ∧ lastChild ≤ offset + n then do
      let b'' := { b' with childInTreeEnd := lastChild - offset, lastLocalTree := igtree }
      assertO (b''.firstLocalTree ≤ b''.lastLocalTree)
      assertO (0 ≤ b''.firstLocalTree ∧ b''.firstLocalTree < numTrees)
      assertO (0 ≤ b''.lastLocalTree ∧ b''.lastLocalTree < numTrees)
      return b''
    else treeLoop numTrees firstChild lastChild leaves (igtree + 1) (offset + n) b'

/-- The body of the `do … while` loop looking for the next non-empty process:
src/t8_cmesh/t8_cmesh.cxx:1672-1678. The state is `next_non_empty` and the first and last child. -/
def nextBody (mpisize num : Int) (s : Int × Int × Int) : Option (Int × Int × Int) := do
  let f ← firstElem s.1 mpisize num
  let l ← firstElem (s.1 + 1) mpisize num
  return (s.1 + 1, f, l)

/-- The search of an empty process for the next process with elements; returns its first child:
src/t8_cmesh/t8_cmesh.cxx:1667-1687. -/
def nextFirstChild (mpirank mpisize num : Int) : Option Int := do
  let s ← nextBody mpisize num (mpirank + 1, 0, 0)
  let s ← whileO (fun s => some (decide (s.2.2 ≤ s.2.1 ∧ s.1 < mpisize - 1))) (nextBody mpisize num) s
  let fl ← (if s.1 ≥ mpisize - 1 then do
      let f ← firstElem (mpisize - 1) mpisize num
      let l ← firstElem mpisize mpisize num
      some (f, l)
    else some (s.2.1, s.2.2))
  assertO (fl.1 < fl.2)
  return fl.1

/-- `t8_cmesh_uniform_bounds_from_unpartioned`: src/t8_cmesh/t8_cmesh.cxx:1647-1760. `leaves` are the numbers of
leaves of all trees. `b0` holds the values of the output parameters before the call. -/
def boundsFromUnpartitioned (leaves : List Int) (mpirank mpisize : Int) (b0 : Bounds) : Option Bounds := do
  let num := leaves.sum
  let firstChild ← firstElem mpirank mpisize num
  let lastChild ← firstElem (mpirank + 1) mpisize num
  let b := { b0 with lastLocalTree := -1 }
  if lastChild ≤ firstChild then
    let f ← nextFirstChild mpirank mpisize num
    return emptyTreeLoop f leaves 0 0 b
  else
    treeLoop leaves.length firstChild lastChild leaves 0 0 b

/-! ### The process of an element -/

/-- Conversion of a floating point number to an integer type: truncation (C11 6.3.1.4). -/
def trunc (x : ℚ) : Int := if 0 ≤ x then ⌊x⌋ else ⌈x⌉

/-- `t8_A_times_B_over_C_gloidx`: src/t8_cmesh/t8_cmesh.cxx:1437-1449. `fl` rounds a real number to a
`long double`; it is applied to each operand that is converted and to the result of each operation. -/
def aTimesBOverC (fl : ℚ → ℚ) (A B C : Int) : Option Int := do
  let aOverC := A.tdiv C
  let aOverCTimesB := aOverC * B
  assertO (aOverC = 0 ∨ aOverCTimesB.tdiv aOverC = B)
  return trunc (fl (fl aOverCTimesB + fl (fl (fl (A.tmod C) / fl C) * fl B)))

/-- `t8_cmesh_determine_partition`: src/t8_cmesh/t8_cmesh.cxx:1614-1645, without its debug assertions (lines
1626-1641), which compare the result with `t8_cmesh_get_first_element_of_process`. The result is a `size_t` in
the code. -/
def determinePartition (fl : ℚ → ℚ) (elementIndex globalNum numProcs processOffset : Int) : Option Int := do
  if elementIndex = globalNum then
    return numProcs - processOffset
  else
    let mirror := globalNum - elementIndex - 1
    let q ← aTimesBOverC fl numProcs mirror globalNum
    return numProcs - 1 - q - processOffset

/-- Rounding to a binary floating point number with `prec` significant bits, to nearest, ties to even (IEEE 754;
the exponent range is not limited). -/
def roundNE (prec : Nat) (x : ℚ) : ℚ :=
  let n := x.num.natAbs
  if n = 0 then 0 else
    -- `2^k n / d` lies between `2^(prec-1)` and `2^(prec+1)`; shift up or down
    let up := prec + x.den.log2
    let down := n.log2
    let num := n * 2 ^ (up - down)
    let den := x.den * 2 ^ (down - up)
    -- one bit too many?
    let two := if num / den ≥ 2 ^ prec then 2 else 1
    let den' := den * two
    let q := num / den'
    let r := num % den'
    let q' := if 2 * r > den' ∨ (2 * r = den' ∧ q % 2 = 1) then q + 1 else q
    x.num.sign * ((q' * two * 2 ^ (down - up) : Nat) : ℚ) / ((2 ^ (up - down) : Nat) : ℚ)

/-- The 80 bit extended format (`long double` of x86-64 Linux compilers): 64 significant bits. -/
def longDouble : ℚ → ℚ := roundNE 64

end T8.Uniform
