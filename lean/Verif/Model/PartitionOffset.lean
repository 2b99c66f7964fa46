/-
Model of `t8_forest_partition_compute_new_offset`, src/t8_forest/t8_forest_partition.cxx:485-623, up to the correction for
coarsening.

`fl` rounds a number to a `double`; it is applied to the result of each operation and to integers that are converted.
`std::floor`, `std::ceil` and the following conversions to integer types are exact. Weights are given as the lists of
values that the weight function returns for the local elements.
-/
import Verif.Model.Loop
import Mathlib.Data.Rat.Floor

namespace T8.PartitionOffset

/-- The offsets without weights, t8_forest_partition.cxx:515-546: `custom` are the offsets that were set with
`t8_forest_set_partition_offset`. The first case is lines 505-513. -/
def unweighted (fl : ℚ → ℚ) (N : Int) (P : Nat) (custom : Option (List Int)) : List Int :=
  if N = 0 then List.replicate (P + 1) 0
  else match custom with
    | some c => c ++ [N]
    | none => (List.range P).map (fun i : Nat => ⌊fl (fl (fl N * fl (i : ℚ)) / fl (P : ℚ))⌋) ++ [N]

/-- `partition_weight`, t8_forest_partition.cxx:552-560. -/
def localSum (fl : ℚ → ℚ) (ws : List ℚ) : ℚ := ws.foldl (fun s w => fl (s + w)) 0

/-- `partition_weight_offset`, t8_forest_partition.cxx:563-568: the result of `MPI_Exscan`, here with the order of
summation by rank. `sums` are the local sums. -/
def exscan (fl : ℚ → ℚ) (sums : Nat → ℚ) : Nat → ℚ
  | 0 => 0
  | 1 => sums 0
  | r + 2 => fl (exscan fl sums (r + 1) + sums (r + 1))

/-- `forest_weight`, t8_forest_partition.cxx:571-575. -/
def forestWeight (fl : ℚ → ℚ) (P : Nat) (sums : Nat → ℚ) : ℚ := fl (exscan fl sums (P - 1) + sums (P - 1))

/-- `rank_begin` and `rank_end`, t8_forest_partition.cxx:578-579. -/
def rankBegin (fl : ℚ → ℚ) (P : Nat) (off W : ℚ) : Int := ⌈fl (fl (fl (P : ℚ) * off) / W)⌉

/-- The variables of the loop. -/
structure State where
  acc : ℚ
  gid : Int
  iproc : Int
  offsets : List Int
  deriving DecidableEq

/-- The inner loop, t8_forest_partition.cxx:594-599. -/
def setOffsets (fl : ℚ → ℚ) (P : Nat) (W : ℚ) (rb re : Int) (s : State) : Option State :=
  whileO (fun s : State => some (decide (s.acc > fl (fl (W * fl (s.iproc : ℚ)) / fl (P : ℚ)))))
    (fun s => do
      assertO (rb ≤ s.iproc ∧ s.iproc < re)
      some { s with offsets := s.offsets.set (s.iproc - rb).toNat s.gid, iproc := s.iproc + 1 }) s

/-- The loop over the elements, t8_forest_partition.cxx:590-602. -/
def elementLoop (fl : ℚ → ℚ) (P : Nat) (W : ℚ) (rb re : Int) : List ℚ → State → Option State
  | [], s => some s
  | w :: ws, s => do
    let s ← setOffsets fl P W rb re { s with acc := fl (s.acc + w) }
    elementLoop fl P W rb re ws { s with gid := s.gid + 1 }

/-- The offsets that a process computes, t8_forest_partition.cxx:578-603. `first` is the global index of its first element,
`off` the weight before it. A division by 0 is `none`, and so is a vector of negative length. -/
def localOffsets (fl : ℚ → ℚ) (P : Nat) (W off : ℚ) (first : Int) (ws : List ℚ) : Option (List Int) := do
  assertO (W ≠ 0)
  let rb := rankBegin fl P off W
  let re := rankBegin fl P (fl (off + localSum fl ws)) W
  assertO (rb ≤ re)
  let s ← elementLoop fl P W rb re ws ⟨off, first, rb, List.replicate (re - rb).toNat 0⟩
  assertO (s.iproc = re)
  some s.offsets

/-- The index of the first element of a process. -/
def firstId (ws : Nat → List ℚ) : Nat → Nat
  | 0 => 0
  | r + 1 => firstId ws r + (ws r).length

/-- The offsets with weights, t8_forest_partition.cxx:548-616: the local offsets of all processes are gathered into the array with
`P + 1` entries, then the first and the last entry are set. -/
def weighted (fl : ℚ → ℚ) (P : Nat) (ws : Nat → List ℚ) : Option (List Int) := do
  let sums := fun r => localSum fl (ws r)
  let W := forestWeight fl P sums
  let lists ← (List.range P).mapM (fun r => localOffsets fl P W (exscan fl sums r) (firstId ws r) (ws r))
  let all := lists.flatten
  assertO (all.length ≤ P + 1)
  let arr := all ++ List.replicate (P + 1 - all.length) 0
  some ((arr.set 0 0).set P (firstId ws P))

end T8.PartitionOffset
