/-
Model of `vector_split`, src/t8_helper_functions/t8_vector_algorithms.hxx.

`TCategory` is an unsigned integer type of `w` bits. The range `[begin, end)` is the list `vals`. The entries of
`offsets` are natural numbers. The debug assertions that the range is sorted and not empty are not modelled.
-/
import Verif.Model.Loop

namespace T8.VectorSplit

/-- `std::midpoint` of two unsigned integers (C++20 26.10.16): half the way from `a` to `b`, rounded towards `a`.
Used in src/t8_helper_functions/t8_vector_algorithms.hxx:90. -/
def midpoint (a b : Nat) : Nat := if a ≤ b then a + (b - a) / 2 else a - (a - b) / 2

/-- `std::fill (begin + a, begin + b, v)`, `none` if the end is behind the end of the container. -/
def fill (offsets : List Nat) (a b v : Nat) : Option (List Nat) := do
  assertO (b ≤ offsets.length)
  some (offsets.mapIdx (fun i x => if a ≤ i ∧ i < b then v else x))

/-- The variables `low`, `high`, `step` and the container `offsets`. -/
structure State where
  low : Nat
  high : Nat
  step : Nat
  offsets : List Nat

/-- The body of the loop `while (low == high)`, t8_vector_algorithms.hxx:107-113. The `return` in it ends both
loops, because `step == num_categories` then. -/
def advance (numCategories : Nat) (s : State) : Option State :=
  if s.step + 1 = numCategories then some { s with step := s.step + 1 }
  else do
    let h ← s.offsets[s.step + 1]?
    some { s with step := s.step + 1, high := h }

/-- The search part of the body of the main loop, t8_vector_algorithms.hxx:88-104. -/
def search {α : Type} (cat : α → Nat) (vals : List α) (numCategories : Nat) (s : State) : Option State := do
  let guess := midpoint s.low s.high
  let x ← vals[guess]?
  let category := cat x
  assertO (category ≤ numCategories)
  if category < s.step then some { s with low := guess + 1 }
  else do
    let o ← fill s.offsets s.step (category + 1) guess
    some { s with high := guess, offsets := o }

/-- `vector_split`, src/t8_helper_functions/t8_vector_algorithms.hxx:61-115. `cat` is the category function
with its further arguments. -/
def vectorSplit {α : Type} (w : Nat) (cat : α → Nat) (vals : List α) (offsets : List Nat) : Option (List Nat) := do
  assertO (offsets ≠ [])
  let count := vals.length % 2 ^ w
  let numCategories := (offsets.length - 1) % 2 ^ w
  let offsets := (List.replicate offsets.length count).set 0 0
  if count = 0 ∨ numCategories ≤ 1 then some offsets
  else do
    let s ← whileO (fun s : State => some (decide (s.step < numCategories)))
      (fun s => do
        let s ← search cat vals numCategories s
        whileO (fun s : State => some (decide (s.low = s.high) && decide (s.step ≠ numCategories)))
          (advance numCategories) s)
      ⟨0, count, 1, offsets⟩
    some s.offsets

end T8.VectorSplit
