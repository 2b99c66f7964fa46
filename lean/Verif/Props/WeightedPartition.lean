/-
C22: the offsets with weights.
-/
import Verif.Lemmas.WeightedPartition
import Verif.Lemmas.Rounding
import Verif.Lemmas.RunLoop

namespace T8.PartitionOffset
open T8.Uniform T8.Spec

/-- Without rounding. -/
theorem exact_id (P : Nat) (hP : 0 < P) {W : ℚ} : Exact id P W (fun a => 0 ≤ a) where
  zero := le_rfl
  nonneg _ ha := ha
  add a b ha hb _ := ⟨rfl, add_nonneg ha hb⟩
  cmp a i _ _ _ := by
    have : (0 : ℚ) < P := by exact_mod_cast hP
    simp only [id]
    rw [div_lt_iff₀ this]
  ceil _ _ _ := rfl

/-- Integer weights, such that the product of the total weight and the number of processes is less than `2^53`. -/
theorem exact_int {fl : ℚ → ℚ} (hfl : Rounding 53 fl) {P W : Nat} (hP : 0 < P) (hW : 0 < W) (hlt : P * W < 2 ^ 53) :
    Exact fl P W (fun a => ∃ n : Nat, a = n) := by
  have hWlt : W < 2 ^ 53 := lt_of_le_of_lt (Nat.le_mul_of_pos_left W hP) hlt
  have hPlt : P < 2 ^ 53 := lt_of_le_of_lt (Nat.le_mul_of_pos_right P hW) hlt
  have hn : ∀ n : Nat, n < 2 ^ 53 → fl (n : ℚ) = n := by
    intro n hn
    have := hfl.int (n := (n : ℤ)) (by rw [abs_of_nonneg (by omega)]; omega)
    simpa using this
  constructor
  · exact ⟨0, by simp⟩
  · rintro a ⟨n, rfl⟩; positivity
  · rintro a b ⟨n, rfl⟩ ⟨m, rfl⟩ hle
    have hle' : n + m ≤ W := by exact_mod_cast hle
    have := hn (n + m) (by omega)
    push_cast at this
    exact ⟨this, n + m, by push_cast; rfl⟩
  · rintro a i ⟨n, rfl⟩ hle hi
    have hle' : n ≤ W := by exact_mod_cast hle
    have hiW : W * i < 2 ^ 53 := lt_of_le_of_lt (by rw [Nat.mul_comm]; exact Nat.mul_le_mul_right W hi) hlt
    have e1 : fl ((W : ℚ) * i) = ((W * i : ℕ) : ℚ) := by
      have := hn (W * i) hiW
      push_cast at this ⊢
      exact this
    rw [hn i (by omega), hn P hPlt, e1]
    have hPq : (0 : ℚ) < P := by exact_mod_cast hP
    have := hfl.div_lt_iff (a := ((W * i : ℕ) : ℤ)) (b := (P : ℤ)) (c := (n : ℤ)) (by omega) (by omega) (by exact_mod_cast hiW)
      (by rw [abs_of_nonneg (by omega)]; omega)
    rw [Int.cast_natCast, Int.cast_natCast, Int.cast_natCast] at this
    rw [this, div_lt_iff₀ hPq]
    push_cast
    rfl
  · rintro a ⟨n, rfl⟩ hle
    have hle' : n ≤ W := by exact_mod_cast hle
    have hnP : P * n < 2 ^ 53 := lt_of_le_of_lt (Nat.mul_le_mul_left P hle') hlt
    have e1 : fl ((P : ℚ) * n) = ((P * n : ℕ) : ℚ) := by
      have := hn (P * n) hnP
      push_cast at this ⊢
      exact this
    rw [hn P hPlt, e1]
    have := hfl.ceil_div (a := ((P * n : ℕ) : ℤ)) (b := (W : ℤ)) (by omega) (by omega) (by exact_mod_cast hnP)
    rw [Int.cast_natCast, Int.cast_natCast] at this
    rw [this]
    push_cast
    rfl

/-- **C22**, if there is no rounding: for all non-negative weights with positive sum and all distributions of the elements, the
computation succeeds with offsets at the required weight fractions, and the processes together compute exactly `P` offsets. -/
theorem C22_weighted {P : Nat} (hP : 0 < P) (ws : Nat → List ℚ) (hw : ∀ r, r < P → ∀ x ∈ ws r, 0 ≤ x)
    (hW : 0 < ((List.range P).flatMap ws).sum) :
    ∃ R : ElementPartition P ((List.range P).flatMap ws).length, weighted id P ws = some R.table ∧
      (∀ i, 0 < i → i < P → CutsAt ((List.range P).flatMap ws) P i (R.off i)) ∧
      ∃ lists : Nat → List Int,
        (∀ r, r < P → localOffsets id P (forestWeight id P (fun r => localSum id (ws r)))
          (exscan id (fun r => localSum id (ws r)) r) (firstId ws r) (ws r) = some (lists r)) ∧
        ((List.range P).flatMap lists).length = P :=
  weighted_spec hP ws (exact_id P hP) hw hW

/-- **C22** in double precision, for integer weights. -/
theorem C22_integer {fl : ℚ → ℚ} (hfl : Rounding 53 fl) {P : Nat} (hP : 0 < P) (ws : Nat → List Nat)
    (hW : 0 < ((List.range P).flatMap ws).sum) (hlt : P * ((List.range P).flatMap ws).sum < 2 ^ 53) :
    ∃ R : ElementPartition P ((List.range P).flatMap ws).length,
      weighted fl P (fun r => (ws r).map (fun n : Nat => (n : ℚ))) = some R.table ∧
      (∀ i, 0 < i → i < P → CutsAt (((List.range P).flatMap ws).map (fun n : Nat => (n : ℚ))) P i (R.off i)) := by
  have e : (List.range P).flatMap (fun r => (ws r).map (fun n : Nat => (n : ℚ))) =
      ((List.range P).flatMap ws).map (fun n : Nat => (n : ℚ)) := by rw [List.map_flatMap]
  have es : (((List.range P).flatMap ws).map (fun n : Nat => (n : ℚ))).sum = (((List.range P).flatMap ws).sum : ℕ) := by
    generalize (List.range P).flatMap ws = l
    induction l with
    | nil => simp
    | cons a l ih => simp [ih]
  have key := weighted_spec (fl := fl) (V := fun a => ∃ n : Nat, a = n) hP (fun r => (ws r).map (fun n : Nat => (n : ℚ)))
    (by rw [e, es]; exact exact_int hfl hP hW hlt)
    (by intro r _ x hx; obtain ⟨n, _, rfl⟩ := List.mem_map.1 hx; exact ⟨n, rfl⟩)
    (by rw [e, es]; exact_mod_cast hW)
  rw [e, List.length_map] at key
  obtain ⟨R, h1, h2, _⟩ := key
  exact ⟨R, h1, h2⟩

/-- A case: three processes, one of them without elements. -/
def Case.weights (r : Nat) : List Nat := if r = 0 then [1, 2] else if r = 2 then [0, 5, 1, 1, 2] else []

example : ∃ R : ElementPartition 3 7, weighted (roundNE 53) 3 (fun r => (Case.weights r).map (fun n : Nat => (n : ℚ))) = some R.table ∧
    ∀ i, 0 < i → i < 3 → CutsAt (((List.range 3).flatMap Case.weights).map (fun n : Nat => (n : ℚ))) 3 i (R.off i) :=
  C22_integer (roundNE_rounding (by decide)) (by decide) Case.weights (by decide) (by decide)

/-- Here the range of process 1 starts with element 3. -/
example : CutsAt (((List.range 3).flatMap Case.weights).map (fun n : Nat => (n : ℚ))) 3 1 3 :=
  ⟨by decide, by decide +kernel, by decide +kernel⟩

/-- **C22 fails** with rounding: one element of weight 0.1, on the first of three processes. The process expects to set four offsets, but
sets three. -/
theorem C22_rounding_count :
    let w := roundNE 53 (1 / 10)
    forestWeight (roundNE 53) 3 (fun r => localSum (roundNE 53) (if r = 0 then [w] else [])) = w ∧
    rankBegin (roundNE 53) 3 w w = 4 ∧ localOffsets (roundNE 53) 3 w 0 0 [w] = none := by
  refine ⟨by decide +kernel, by decide +kernel, ?_⟩
  have e : setOffsets (roundNE 53) 3 (roundNE 53 (1 / 10)) 0 4 ⟨roundNE 53 (1 / 10), 0, 0, [0, 0, 0, 0]⟩ =
      some ⟨roundNE 53 (1 / 10), 0, 3, [0, 0, 0, 0]⟩ := whileO_of_run 5 (by decide +kernel)
  rw [localOffsets]
  rw [show assertO (roundNE 53 (1 / 10) ≠ 0) = some () by decide +kernel,
    show rankBegin (roundNE 53) 3 0 (roundNE 53 (1 / 10)) = 0 by decide +kernel,
    show rankBegin (roundNE 53) 3 (roundNE 53 (0 + localSum (roundNE 53) [roundNE 53 (1 / 10)])) (roundNE 53 (1 / 10)) = 4 by decide +kernel]
  simp only [Option.bind_eq_bind, Option.bind_some, elementLoop]
  rw [show roundNE 53 (0 + roundNE 53 (1 / 10)) = roundNE 53 (1 / 10) by decide +kernel,
    show List.replicate ((4 : Int) - 0).toNat (0 : Int) = [0, 0, 0, 0] from rfl, e]
  rfl

/-- **C22 fails** with rounding: five elements of weight 0.7 on two processes, three of them on the second. That process sets more offsets
than it has room for. -/
theorem C22_rounding_bounds :
    let w := roundNE 53 (7 / 10)
    let sums := fun r => localSum (roundNE 53) (if r = 0 then [w, w] else [w, w, w])
    localOffsets (roundNE 53) 2 (forestWeight (roundNE 53) 2 sums) (exscan (roundNE 53) sums 1) 2 [w, w, w] = none := by
  intro w sums
  have eW : forestWeight (roundNE 53) 2 sums = 7881299347898367 / 2251799813685248 := by decide +kernel
  have eo : exscan (roundNE 53) sums 1 = 3152519739159347 / 2251799813685248 := by decide +kernel
  rw [eW, eo]
  have e1 : setOffsets (roundNE 53) 2 (7881299347898367 / 2251799813685248) 1 2
      ⟨roundNE 53 (3152519739159347 / 2251799813685248 + w), 2, 1, [0]⟩ =
      some ⟨roundNE 53 (3152519739159347 / 2251799813685248 + w), 2, 2, [2]⟩ := whileO_of_run 3 (by decide +kernel)
  have e2 : setOffsets (roundNE 53) 2 (7881299347898367 / 2251799813685248) 1 2
      ⟨roundNE 53 (roundNE 53 (3152519739159347 / 2251799813685248 + w) + w), 3, 2, [2]⟩ =
      some ⟨roundNE 53 (roundNE 53 (3152519739159347 / 2251799813685248 + w) + w), 3, 2, [2]⟩ := whileO_of_run 3 (by decide +kernel)
  have e3 : setOffsets (roundNE 53) 2 (7881299347898367 / 2251799813685248) 1 2
      ⟨roundNE 53 (roundNE 53 (roundNE 53 (3152519739159347 / 2251799813685248 + w) + w) + w), 4, 2, [2]⟩ = none :=
    whileO_of_run 3 (by decide +kernel)
  rw [localOffsets]
  rw [show assertO ((7881299347898367 / 2251799813685248 : ℚ) ≠ 0) = some () by decide +kernel,
    show rankBegin (roundNE 53) 2 (3152519739159347 / 2251799813685248) (7881299347898367 / 2251799813685248) = 1 by decide +kernel,
    show rankBegin (roundNE 53) 2 (roundNE 53 (3152519739159347 / 2251799813685248 + localSum (roundNE 53) [w, w, w]))
      (7881299347898367 / 2251799813685248) = 2 by decide +kernel]
  simp only [Option.bind_eq_bind, Option.bind_some, elementLoop]
  rw [show List.replicate ((2 : Int) - 1).toNat (0 : Int) = [0] from rfl, e1]
  simp only [Option.bind_some]
  rw [show (2 : Int) + 1 = 3 from rfl, e2]
  simp only [Option.bind_some]
  rw [show (3 : Int) + 1 = 4 from rfl, e3]
  rfl

end T8.PartitionOffset
