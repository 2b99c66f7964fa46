/-
Points of the grid in the faces of joined trees: every one of them is glued to one on the other side.
-/
import Verif.Lemmas.GeometryCorners

namespace T8.Geometry
open Neighbor

/-! ### Symmetries of the grid in a face -/

/-- The points of a grid of width `h` in a line, triangle or square of length `R`. -/
def Grid (b : Eclass) (R h : Int) (x : Int × Int) : Prop :=
  h ∣ x.1 ∧ h ∣ x.2 ∧ match b with
  | .vertex => x = (0, 0)
  | .line => (0 ≤ x.1 ∧ x.1 ≤ R) ∧ x.2 = 0
  | .triangle => 0 ≤ x.2 ∧ x.2 ≤ x.1 ∧ x.1 ≤ R
  | .quad => (0 ≤ x.1 ∧ x.1 ≤ R) ∧ (0 ≤ x.2 ∧ x.2 ≤ R)
  | _ => False

theorem tri_grid_symm {R h : Int} (hR : h ∣ R) {o : Nat} (ho : o < 3) (s : Bool) {x : Int × Int} (hx : Grid .triangle R h x) :
    Grid .triangle R h (Simplex.triSymmetry R o s x) ∧
    ∃ y, Grid .triangle R h y ∧ x = Simplex.triSymmetry R o s y := by
  obtain ⟨x1, x2⟩ := x
  obtain ⟨h1, h2, h3, h4, h5⟩ := hx
  simp only at h1 h2 h3 h4 h5
  have d1 : h ∣ R - x1 := Int.dvd_sub hR h1
  have d2 : h ∣ R - x2 := Int.dvd_sub hR h2
  have d3 : h ∣ x1 - x2 := Int.dvd_sub h1 h2
  have d4 : h ∣ R - x1 + x2 := Int.dvd_add d1 h2
  have d5 : h ∣ R - x1 + (x1 - x2) := Int.dvd_add d1 d3
  have d6 : h ∣ x2 + (R - x1) := Int.dvd_add h2 d1
  have d7 : h ∣ x1 - x2 + (R - x1) := Int.dvd_add d3 d1
  have d8 : h ∣ x2 + (x1 - x2) := Int.dvd_add h2 d3
  have d9 : h ∣ x1 - x2 + x2 := Int.dvd_add d3 h2
  constructor
  · interval_cases o <;> cases s <;>
      simp [Grid, Simplex.triSymmetry, Simplex.triWeight] <;>
      refine ⟨by first | assumption | (ring_nf; ring_nf at *; assumption), by first | assumption | (ring_nf; ring_nf at *; assumption), by omega, by omega⟩
  · refine ⟨Simplex.triSymmetry R (if s then o else (3 - o) % 3) s (x1, x2), ?_, ?_⟩
    · interval_cases o <;> cases s <;>
      simp [Grid, Simplex.triSymmetry, Simplex.triWeight] <;>
      refine ⟨by first | assumption | (ring_nf; ring_nf at *; assumption), by first | assumption | (ring_nf; ring_nf at *; assumption), by omega, by omega⟩
    · interval_cases o <;> cases s <;>
      simp [Simplex.triSymmetry, Simplex.triWeight] <;> omega

theorem quad_grid_symm {R h : Int} (hR : h ∣ R) {o : Nat} (ho : o < 4) (s : Bool) {x : Int × Int} (hx : Grid .quad R h x) :
    Grid .quad R h (Standalone.squareSymmetry R o s x) ∧
    ∃ y, Grid .quad R h y ∧ x = Standalone.squareSymmetry R o s y := by
  obtain ⟨x1, x2⟩ := x
  obtain ⟨h1, h2, h3, h4⟩ := hx
  simp only at h1 h2 h3 h4
  have d1 : h ∣ R + -x1 := Int.dvd_add hR (Int.dvd_neg.2 h1)
  have d2 : h ∣ R + -x2 := Int.dvd_add hR (Int.dvd_neg.2 h2)
  constructor
  · interval_cases o <;> cases s <;>
      simp [Grid, Standalone.squareSymmetry, Standalone.corner] <;>
      refine ⟨by assumption, by assumption, by omega⟩
  · refine ⟨Standalone.squareSymmetry R (if s then o else (if o = 1 then 2 else if o = 2 then 1 else o)) s (x1, x2), ?_, ?_⟩
    · interval_cases o <;> cases s <;>
      simp [Grid, Standalone.squareSymmetry, Standalone.corner] <;>
      refine ⟨by assumption, by assumption, by omega⟩
    · interval_cases o <;> cases s <;>
      simp [Standalone.squareSymmetry, Standalone.corner] <;> omega

theorem line_grid_symm {h : Int} (hR : h ∣ 2 ^ 30) {o : Nat} (s : Bool) {x : Int × Int} (hx : Grid .line (2 ^ 30) h x) :
    Grid .line (2 ^ 30) h (symmetry .line o s x) ∧ ∃ y, Grid .line (2 ^ 30) h y ∧ x = symmetry .line o s y := by
  obtain ⟨x1, x2⟩ := x
  obtain ⟨h1, h2, h3, h4⟩ := hx
  simp only at h1 h2 h3 h4
  have d1 : h ∣ 2 ^ 30 - x1 := Int.dvd_sub hR h1
  have key : Grid .line (2 ^ 30) h (symmetry .line o s (x1, x2)) := by
    by_cases ho : o = 0
    · rw [symmetry]; simp only [if_pos ho]; exact ⟨h1, h2, h3, h4⟩
    · rw [symmetry]; simp only [if_neg ho]
      exact ⟨d1, h2, ⟨by show (0 : Int) ≤ 2 ^ 30 - x1; omega, by show (2 : Int) ^ 30 - x1 ≤ 2 ^ 30; omega⟩, h4⟩
  refine ⟨key, _, key, ?_⟩
  by_cases ho : o = 0
  · simp only [symmetry, if_pos ho]
  · simp only [symmetry, if_neg ho]
    exact Prod.ext (by show x1 = 2 ^ 30 - (2 ^ 30 - x1); omega) rfl

/-- The exponent of the length of the faces. -/
def faceExp : Eclass → Nat
  | .triangle => 29
  | _ => 30

/-- The points of the grid of level `l` in a face, as given by `faceCoord`. -/
def FaceGrid (b : Eclass) (l : Nat) (x : Nat × Nat) : Prop := Grid b (2 ^ faceExp b) (2 ^ (faceExp b - l)) ((x.1 : Int), (x.2 : Int))

theorem grid_nat {b : Eclass} {l : Nat} {x : Int × Int} (hx : Grid b (2 ^ faceExp b) (2 ^ (faceExp b - l)) x) :
    ∃ y : Nat × Nat, FaceGrid b l y ∧ ((y.1 : Int), (y.2 : Int)) = x := by
  have h1 : 0 ≤ x.1 ∧ 0 ≤ x.2 := by
    obtain ⟨_, _, h⟩ := hx
    cases b <;> simp only at h
    · simp [h]
    all_goals omega
  have h2 : (((x.1.toNat : Nat) : Int), ((x.2.toNat : Nat) : Int)) = x := Prod.ext (Int.toNat_of_nonneg h1.1) (Int.toNat_of_nonneg h1.2)
  refine ⟨(x.1.toNat, x.2.toNat), ?_, h2⟩
  rw [FaceGrid]
  simp only [h2]
  exact hx

theorem symm_grid {b : Eclass} {l : Nat} {o : Nat} (ho : o < b.numVertices) (s : Bool) {x : Nat × Nat} (hx : FaceGrid b l x) :
    (∃ y, FaceGrid b l y ∧ ((y.1 : Int), (y.2 : Int)) = symmetry b o s ((x.1 : Int), (x.2 : Int))) ∧
    ∃ y, FaceGrid b l y ∧ ((x.1 : Int), (x.2 : Int)) = symmetry b o s ((y.1 : Int), (y.2 : Int)) := by
  have key : Grid b (2 ^ faceExp b) (2 ^ (faceExp b - l)) (symmetry b o s ((x.1 : Int), (x.2 : Int))) ∧
      ∃ y, Grid b (2 ^ faceExp b) (2 ^ (faceExp b - l)) y ∧ ((x.1 : Int), (x.2 : Int)) = symmetry b o s y := by
    have hd : ∀ n : Nat, (2 : Int) ^ (n - l) ∣ 2 ^ n := fun n => pow_dvd_pow _ (by omega)
    cases b with
    | vertex => exact ⟨hx, _, hx, rfl⟩
    | line => exact line_grid_symm (hd 30) s hx
    | triangle => exact tri_grid_symm (hd 29) ho s hx
    | quad => exact quad_grid_symm (hd 30) ho s hx
    | _ => exact absurd hx.2.2 (by simp)
  obtain ⟨h1, y, h2, h3⟩ := key
  refine ⟨?_, ?_⟩
  · obtain ⟨y', a, b⟩ := grid_nat h1
    exact ⟨y', a, b⟩
  · obtain ⟨y', a, b⟩ := grid_nat h2
    exact ⟨y', a, by rw [b]; exact h3⟩

end T8.Geometry
