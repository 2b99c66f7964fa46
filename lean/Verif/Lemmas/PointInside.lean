/-
Points inside elements of dimension three.
-/
import Verif.Lemmas.Frame
import Verif.Model.PointInside

namespace T8.Geometry
open Neighbor

/-- The point with the coordinates `r` in a frame. -/
def at_ (o b0 b1 b2 r : Point) : Point := fun k => o k + r 0 * b0 k + r 1 * b1 k + r 2 * b2 k

/-- The side of the plane through the points `u0`, `u1`, `u2` where `r` is. -/
def side (u0 u1 u2 r : Point) : ℚ := det (fun k => r k - u0 k) (fun k => u1 k - u0 k) (fun k => u2 k - u0 k)

theorem dot_cross (x y z : Point) : dot x (cross y z) = det x y z := by
  simp [dot, cross, det]; ring

theorem dot_minus (o b0 b1 b2 u0 u1 u2 r : Point) :
    dot (minus (at_ o b0 b1 b2 r) (at_ o b0 b1 b2 u0))
      (cross (minus (at_ o b0 b1 b2 u1) (at_ o b0 b1 b2 u0)) (minus (at_ o b0 b1 b2 u2) (at_ o b0 b1 b2 u0))) =
    det b0 b1 b2 * side u0 u1 u2 r := by
  rw [dot_cross]
  simp only [det, side, minus, at_]; ring

theorem dot_self_pos {x y : Point} (h : dot x y ≠ 0) : 0 < dot y y := by
  by_contra hn
  have h0 : y 0 * y 0 + y 1 * y 1 + y 2 * y 2 ≤ 0 := not_lt.1 hn
  have z : ∀ k : Fin 3, y k = 0 := fun k => by
    have a := mul_self_nonneg (y 0); have b := mul_self_nonneg (y 1); have c := mul_self_nonneg (y 2)
    have : y k * y k = 0 := by
      fin_cases k
      · show y 0 * y 0 = 0; linarith
      · show y 1 * y 1 = 0; linarith
      · show y 2 * y 2 = 0; linarith
    exact mul_self_eq_zero.1 this
  exact h (by simp [dot, z])

theorem dot_scale (x y : Point) (a : ℚ) : dot x (times y a) = dot x y * a := by simp only [dot, times]; ring

theorem dot_neg_minus (x y z : Point) : dot (minus x y) z = -dot (minus y x) z := by simp only [dot, minus]; ring

/-- The test of one face. -/
theorem plane_iff {sqrt : ℚ → ℚ} (hs : ∀ x, 0 < x → 0 < sqrt x) {o b0 b1 b2 : Point} (hD : det b0 b1 b2 ≠ 0) (u0 u1 u2 m r : Point)
    (hm : side u0 u1 u2 m ≠ 0) :
    let q := at_ o b0 b1 b2
    let n := cross (minus (q u1) (q u0)) (minus (q u2) (q u0))
    planePointInside (q u0) (times n (1 / if 0 < dot (minus (q m) (q u0)) n then -norm sqrt n else norm sqrt n)) (q r) = true ↔
      0 ≤ side u0 u1 u2 m * side u0 u1 u2 r := by
  intro q n
  have e1 : dot (minus (q m) (q u0)) n = det b0 b1 b2 * side u0 u1 u2 m := dot_minus o b0 b1 b2 u0 u1 u2 m
  have e2 : dot (minus (q u0) (q r)) n = -(det b0 b1 b2 * side u0 u1 u2 r) := by
    rw [dot_neg_minus]; exact congrArg _ (dot_minus o b0 b1 b2 u0 u1 u2 r)
  have hN : 0 < norm sqrt n := hs _ (dot_self_pos (by rw [e1]; exact mul_ne_zero hD hm))
  rw [planePointInside, dot_scale, e2, e1]
  rw [Bool.not_eq_true', decide_eq_false_iff_not, not_lt]
  generalize norm sqrt n = N at *
  generalize det b0 b1 b2 = D at *
  generalize side u0 u1 u2 m = M at *
  generalize side u0 u1 u2 r = R at *
  have hDD : 0 < D * D := mul_self_pos.2 hD
  have hMM : 0 < M * M := mul_self_pos.2 hm
  by_cases h : 0 < D * M
  · rw [if_pos h]
    have : -(D * R) * (1 / -N) = D * R * (1 / N) := by field_simp
    rw [this]
    have hi : 0 < 1 / N := by positivity
    constructor
    · intro h1
      have h2 : 0 ≤ D * R := nonneg_of_mul_nonneg_left h1 hi
      have h3 : 0 ≤ (D * M) * (D * R) := mul_nonneg h.le h2
      have h4 : (D * M) * (D * R) = (D * D) * (M * R) := by ring
      exact nonneg_of_mul_nonneg_right (h4 ▸ h3) hDD
    · intro h1
      have h3 : 0 ≤ (D * D) * (M * R) := mul_nonneg hDD.le h1
      have h4 : (D * D) * (M * R) = (D * M) * (D * R) := by ring
      exact mul_nonneg (nonneg_of_mul_nonneg_right (h4 ▸ h3) h) hi.le
  · rw [if_neg h]
    have h' : 0 < -(D * M) := by
      rcases lt_or_gt_of_ne (mul_ne_zero hD hm) with h1 | h1
      · linarith
      · exact absurd h1 h
    have hi : 0 < 1 / N := by positivity
    constructor
    · intro h1
      have h2 : 0 ≤ -(D * R) := nonneg_of_mul_nonneg_left h1 hi
      have h3 : 0 ≤ (-(D * M)) * (-(D * R)) := mul_nonneg h'.le h2
      have h4 : (-(D * M)) * (-(D * R)) = (D * D) * (M * R) := by ring
      exact nonneg_of_mul_nonneg_right (h4 ▸ h3) hDD
    · intro h1
      have h3 : 0 ≤ (D * D) * (M * R) := mul_nonneg hDD.le h1
      have h4 : (D * D) * (M * R) = (-(D * M)) * (-(D * R)) := by ring
      exact mul_nonneg (nonneg_of_mul_nonneg_right (h4 ▸ h3) h') hi.le

/-- All points have coordinates in a frame. -/
theorem exists_at {o b0 b1 b2 : Point} (hD : det b0 b1 b2 ≠ 0) (p : Point) : ∃ r, p = at_ o b0 b1 b2 r := by
  let x : Point := fun k => p k - o k
  refine ⟨![det x b1 b2 / det b0 b1 b2, det b0 x b2 / det b0 b1 b2, det b0 b1 x / det b0 b1 b2], funext fun k => ?_⟩
  simp only [at_]
  have h : det b0 b1 b2 * (p k - o k) = det x b1 b2 * b0 k + det b0 x b2 * b1 k + det b0 b1 x * b2 k := by
    fin_cases k <;> simp only [det, x] <;> simp <;> ring
  simp only [Matrix.cons_val_zero, Matrix.cons_val_one, Matrix.cons_val]
  field_simp
  linear_combination h

theorem at_injective {o b0 b1 b2 : Point} (hD : det b0 b1 b2 ≠ 0) {r s : Point} (h : at_ o b0 b1 b2 r = at_ o b0 b1 b2 s) : r = s := by
  have h0 := congrFun h 0; have h1 := congrFun h 1; have h2 := congrFun h 2
  simp only [at_] at h0 h1 h2
  funext k
  apply mul_left_cancel₀ hD
  fin_cases k
  · show det b0 b1 b2 * r 0 = det b0 b1 b2 * s 0
    simp only [det]
    linear_combination (b1 1 * b2 2 - b1 2 * b2 1) * h0 + (b1 2 * b2 0 - b1 0 * b2 2) * h1 + (b1 0 * b2 1 - b1 1 * b2 0) * h2
  · show det b0 b1 b2 * r 1 = det b0 b1 b2 * s 1
    simp only [det]
    linear_combination (b2 1 * b0 2 - b2 2 * b0 1) * h0 + (b2 2 * b0 0 - b2 0 * b0 2) * h1 + (b2 0 * b0 1 - b2 1 * b0 0) * h2
  · show det b0 b1 b2 * r 2 = det b0 b1 b2 * s 2
    simp only [det]
    linear_combination (b0 1 * b1 2 - b0 2 * b1 1) * h0 + (b0 2 * b1 0 - b0 0 * b1 2) * h1 + (b0 0 * b1 1 - b0 1 * b1 0) * h2

theorem sum_map_congr {n : Nat} {f g : Nat → ℚ} (h : ∀ v < n, f v = g v) :
    ((List.range n).map f).sum = ((List.range n).map g).sum := by
  congr 1; exact List.map_congr_left fun v hv => h v (List.mem_range.1 hv)

theorem sum_at (n : Nat) (w : Nat → ℚ) (u : Nat → Point) (a b0 b1 b2 : ℚ) :
    ((List.range n).map fun v => w v * (a + u v 0 * b0 + u v 1 * b1 + u v 2 * b2)).sum =
    ((List.range n).map w).sum * a + ((List.range n).map fun v => w v * u v 0).sum * b0 +
      ((List.range n).map fun v => w v * u v 1).sum * b1 + ((List.range n).map fun v => w v * u v 2).sum * b2 := by
  induction List.range n with
  | nil => simp
  | cons x l ih => simp only [List.map_cons, List.sum_cons, ih]; ring

/-- The convex hull in the coordinates of a frame. -/
theorem hull_frame {n : Nat} {q u : Nat → Point} {o b0 b1 b2 : Point} (hD : det b0 b1 b2 ≠ 0)
    (hq : ∀ v < n, q v = at_ o b0 b1 b2 (u v)) (r : Point) : InHull n q (at_ o b0 b1 b2 r) ↔ InHull n u r := by
  have key : ∀ w : Nat → ℚ, ((List.range n).map w).sum = 1 → ∀ k, ((List.range n).map fun v => w v * q v k).sum =
      at_ o b0 b1 b2 (fun j => ((List.range n).map fun v => w v * u v j).sum) k := fun w h1 k => by
    rw [sum_map_congr (g := fun v => w v * (o k + u v 0 * b0 k + u v 1 * b1 k + u v 2 * b2 k)) (fun v hv => by rw [hq v hv]; rfl),
      sum_at, h1, one_mul]
    rfl
  constructor
  · rintro ⟨w, h0, h1, h2⟩
    refine ⟨w, h0, h1, fun k => ?_⟩
    have : at_ o b0 b1 b2 r = at_ o b0 b1 b2 (fun j => ((List.range n).map fun v => w v * u v j).sum) :=
      funext fun k => (h2 k).trans (key w h1 k)
    exact congrFun (at_injective hD this) k
  · rintro ⟨w, h0, h1, h2⟩
    refine ⟨w, h0, h1, fun k => ?_⟩
    rw [key w h1 k, show r = _ from funext h2]

/-! ### The reference elements -/

/-- The points of the reference elements. -/
def InRef (c : Eclass) (r : Point) : Prop :=
  match c with
  | .hex => 0 ≤ r 0 ∧ r 0 ≤ 1 ∧ 0 ≤ r 1 ∧ r 1 ≤ 1 ∧ 0 ≤ r 2 ∧ r 2 ≤ 1
  | .tet => 0 ≤ r 1 ∧ r 1 ≤ r 2 ∧ r 2 ≤ r 0 ∧ r 0 ≤ 1
  | .prism => 0 ≤ r 1 ∧ r 1 ≤ r 0 ∧ r 0 ≤ 1 ∧ 0 ≤ r 2 ∧ r 2 ≤ 1
  | .pyramid => 0 ≤ r 2 ∧ r 2 ≤ r 0 ∧ r 2 ≤ r 1 ∧ r 0 ≤ 1 ∧ r 1 ≤ 1
  | _ => False

theorem hull_of_list {n : Nat} {u : Nat → Point} {r : Point} (w : Nat → ℚ) (h0 : ∀ v < n, 0 ≤ w v) (h1 : ((List.range n).map w).sum = 1)
    (h2 : ∀ k, r k = ((List.range n).map fun v => w v * u v k).sum) : InHull n u r := ⟨w, h0, h1, h2⟩

theorem hull_hex (r : Point) : InHull 8 (cornerRefCoords .hex) r ↔ InRef .hex r := by
  constructor
  · rintro ⟨w, h0, h1, h2⟩
    have a := h2 0; have b := h2 1; have c := h2 2
    rw [sum_range] at h1 a b c
    simp [cornerRefCoords, cornerRefTable] at a b c h1
    have w0 := h0 0 (by omega); have w1 := h0 1 (by omega); have w2 := h0 2 (by omega); have w3 := h0 3 (by omega)
    have w4 := h0 4 (by omega); have w5 := h0 5 (by omega); have w6 := h0 6 (by omega); have w7 := h0 7 (by omega)
    refine ⟨?_, ?_, ?_, ?_, ?_, ?_⟩ <;> linarith
  · rintro ⟨h1, h2, h3, h4, h5, h6⟩
    have s1 := sub_nonneg.2 h2; have s2 := sub_nonneg.2 h4; have s3 := sub_nonneg.2 h6
    refine hull_of_list (fun v => [(1 - r 0) * (1 - r 1) * (1 - r 2), r 0 * (1 - r 1) * (1 - r 2), (1 - r 0) * r 1 * (1 - r 2),
      r 0 * r 1 * (1 - r 2), (1 - r 0) * (1 - r 1) * r 2, r 0 * (1 - r 1) * r 2, (1 - r 0) * r 1 * r 2, r 0 * r 1 * r 2].getD v 0) ?_ ?_ ?_
    · intro v hv
      interval_cases v <;> simp <;> positivity
    · rw [sum_range]; simp; ring
    · intro k
      rw [sum_range]
      fin_cases k <;> simp [cornerRefCoords, cornerRefTable] <;> ring

theorem hull_tet (r : Point) : InHull 4 (cornerRefCoords .tet) r ↔ InRef .tet r := by
  constructor
  · rintro ⟨w, h0, h1, h2⟩
    have a := h2 0; have b := h2 1; have c := h2 2
    rw [sum_range] at h1 a b c
    simp [cornerRefCoords, cornerRefTable] at a b c h1
    have w0 := h0 0 (by omega); have w1 := h0 1 (by omega); have w2 := h0 2 (by omega); have w3 := h0 3 (by omega)
    refine ⟨?_, ?_, ?_, ?_⟩ <;> linarith
  · rintro ⟨h1, h2, h3, h4⟩
    refine hull_of_list (fun v => [1 - r 0, r 0 - r 2, r 2 - r 1, r 1].getD v 0) ?_ ?_ ?_
    · intro v hv
      interval_cases v <;> simp <;> linarith
    · rw [sum_range]; simp
    · intro k
      rw [sum_range]
      fin_cases k <;> simp [cornerRefCoords, cornerRefTable]

theorem hull_prism (r : Point) : InHull 6 (cornerRefCoords .prism) r ↔ InRef .prism r := by
  constructor
  · rintro ⟨w, h0, h1, h2⟩
    have a := h2 0; have b := h2 1; have c := h2 2
    rw [sum_range] at h1 a b c
    simp [cornerRefCoords, cornerRefTable] at a b c h1
    have w0 := h0 0 (by omega); have w1 := h0 1 (by omega); have w2 := h0 2 (by omega); have w3 := h0 3 (by omega)
    have w4 := h0 4 (by omega); have w5 := h0 5 (by omega)
    refine ⟨?_, ?_, ?_, ?_, ?_⟩ <;> linarith
  · rintro ⟨h1, h2, h3, h4, h5⟩
    have s1 := sub_nonneg.2 h2; have s2 := sub_nonneg.2 h3; have s3 := sub_nonneg.2 h5
    refine hull_of_list (fun v => [(1 - r 0) * (1 - r 2), (r 0 - r 1) * (1 - r 2), r 1 * (1 - r 2), (1 - r 0) * r 2, (r 0 - r 1) * r 2,
      r 1 * r 2].getD v 0) ?_ ?_ ?_
    · intro v hv
      interval_cases v <;> simp <;> positivity
    · rw [sum_range]; simp; ring
    · intro k
      rw [sum_range]
      fin_cases k <;> simp [cornerRefCoords, cornerRefTable] <;> ring

theorem hull_pyramid (r : Point) : InHull 5 (cornerRefCoords .pyramid) r ↔ InRef .pyramid r := by
  constructor
  · rintro ⟨w, h0, h1, h2⟩
    have a := h2 0; have b := h2 1; have c := h2 2
    rw [sum_range] at h1 a b c
    simp [cornerRefCoords, cornerRefTable] at a b c h1
    have w0 := h0 0 (by omega); have w1 := h0 1 (by omega); have w2 := h0 2 (by omega); have w3 := h0 3 (by omega)
    have w4 := h0 4 (by omega)
    refine ⟨?_, ?_, ?_, ?_, ?_⟩ <;> linarith
  · rintro ⟨h1, h2, h3, h4, h5⟩
    rcases le_total (r 1) (r 0) with h | h
    · refine hull_of_list (fun v => [1 - r 0, r 0 - r 1, 0, r 1 - r 2, r 2].getD v 0) ?_ ?_ ?_
      · intro v hv
        interval_cases v <;> simp <;> linarith
      · rw [sum_range]; simp
      · intro k
        rw [sum_range]
        fin_cases k <;> simp [cornerRefCoords, cornerRefTable]
    · refine hull_of_list (fun v => [1 - r 1, 0, r 1 - r 0, r 0 - r 2, r 2].getD v 0) ?_ ?_ ?_
      · intro v hv
        interval_cases v <;> simp <;> linarith
      · rw [sum_range]; simp
      · intro k
        rw [sum_range]
        fin_cases k <;> simp [cornerRefCoords, cornerRefTable]

/-! ### The faces -/

/-- Corner `i` of face `f` of a reference element with the face corners `L`. -/
def refFacePoint (c : Eclass) (L : List (List Nat)) (f i : Nat) : Point := cornerRefCoords c ((L.getD f []).getD i 0)

/-- The faces with the corners `L` bound the reference element. -/
def Bounded (c : Eclass) (L : List (List Nat)) : Prop :=
  (∀ f < L.length, side (refFacePoint c L f 0) (refFacePoint c L f 1) (refFacePoint c L f 2) (centroidRefCoords c) ≠ 0) ∧
  (∀ f < L.length, ∀ i < 3, (L.getD f []).getD i 0 < c.numVertices) ∧
  ∀ r, (∀ f < L.length, 0 ≤ side (refFacePoint c L f 0) (refFacePoint c L f 1) (refFacePoint c L f 2) (centroidRefCoords c) *
    side (refFacePoint c L f 0) (refFacePoint c L f 1) (refFacePoint c L f 2) r) ↔ InRef c r

theorem forall_lt_4 {P : Nat → Prop} : (∀ f < 4, P f) ↔ P 0 ∧ P 1 ∧ P 2 ∧ P 3 :=
  ⟨fun h => ⟨h 0 (by omega), h 1 (by omega), h 2 (by omega), h 3 (by omega)⟩, fun ⟨a, b, c, d⟩ f hf => by
    interval_cases f <;> assumption⟩

theorem forall_lt_5 {P : Nat → Prop} : (∀ f < 5, P f) ↔ P 0 ∧ P 1 ∧ P 2 ∧ P 3 ∧ P 4 :=
  ⟨fun h => ⟨h 0 (by omega), h 1 (by omega), h 2 (by omega), h 3 (by omega), h 4 (by omega)⟩, fun ⟨a, b, c, d, e⟩ f hf => by
    interval_cases f <;> assumption⟩

theorem forall_lt_6 {P : Nat → Prop} : (∀ f < 6, P f) ↔ P 0 ∧ P 1 ∧ P 2 ∧ P 3 ∧ P 4 ∧ P 5 :=
  ⟨fun h => ⟨h 0 (by omega), h 1 (by omega), h 2 (by omega), h 3 (by omega), h 4 (by omega), h 5 (by omega)⟩, fun ⟨a, b, c, d, e, g⟩ f hf => by
    interval_cases f <;> assumption⟩

theorem bounded_tet : Bounded .tet [[1, 2, 3], [0, 2, 3], [0, 1, 3], [0, 1, 2]] := by
  refine ⟨?_, ?_, fun r => ?_⟩
  · show ∀ f < 4, _
    rw [forall_lt_4]
    simp [refFacePoint, side, det, cornerRefCoords, cornerRefTable, centroidRefCoords]; norm_num
  · decide
  · show (∀ f < 4, _) ↔ _
    rw [forall_lt_4]
    simp [refFacePoint, side, det, cornerRefCoords, cornerRefTable, centroidRefCoords, InRef]
    norm_num
    constructor
    · rintro ⟨h1, h2, h3, h4⟩
      refine ⟨?_, ?_, ?_, ?_⟩ <;> linarith
    · rintro ⟨h1, h2, h3, h4⟩
      refine ⟨?_, ?_, ?_, ?_⟩ <;> linarith

theorem bounded_prism : Bounded .prism [[1, 2, 4, 5], [0, 2, 3, 5], [0, 1, 3, 4], [0, 1, 2], [3, 4, 5]] := by
  refine ⟨?_, ?_, fun r => ?_⟩
  · show ∀ f < 5, _
    rw [forall_lt_5]
    simp [refFacePoint, side, det, cornerRefCoords, cornerRefTable, centroidRefCoords]; norm_num
  · decide
  · show (∀ f < 5, _) ↔ _
    rw [forall_lt_5]
    simp [refFacePoint, side, det, cornerRefCoords, cornerRefTable, centroidRefCoords, InRef]
    norm_num
    constructor
    · rintro ⟨h1, h2, h3, h4, h5⟩
      refine ⟨?_, ?_, ?_, ?_, ?_⟩ <;> linarith
    · rintro ⟨h1, h2, h3, h4, h5⟩
      refine ⟨?_, ?_, ?_, ?_, ?_⟩ <;> linarith

theorem bounded_pyramid6 : Bounded .pyramid [[0, 2, 4], [1, 3, 4], [0, 1, 4], [2, 3, 4], [0, 1, 2, 3]] := by
  refine ⟨?_, ?_, fun r => ?_⟩
  · show ∀ f < 5, _
    rw [forall_lt_5]
    simp [refFacePoint, side, det, cornerRefCoords, cornerRefTable, centroidRefCoords]; norm_num
  · decide
  · show (∀ f < 5, _) ↔ _
    rw [forall_lt_5]
    simp [refFacePoint, side, det, cornerRefCoords, cornerRefTable, centroidRefCoords, InRef]
    norm_num
    constructor
    · rintro ⟨h1, h2, h3, h4, h5⟩
      refine ⟨?_, ?_, ?_, ?_, ?_⟩ <;> linarith
    · rintro ⟨h1, h2, h3, h4, h5⟩
      refine ⟨?_, ?_, ?_, ?_, ?_⟩ <;> linarith

theorem bounded_pyramid7 : Bounded .pyramid [[2, 3, 4], [0, 1, 4], [1, 3, 4], [0, 2, 4], [0, 1, 2, 3]] := by
  refine ⟨?_, ?_, fun r => ?_⟩
  · show ∀ f < 5, _
    rw [forall_lt_5]
    simp [refFacePoint, side, det, cornerRefCoords, cornerRefTable, centroidRefCoords]; norm_num
  · decide
  · show (∀ f < 5, _) ↔ _
    rw [forall_lt_5]
    simp [refFacePoint, side, det, cornerRefCoords, cornerRefTable, centroidRefCoords, InRef]
    norm_num
    constructor
    · rintro ⟨h1, h2, h3, h4, h5⟩
      refine ⟨?_, ?_, ?_, ?_, ?_⟩ <;> linarith
    · rintro ⟨h1, h2, h3, h4, h5⟩
      refine ⟨?_, ?_, ?_, ?_, ?_⟩ <;> linarith

theorem bounded_hex : Bounded .hex [[0, 2, 4, 6], [1, 3, 5, 7], [0, 1, 4, 5], [2, 3, 6, 7], [0, 1, 2, 3], [4, 5, 6, 7]] := by
  refine ⟨?_, ?_, fun r => ?_⟩
  · show ∀ f < 6, _
    rw [forall_lt_6]
    simp [refFacePoint, side, det, cornerRefCoords, cornerRefTable, centroidRefCoords]; norm_num
  · decide
  · show (∀ f < 6, _) ↔ _
    rw [forall_lt_6]
    simp [refFacePoint, side, det, cornerRefCoords, cornerRefTable, centroidRefCoords, InRef]
    norm_num
    intro _
    constructor
    · rintro ⟨h2, h3, h4, h5, h6⟩
      refine ⟨?_, ?_, ?_, ?_, ?_⟩ <;> linarith
    · rintro ⟨h2, h3, h4, h5, h6⟩
      refine ⟨?_, ?_, ?_, ?_, ?_⟩ <;> linarith

/-- The face corners of hexahedra. -/
theorem hex_corners {S : P4ests} (D : S.Documented) (x : Standalone.Elem 3) {f : Nat} (hf : f < 6) : faceCorners S (.hex x) f =
    [[0, 2, 4, 6], [1, 3, 5, 7], [0, 1, 4, 5], [2, 3, 6, 7], [0, 1, 2, 3], [4, 5, 6, 7]].getD f [] := by
  refine Eq.trans (b := (List.range (2 ^ 3)).filter fun k => Cube.CornerOnFace k f) (D.2.faceCorners f hf) ?_
  interval_cases f <;> decide

/-- The face corners of the elements of dimension three. -/
theorem face_table {S : P4ests} (D : S.Documented) {e : Element} (he : e.Valid S) (h3 : e.eclass.dim = 3) :
    ∃ L, Bounded (shape e) L ∧ e.numFaces = L.length ∧ (∀ f < L.length, faceCorners S e f = L.getD f []) ∧
      (∀ r, InHull (shape e).numVertices (cornerRefCoords (shape e)) r ↔ InRef (shape e) r) ∧
      ((shape e) = .hex ∨ (shape e) = .tet ∨ (shape e) = .prism ∨ (shape e) = .pyramid) := by
  cases e with
  | vertex v => simp [Element.eclass, Eclass.dim] at h3
  | line l => simp [Element.eclass, Eclass.dim] at h3
  | quad q => simp [Element.eclass, Eclass.dim] at h3
  | triangle t => simp [Element.eclass, Eclass.dim] at h3
  | hex x =>
    refine ⟨_, bounded_hex, rfl, fun f hf => ?_, hull_hex, Or.inl rfl⟩
    exact hex_corners D x hf
  | tet t => exact ⟨_, bounded_tet, rfl, fun f _ => rfl, hull_tet, Or.inr (Or.inl rfl)⟩
  | prism p => exact ⟨_, bounded_prism, rfl, fun f _ => rfl, hull_prism, Or.inr (Or.inr (Or.inl rfl))⟩
  | pyramid p =>
    have ht := Pyramid.type_lt (Pyramid.Valid.good he)
    by_cases h : Pyramid.isPyra p = true
    · have hsh : shape (.pyramid p) = .pyramid := by rw [shape, if_pos h]
      have h6 := (Pyramid.isPyra_iff p).1 h
      have h67 : p.type = 6 ∨ p.type = 7 := by omega
      rw [hsh]
      rcases h67 with h67 | h67
      · exact ⟨_, bounded_pyramid6, by simp [Element.numFaces, Pyramid.numFaces, h], fun f _ => by
          rw [faceCorners, Pyramid.faceCorners, if_pos h, h67]; rfl, hull_pyramid, by simp⟩
      · exact ⟨_, bounded_pyramid7, by simp [Element.numFaces, Pyramid.numFaces, h], fun f _ => by
          rw [faceCorners, Pyramid.faceCorners, if_pos h, h67]; rfl, hull_pyramid, by simp⟩
    · have hsh : shape (.pyramid p) = .tet := by rw [shape, if_neg h]
      rw [hsh]
      exact ⟨_, bounded_tet, by simp [Element.numFaces, Pyramid.numFaces, h], fun f _ => by
          rw [faceCorners, Pyramid.faceCorners, if_neg h]; rfl, hull_tet, by simp⟩

/-- The faces of elements of dimension three are triangles or quads. -/
theorem faceShape_dim3 {e : Element} (h3 : e.eclass.dim = 3) (f : Nat) : faceShape e f = .quad ∨ faceShape e f = .triangle := by
  cases e with
  | vertex v => simp [Element.eclass, Eclass.dim] at h3
  | line l => simp [Element.eclass, Eclass.dim] at h3
  | quad q => simp [Element.eclass, Eclass.dim] at h3
  | triangle t => simp [Element.eclass, Eclass.dim] at h3
  | hex x => simp [faceShape]
  | tet t => simp [faceShape]
  | prism p => rw [faceShape]; split <;> simp
  | pyramid p => rw [faceShape]; split <;> simp

theorem faceNormal_dim3 (sqrt : ℚ → ℚ) (S : P4ests) (V : Nat → Point) {e : Element} (h3 : e.eclass.dim = 3) (f : Nat) :
    faceNormal sqrt S V e f =
      let a := facePoint S V e f 0
      let normal := cross (minus (facePoint S V e f 1) a) (minus (facePoint S V e f 2) a)
      times normal (1 / if 0 < dot (minus (linearCentroid S V e) a) normal then -norm sqrt normal else norm sqrt normal) := by
  rw [faceNormal]
  rcases faceShape_dim3 h3 f with h | h <;> rw [h]

/-- The centroid of an element in its frame. -/
theorem centroid_frame {S : P4ests} {V : Nat → Point} {e : Element} {o b0 b1 b2 : Point} (hC : Corners S V e o b0 b1 b2) :
    linearCentroid S V e = at_ o b0 b1 b2 (centroidRefCoords (shape e)) := by
  funext k
  rw [linearCentroid]
  rw [sum_map_congr (g := fun v => at_ o b0 b1 b2 (cornerRefCoords (shape e) v) k) (fun v hv => hC v hv k)]
  rw [sum_range]
  simp only [at_]
  cases shape e <;> simp [Eclass.numVertices, centroidRefCoords, cornerRefCoords, cornerRefTable] <;> ring

/-- The test of the volume elements. -/
theorem volume_inside {sqrt : ℚ → ℚ} (hs : ∀ x, 0 < x → 0 < sqrt x) {S : P4ests} (D : S.Documented) {V : Nat → Point} {e : Element}
    (he : e.Valid S) (hV : Flat e.eclass V) (p : Point) (tol : ℚ) :
    ∃ b, pointInside sqrt S V e p tol = some b ∧ (b = true ↔ InHull (shape e).numVertices (elementCoordinate S V e) p) := by
  obtain ⟨h3, o, a0, a1, a2, hF, hd⟩ := hV
  obtain ⟨o', b0, b1, b2, hC, hdet⟩ := element_frame he h3 hF
  have hD : det b0 b1 b2 ≠ 0 := fun h0 => by
    rw [h0, abs_zero] at hdet
    have : 0 < |det a0 a1 a2| / 8 ^ e.level := div_pos (abs_pos.2 hd) (by positivity)
    rw [← hdet] at this; exact lt_irrefl _ this
  obtain ⟨L, hB, hn, hL, hH, hsh⟩ := face_table D he h3
  obtain ⟨r, rfl⟩ := exists_at (o := o') hD p
  have hC' : ∀ v < (shape e).numVertices, elementCoordinate S V e v = at_ o' b0 b1 b2 (cornerRefCoords (shape e) v) := fun v hv =>
    funext fun k => hC v hv k
  refine ⟨(List.range e.numFaces).all fun f =>
      planePointInside (facePoint S V e f 0) (faceNormal sqrt S V e f) (at_ o' b0 b1 b2 r), ?_, ?_⟩
  · rw [pointInside]
    rcases hsh with h | h | h | h <;> rw [h]
  · rw [hull_frame hD hC', hH, ← hB.2.2 r, List.all_eq_true, hn]
    have hp : ∀ f < L.length, ∀ i < 3, facePoint S V e f i = at_ o' b0 b1 b2 (refFacePoint (shape e) L f i) := fun f hf i hi => by
      rw [facePoint, hL f hf, hC' _ (hB.2.1 f hf i hi)]; rfl
    constructor
    · intro h f hf
      have := h f (List.mem_range.2 hf)
      rw [faceNormal_dim3 sqrt S V h3, hp f hf 0 (by omega), hp f hf 1 (by omega), hp f hf 2 (by omega), centroid_frame hC] at this
      exact (plane_iff hs hD _ _ _ _ _ (hB.1 f hf)).1 this
    · intro h f hf
      rw [List.mem_range] at hf
      rw [faceNormal_dim3 sqrt S V h3, hp f hf 0 (by omega), hp f hf 1 (by omega), hp f hf 2 (by omega), centroid_frame hC]
      exact (plane_iff hs hD _ _ _ _ _ (hB.1 f hf)).2 (h f hf)

end T8.Geometry
