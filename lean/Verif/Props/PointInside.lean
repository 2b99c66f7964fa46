/-
C61: the tests whether a point is inside an element.

For elements of dimension three in trees that are affine images of the reference tree (in particular in all tetrahedra), the
test is exact: a point is inside if and only if it is in the convex hull of the corners of the element. In
lower dimensions no point of the element is missed, and the points that are accepted are described by the tolerance.
-/
import Verif.Lemmas.PointInside
import Verif.Props.Geometry
import Mathlib.Data.Fintype.Pi

namespace T8.Geometry
open Neighbor

/-! ### Dimension three -/

/-- The square roots of positive numbers are positive: all that the test in dimension three needs. -/
def Positive (sqrt : ℚ → ℚ) : Prop := ∀ x, 0 < x → 0 < sqrt x

/-- The test of elements of dimension three: the process does not abort, and the point is inside if and only if it is in the convex hull
of the corners of the element. -/
theorem C61_volume {sqrt : ℚ → ℚ} (hs : Positive sqrt) (S : P4ests) (D : S.Documented) (V : Nat → Point) (e : Element) (he : e.Valid S)
    (hV : Flat e.eclass V) (p : Point) (tol : ℚ) :
    ∃ b, pointInside sqrt S V e p tol = some b ∧ (b = true ↔ InHull (shape e).numVertices (elementCoordinate S V e) p) :=
  volume_inside hs D he hV p tol

/-- All tetrahedra whose volume is not zero are affine images of the reference tree. -/
theorem C61_tet_flat (V : Nat → Point) (h : det (minus (V 1) (V 0)) (minus (V 2) (V 0)) (minus (V 3) (V 0)) ≠ 0) : Flat .tet V := by
  refine ⟨rfl, V 0, minus (V 1) (V 0), minus (V 3) (V 2), minus (V 2) (V 1), ?_, fun h0 => h ?_⟩
  · intro v hv k
    have hv' : v < 4 := hv
    interval_cases v <;> simp [unit, unitCorner, minus]
    ring
  · simp only [det, minus] at h0 ⊢
    linear_combination -h0

/-- Every point of the tree is in one of the elements of a list that covers it, in dimension three: hulls and tests agree, so an
element is found for a point exactly if there is an element that contains it. -/
theorem C61_found {sqrt : ℚ → ℚ} (hs : Positive sqrt) (S : P4ests) (D : S.Documented) (V : Nat → Point) (c : Eclass) (hV : Flat c V)
    (elements : List Element) (hE : ∀ e ∈ elements, e.Valid S ∧ e.eclass = c) (p : Point) (tol : ℚ) :
    (∃ e ∈ elements, InHull (shape e).numVertices (elementCoordinate S V e) p) ↔
    (elements.filter fun e => pointInside sqrt S V e p tol = some true) ≠ [] := by
  rw [ne_eq, List.filter_eq_nil_iff]
  push Not
  constructor
  · rintro ⟨e, he, h⟩
    obtain ⟨b, hb, hi⟩ := C61_volume hs S D V e (hE e he).1 ((hE e he).2 ▸ hV) p tol
    exact ⟨e, he, by simp [hb, hi.2 h]⟩
  · rintro ⟨e, he, h⟩
    obtain ⟨b, hb, hi⟩ := C61_volume hs S D V e (hE e he).1 ((hE e he).2 ▸ hV) p tol
    refine ⟨e, he, hi.1 ?_⟩
    have h' := of_decide_eq_true h
    rw [hb] at h'
    exact Option.some.inj h'

/-- Finding: in dimension three the tolerance has no effect. It is documented that more points are found with a larger
tolerance (t8_forest_general.h:948). -/
theorem C61_tolerance_false (sqrt : ℚ → ℚ) (S : P4ests) (V : Nat → Point) (e : Element) (h3 : e.eclass.dim = 3) (p : Point) (tol tol' : ℚ) :
    pointInside sqrt S V e p tol = pointInside sqrt S V e p tol' := by
  cases e with
  | vertex v => simp [Element.eclass, Eclass.dim] at h3
  | line l => simp [Element.eclass, Eclass.dim] at h3
  | quad q => simp [Element.eclass, Eclass.dim] at h3
  | triangle t => simp [Element.eclass, Eclass.dim] at h3
  | hex x => rfl
  | tet t => rfl
  | prism q => rfl
  | pyramid q =>
    rw [pointInside, pointInside]
    by_cases h : Pyramid.isPyra q = true
    · rw [show shape (.pyramid q) = .pyramid by rw [shape, if_pos h]]
    · rw [show shape (.pyramid q) = .tet by rw [shape, if_neg h]]

/-! ### Triangles and quads -/

/-- The point `p` agrees with a point of the triangle `a`, `b`, `c` up to the tolerance: in the coordinates of the triangle, and in
the third coordinate. -/
def NearTriangle (a b c p : Point) (tol : ℚ) : Prop :=
  ∃ x y : ℚ, -tol ≤ x ∧ -tol ≤ y ∧ x + y ≤ 1 + tol ∧
    p 0 = a 0 + x * (b 0 - a 0) + y * (c 0 - a 0) ∧ p 1 = a 1 + x * (b 1 - a 1) + y * (c 1 - a 1) ∧
    |p 2 - (a 2 + x * (b 2 - a 2) + y * (c 2 - a 2))| ≤ tol

/-- Seen from above, the triangle is not a line. -/
def Upright (a b c : Point) : Prop := (b 0 - a 0) * (c 1 - a 1) - (b 1 - a 1) * (c 0 - a 0) ≠ 0

theorem triangle_iff {a b c : Point} (h : Upright a b c) (p : Point) (tol : ℚ) :
    trianglePointInside a (minus b a) (minus c a) p tol = true ↔ NearTriangle a b c p tol := by
  have h' : minus b a 0 * minus c a 1 - minus b a 1 * minus c a 0 ≠ 0 := fun h0 => h (by simp only [minus] at h0; linarith)
  rw [trianglePointInside]
  simp only [Ext.div, if_pos h', Ext.lt, Ext.gt, Ext.add, Ext.mul, Ext.abs]
  set X := (minus p a 0 * minus c a 1 - minus p a 1 * minus c a 0) / (minus b a 0 * minus c a 1 - minus b a 1 * minus c a 0) with hX
  set Y := (minus b a 0 * minus p a 1 - minus b a 1 * minus p a 0) / (minus b a 0 * minus c a 1 - minus b a 1 * minus c a 0) with hY
  have eX := (eq_div_iff h').1 hX
  have eY := (eq_div_iff h').1 hY
  have key : (if (decide (X < -tol) || decide (Y < -tol) || decide (1 + tol < X + Y)) = true then false
      else !decide (tol < |minus b a 2 * X + minus c a 2 * Y + -minus p a 2|)) = true ↔
      -tol ≤ X ∧ -tol ≤ Y ∧ X + Y ≤ 1 + tol ∧ |minus b a 2 * X + minus c a 2 * Y + -minus p a 2| ≤ tol := by
    simp only [Bool.or_eq_true, decide_eq_true_iff]
    by_cases hc : (X < -tol ∨ Y < -tol) ∨ 1 + tol < X + Y
    · rw [if_pos hc]
      constructor
      · intro h1; cases h1
      · rintro ⟨h1, h2, h3, _⟩
        rcases hc with (hc | hc) | hc <;> linarith
    · rw [if_neg hc]
      simp only [not_or, not_lt] at hc
      simp [hc.1.1, hc.1.2, hc.2]
  rw [key]
  constructor
  · rintro ⟨h1, h2, h3, h4⟩
    refine ⟨X, Y, h1, h2, h3, ?_, ?_, ?_⟩
    · apply mul_right_cancel₀ h'
      simp only [minus] at eX eY ⊢
      linear_combination -(b 0 - a 0) * eX - (c 0 - a 0) * eY
    · apply mul_right_cancel₀ h'
      simp only [minus] at eX eY ⊢
      linear_combination -(b 1 - a 1) * eX - (c 1 - a 1) * eY
    · rw [abs_sub_comm]
      refine le_trans (le_of_eq ?_) h4
      congr 1; simp only [minus]; ring
  · rintro ⟨x, y, h1, h2, h3, e0, e1, h4⟩
    have hx : X = x := by
      apply mul_right_cancel₀ h'
      rw [eX]; simp only [minus, e0, e1]; ring
    have hy : Y = y := by
      apply mul_right_cancel₀ h'
      rw [eY]; simp only [minus, e0, e1]; ring
    rw [hx, hy]
    refine ⟨h1, h2, h3, ?_⟩
    rw [abs_sub_comm] at h4
    refine le_trans (le_of_eq ?_) h4
    congr 1; simp only [minus]; ring

/-- Triangles that are not perpendicular to the plane of the first two coordinates: exactly the points that agree with a point of the
triangle up to the tolerance are inside. -/
theorem C61_triangle (sqrt : ℚ → ℚ) (S : P4ests) (V : Nat → Point) (t : Simplex.Elem 2) (p : Point) (tol : ℚ)
    (h : Upright (elementCoordinate S V (.triangle t) 0) (elementCoordinate S V (.triangle t) 1) (elementCoordinate S V (.triangle t) 2)) :
    pointInside sqrt S V (.triangle t) p tol = some true ↔ NearTriangle (elementCoordinate S V (.triangle t) 0)
      (elementCoordinate S V (.triangle t) 1) (elementCoordinate S V (.triangle t) 2) p tol := by
  rw [← triangle_iff h p tol]
  exact ⟨fun h => Option.some.inj h, fun h => congrArg some h⟩

/-- The same for quads, with the two triangles that the code divides them in. -/
theorem C61_quad (sqrt : ℚ → ℚ) (S : P4ests) (V : Nat → Point) (t : Standalone.Elem 2) (p : Point) (tol : ℚ)
    (h : Upright (elementCoordinate S V (.quad t) 0) (elementCoordinate S V (.quad t) 1) (elementCoordinate S V (.quad t) 2))
    (h' : Upright (elementCoordinate S V (.quad t) 1) (elementCoordinate S V (.quad t) 2) (elementCoordinate S V (.quad t) 3)) :
    pointInside sqrt S V (.quad t) p tol = some true ↔
      NearTriangle (elementCoordinate S V (.quad t) 0) (elementCoordinate S V (.quad t) 1) (elementCoordinate S V (.quad t) 2) p tol ∨
      NearTriangle (elementCoordinate S V (.quad t) 1) (elementCoordinate S V (.quad t) 2) (elementCoordinate S V (.quad t) 3) p tol := by
  rw [← triangle_iff h p tol, ← triangle_iff h' p tol, ← Bool.or_eq_true]
  exact ⟨fun h => Option.some.inj h, fun h => congrArg some h⟩

/-! ### No point of an element is missed -/

theorem vertical_inside {v w b : Point} (p0 p : Point) (hb : minus p p0 = b) (tol : ℚ) (h0 : v 0 * w 1 - v 1 * w 0 = 0)
    (h1 : b 0 * w 1 - b 1 * w 0 = 0) (h2 : v 0 * b 1 - v 1 * b 0 = 0) : trianglePointInside p0 v w p tol = true := by
  rw [trianglePointInside, hb]
  simp [Ext.div, h0, h1, h2, Ext.lt, Ext.gt, Ext.add, Ext.mul, Ext.abs]

theorem triangle_hull {a b c p : Point} {q : Nat → Point} (h : InHull 3 q p) (h0 : q 0 = a) (h1 : q 1 = b) (h2 : q 2 = c) {tol : ℚ}
    (ht : 0 ≤ tol) : trianglePointInside a (minus b a) (minus c a) p tol = true := by
  obtain ⟨w, hw, hs, hp⟩ := h
  simp only [sum_range] at hs hp
  have w0 := hw 0 (by omega); have w1 := hw 1 (by omega); have w2 := hw 2 (by omega)
  subst h0 h1 h2
  have e : ∀ k, minus p (q 0) k = w 1 * minus (q 1) (q 0) k + w 2 * minus (q 2) (q 0) k := fun k => by
    simp only [minus, hp k]
    linear_combination (q 0 k) * hs
  by_cases hd : Upright (q 0) (q 1) (q 2)
  · rw [triangle_iff hd]
    refine ⟨w 1, w 2, by linarith, by linarith, by linarith, ?_, ?_, ?_⟩
    · have := e 0; simp only [minus] at this; linarith
    · have := e 1; simp only [minus] at this; linarith
    · have := e 2; simp only [minus] at this
      have : p 2 - (q 0 2 + w 1 * (q 1 2 - q 0 2) + w 2 * (q 2 2 - q 0 2)) = 0 := by linarith
      rw [this, abs_zero]; exact ht
  · have hd' : minus (q 1) (q 0) 0 * minus (q 2) (q 0) 1 - minus (q 1) (q 0) 1 * minus (q 2) (q 0) 0 = 0 := by
      have := not_not.1 hd
      simp only [minus]; linarith
    refine vertical_inside _ _ rfl tol hd' ?_ ?_
    · rw [e 0, e 1]; linear_combination w 1 * hd'
    · rw [e 0, e 1]; linear_combination w 2 * hd'

/-- A parallelogram is the union of its two halves. -/
theorem hull_split {q : Nat → Point} (h3 : ∀ k, q 3 k = q 1 k + q 2 k - q 0 k) {p : Point} (h : InHull 4 q p) :
    InHull 3 q p ∨ InHull 3 (fun v => q (v + 1)) p := by
  obtain ⟨w, hw, hs, hp⟩ := h
  simp only [sum_range] at hs hp
  have w0 := hw 0 (by omega); have w1 := hw 1 (by omega); have w2 := hw 2 (by omega); have w3 := hw 3 (by omega)
  rcases le_total (w 3) (w 0) with h | h
  · refine Or.inl ⟨fun v => [w 0 - w 3, w 1 + w 3, w 2 + w 3].getD v 0, ?_, ?_, fun k => ?_⟩
    · intro v hv
      interval_cases v <;> simp <;> linarith
    · rw [sum_range]; simp; linarith
    · rw [sum_range, hp k, h3 k]; simp; ring
  · refine Or.inr ⟨fun v => [w 1 + w 0, w 2 + w 0, w 3 - w 0].getD v 0, ?_, ?_, fun k => ?_⟩
    · intro v hv
      interval_cases v <;> simp <;> linarith
    · rw [sum_range]; simp; linarith
    · rw [sum_range, hp k]; simp [h3 k]; ring

/-- The elements of a quad that is a parallelogram are parallelograms. -/
theorem quad_parallelogram (S : P4ests) {V : Nat → Point} (hV : ∀ k, V 3 k = V 1 k + V 2 k - V 0 k) {t : Standalone.Elem 2}
    (ht : Element.Valid S (.quad t)) (k : Fin 3) :
    elementCoordinate S V (.quad t) 3 k =
      elementCoordinate S V (.quad t) 1 k + elementCoordinate S V (.quad t) 2 k - elementCoordinate S V (.quad t) 0 k := by
  have h : ∀ v < 4, vertexRefCoords S (.quad t) v = refCoords S (.quad t) (cornerRefCoords .quad v) := fun v hv => by
    rw [vertexRefCoords_eq ht hv]; exact (refCoords_corner ht hv).symm
  simp only [elementCoordinate, h 0 (by omega), h 1 (by omega), h 2 (by omega), h 3 (by omega)]
  simp [linearGeometry, Element.eclass, linearInterpolation, refCoords, cornerRefCoords, cornerRefTable, hV]
  ring

/-- A nonzero direction has a coordinate that is found. -/
theorem find_direction {v : Point} (h : ∃ i, v i ≠ 0) : ∃ i, (List.finRange 3).find? (fun i => v i ≠ 0) = some i ∧ v i ≠ 0 := by
  obtain ⟨i, hi⟩ := h
  cases hf : (List.finRange 3).find? (fun i => v i ≠ 0) with
  | none =>
    rw [List.find?_eq_none] at hf
    exact absurd (by simpa using hi) (hf i (List.mem_finRange i))
  | some j => exact ⟨j, rfl, by have := List.find?_some (p := fun i => decide (v i ≠ 0)) hf; simpa using this⟩

theorem dist_self {sqrt : ℚ → ℚ} (h0 : sqrt 0 = 0) (a : Point) : dist sqrt a a = 0 := by
  rw [dist, show dot (minus a a) (minus a a) = 0 by simp [dot, minus], h0]

theorem vertex_hull {sqrt : ℚ → ℚ} (h0 : sqrt 0 = 0) {q : Nat → Point} {a p : Point} (hp : InHull 1 q p) (ha : q 0 = a) {tol : ℚ}
    (ht : 0 ≤ tol) : vertexPointInside sqrt a p tol = true := by
  obtain ⟨w, _, h1, h2⟩ := hp
  simp only [sum_range] at h1 h2
  have : p = a := funext fun k => by rw [h2 k, h1, one_mul, ha]
  rw [this, vertexPointInside, dist_self h0]
  simpa using ht

theorem line_hull {sqrt : ℚ → ℚ} (h0 : sqrt 0 = 0) {q : Nat → Point} {a b p : Point} (hp : InHull 2 q p) (ha : q 0 = a) (hb : q 1 = b)
    (hne : a ≠ b) {tol : ℚ} (ht : 0 ≤ tol) : linePointInside sqrt a (minus b a) p tol = some true := by
  obtain ⟨w, hw, h1', h2'⟩ := hp
  simp only [sum_range, ha, hb] at h1' h2'
  have w0 := hw 0 (by omega); have w1 := hw 1 (by omega)
  have hex : ∃ i, minus b a i ≠ 0 := by
    by_contra hn
    push Not at hn
    exact hne (funext fun k => by have := hn k; simp only [minus] at this; linarith)
  obtain ⟨i, hf, hi⟩ := find_direction hex
  have e : ∀ k, minus p a k = w 1 * minus b a k := fun k => by
    simp only [minus, h2' k]; linear_combination (a k) * h1'
  have hx : minus p a i / minus b a i = w 1 := by rw [e i]; field_simp
  have hz : times (minus b a) (w 1) = minus p a := funext fun k => by rw [e k, times]; ring
  rw [linePointInside]
  simp only [hf, hx, hz]
  rw [if_neg (by push Not; exact ⟨by linarith, by linarith⟩), if_neg (by rw [dist_self h0]; exact not_lt.2 ht)]

/-- The elements whose corners are as the tests expect: the trees of dimension three are flat, quads are parallelograms, and the end points
of lines are different. -/
def Regular (S : P4ests) (V : Nat → Point) (e : Element) : Prop :=
  (e.eclass.dim = 3 → Flat e.eclass V) ∧ (e.eclass = .quad → ∀ k, V 3 k = V 1 k + V 2 k - V 0 k) ∧
    (e.eclass = .line → elementCoordinate S V e 0 ≠ elementCoordinate S V e 1)

/-- All points in the convex hull of the corners of an element are inside, for all classes and all tolerances that are not negative. -/
theorem C61_complete {sqrt : ℚ → ℚ} (hs : Positive sqrt) (h0 : sqrt 0 = 0) (S : P4ests) (D : S.Documented) (V : Nat → Point) (e : Element)
    (he : e.Valid S) (hV : Regular S V e) (p : Point) {tol : ℚ} (ht : 0 ≤ tol)
    (hp : InHull (shape e).numVertices (elementCoordinate S V e) p) : pointInside sqrt S V e p tol = some true := by
  have three : e.eclass.dim = 3 → pointInside sqrt S V e p tol = some true := fun h3 => by
    obtain ⟨b, hb, hi⟩ := C61_volume hs S D V e he (hV.1 h3) p tol
    rw [hb, hi.2 hp]
  cases e with
  | vertex v => exact congrArg some (vertex_hull h0 hp rfl ht)
  | line l => exact line_hull h0 hp rfl rfl (hV.2.2 rfl) ht
  | quad t =>
    show some (_ || _) = some true
    rcases hull_split (quad_parallelogram S (hV.2.1 rfl) he) hp with h | h
    · rw [triangle_hull h rfl rfl rfl ht]; rfl
    · rw [triangle_hull (q := fun v => elementCoordinate S V (.quad t) (v + 1)) h rfl rfl rfl ht, Bool.or_true]
  | triangle t =>
    show some _ = some true
    rw [triangle_hull hp rfl rfl rfl ht]
  | hex x => exact three rfl
  | tet x => exact three rfl
  | prism x => exact three rfl
  | pyramid x => exact three rfl

/-- A point that is accepted for a line is close to a point of the line that is prolonged by the tolerance. -/
theorem C61_line (sqrt : ℚ → ℚ) (S : P4ests) (V : Nat → Point) (l : Dline.Line) (p : Point) (tol : ℚ)
    (h : pointInside sqrt S V (.line l) p tol = some true) : ∃ x, -tol ≤ x ∧ x ≤ 1 + tol ∧
      let a := elementCoordinate S V (.line l) 0
      let b := elementCoordinate S V (.line l) 1
      dist sqrt (fun k => a k + x * (b k - a k)) p ≤ tol := by
  replace h : linePointInside sqrt (elementCoordinate S V (.line l) 0)
    (minus (elementCoordinate S V (.line l) 1) (elementCoordinate S V (.line l) 0)) p tol = some true := h
  rw [linePointInside] at h
  generalize elementCoordinate S V (.line l) 0 = a at *
  generalize elementCoordinate S V (.line l) 1 = b at *
  simp only at h
  split at h
  · cases h
  · rename_i i hi
    set x := minus p a i / minus b a i
    split at h
    · cases h
    · rename_i h1
      push Not at h1
      split at h
      · cases h
      · rename_i h2
        refine ⟨x, h1.1, h1.2, ?_⟩
        have : dist sqrt (fun k => a k + x * (b k - a k)) p = dist sqrt (times (minus b a) x) (minus p a) := by
          simp only [dist]
          congr 1
          simp only [dot, minus, times]; ring
        show dist sqrt (fun k => a k + x * (b k - a k)) p ≤ tol
        rw [this]; exact not_lt.1 h2

/-! ### Findings -/

/-- Finding: for a triangle that is perpendicular to the plane of the first two coordinates, all points of its plane are inside, however
far away: both solutions are 0/0, and comparisons with NaN are false. -/
theorem C61_vertical_false (sqrt : ℚ → ℚ) (S : P4ests) (V : Nat → Point) (t : Simplex.Elem 2) (tol x y : ℚ)
    (h : ¬Upright (elementCoordinate S V (.triangle t) 0) (elementCoordinate S V (.triangle t) 1) (elementCoordinate S V (.triangle t) 2)) :
    let q := elementCoordinate S V (.triangle t)
    pointInside sqrt S V (.triangle t) (fun k => q 0 k + x * (q 1 k - q 0 k) + y * (q 2 k - q 0 k)) tol = some true := by
  intro q
  have hd : minus (q 1) (q 0) 0 * minus (q 2) (q 0) 1 - minus (q 1) (q 0) 1 * minus (q 2) (q 0) 0 = 0 := by
    have := not_not.1 h
    simp only [minus]; linarith
  show some _ = some true
  rw [vertical_inside (q 0) _ rfl tol hd ?_ ?_]
  · simp only [minus] at hd ⊢
    linear_combination x * hd
  · simp only [minus] at hd ⊢
    linear_combination y * hd

/-- The root triangle with the vertices (0,0,0), (1,0,0), (1,0,1), for the finding. -/
def upright : Nat → Point := fun v => [![0, 0, 0], ![1, 0, 0], ![1, 0, 1]].getD v ![0, 0, 0]

/-- The point (1000, 0, -7) is "inside" this triangle. -/
theorem C61_vertical_example (sqrt : ℚ → ℚ) (S : P4ests) :
    pointInside sqrt S upright (.triangle (Simplex.root .tri)) ![1000, 0, -7] (1 / 1000) = some true := by
  have h' : ∀ v < 3, linearGeometry .triangle upright ![real (Simplex.integerCoords .tri (Simplex.root .tri) v (0 : Fin 2)) / 2 ^ 29,
      real (Simplex.integerCoords .tri (Simplex.root .tri) v (1 : Fin 2)) / 2 ^ 29, 0] = upright v := by decide +kernel
  have h : ∀ v < 3, elementCoordinate S upright (.triangle (Simplex.root .tri)) v = upright v := h'
  have := C61_vertical_false sqrt S upright (Simplex.root .tri) (1 / 1000) 1007 (-7) (by
    simp [h 0, h 1, h 2, Upright, upright])
  simp only [h 0 (by omega), h 1 (by omega), h 2 (by omega)] at this
  rw [← this]
  congr 1
  decide +kernel

/-- Finding: the line test solves the equation in the first coordinate in which the end points differ. If they differ only a little there, a point
that is closer to the line than the tolerance is rejected: the line from (0,0,0) to (1/1000,1,0), the point (1/200,1/2,0) and the
tolerance 1/100. -/
theorem C61_line_tolerance_false (sqrt : ℚ → ℚ) :
    linePointInside sqrt ![0, 0, 0] ![1 / 1000, 1, 0] ![1 / 200, 1 / 2, 0] (1 / 100) = some false ∧
    (fun d => dot d d) (minus ![1 / 200, 1 / 2, 0] (times ![1 / 1000, 1, 0] (1 / 2))) < (1 / 100) ^ 2 := by
  have hf : (List.finRange 3).find? (fun i => (![1 / 1000, 1, 0] : Point) i ≠ 0) = some 0 := by decide +kernel
  constructor
  · rw [linePointInside]
    simp only [hf]
    rw [if_pos (by simp [minus]; norm_num)]
  · decide +kernel

/-- The unit cube, with vertex 7 moved to (2,2,2): its faces at this vertex are not planar. -/
def bulged : Nat → Point := fun v => if v = 7 then ![2, 2, 2] else cornerRefCoords .hex v

theorem root_corner (S : P4ests) (v : Nat) (hv : v < 8) :
    toRef S .hex (cornerPoint S (rootOf .hex) v) = fun k => (unit .hex v k.val : ℚ) := by
  funext k
  have h : unit .hex v k.val = v / 2 ^ k.val % 2 := by
    revert v; revert k; decide
  rw [h, toRef]
  simp only [cornerPoint, rootOf, Standalone.root, rootLength]
  push_cast
  have : (2 : ℚ) ^ S.M ≠ 0 := by positivity
  field_simp
  simp

/-- Finding: for hexahedra with faces that are not planar, points of the element are rejected: here vertex 7 of the tree itself. The comment at the
test (t8_geometry_linear.cxx:154) says that it is exact for all bilinearly interpolated elements. -/
theorem C61_planar_false {sqrt : ℚ → ℚ} (hs : Positive sqrt) (S : P4ests) (D : S.Documented) (tol : ℚ) :
    pointInside sqrt S bulged (rootOf .hex) (bulged 7) tol = some false := by
  have he : Element.Valid S (rootOf .hex) := (root_valid S .hex).1
  have hc : ∀ v < 8, elementCoordinate S bulged (rootOf .hex) v = bulged v := fun v hv => by
    rw [← C59_tree_corners .hex bulged v hv, elementCoordinate, vertexRefCoords_eq he hv]
    exact congrArg (linearGeometry .hex bulged) (root_corner S v hv)
  have hf : faceCorners S (rootOf .hex) 1 = [1, 3, 5, 7] := hex_corners D _ (f := 1) (by omega)
  have h0 : facePoint S bulged (rootOf .hex) 1 0 = ![1, 0, 0] := by
    rw [facePoint, hf]; exact (hc 1 (by omega)).trans (by decide +kernel)
  have h1 : facePoint S bulged (rootOf .hex) 1 1 = ![1, 1, 0] := by
    rw [facePoint, hf]; exact (hc 3 (by omega)).trans (by decide +kernel)
  have h2 : facePoint S bulged (rootOf .hex) 1 2 = ![1, 0, 1] := by
    rw [facePoint, hf]; exact (hc 5 (by omega)).trans (by decide +kernel)
  have hz : linearCentroid S bulged (rootOf .hex) = ![5 / 8, 5 / 8, 5 / 8] := by
    funext k
    rw [linearCentroid]
    have : ∀ k, ((List.range 8).map fun v => bulged v k).sum * (1 / 8) = (![5 / 8, 5 / 8, 5 / 8] : Point) k := by decide +kernel
    rw [← this k]
    exact congrArg (· * (1 / 8 : ℚ)) (sum_map_congr (n := 8) fun v hv => congrFun (hc v hv) k)
  have hN : 0 < norm sqrt ![1, 0, 0] := hs _ (by decide +kernel)
  have hx : planePointInside (facePoint S bulged (rootOf .hex) 1 0) (faceNormal sqrt S bulged (rootOf .hex) 1) (bulged 7) = false := by
    rw [faceNormal_dim3 sqrt S bulged rfl, h0, h1, h2, hz]
    have hcr : cross (minus ![1, 1, 0] ![1, 0, 0]) (minus ![1, 0, 1] ![1, 0, 0]) = ![1, 0, 0] := by decide +kernel
    simp only [hcr]
    rw [if_neg (by decide +kernel), planePointInside, dot_scale,
      show dot (minus ![1, 0, 0] (bulged 7)) ![1, 0, 0] = -1 by decide +kernel]
    have : 0 < 1 / norm sqrt ![1, 0, 0] := by positivity
    simp only [Bool.not_eq_false', decide_eq_true_iff]
    linarith
  show some _ = some false
  congr 1
  rw [List.all_eq_false]
  exact ⟨1, List.mem_range.2 (by show 1 < 6; omega), by rw [hx]; simp⟩

/-! ### Axis-aligned trees -/

/-- The vertices of an axis-aligned box of dimension three: the first is smaller than the second in every coordinate. -/
def Box (V : Nat → Point) : Prop := ∀ k, V 0 k < V 1 k

/-- The test of the axis-aligned geometry for hexahedra, with tolerance 0: a point is inside if and only if it is in the convex hull of the
corners of the element. -/
theorem C61_axis_aligned (S : P4ests) (V : Nat → Point) (hV : Box V) (x : Standalone.Elem 3) (hx : Element.Valid S (.hex x)) (p : Point) :
    axisAlignedPointInside S V (.hex x) p 0 = true ↔ InHull 8 (axisAlignedCoordinate S V (.hex x)) p := by
  have hx' : Standalone.Valid S.M x := hx.1
  have hg := (cube_anchor S.hM.2 hx' (0 : Fin 3)).2
  let g : ℚ := real (Standalone.getLen S.M x.level) / 2 ^ S.M
  have hgp : 0 < g := by simp only [g, hg]; positivity
  have hr : ∀ (v : Nat), v < 8 → ∀ k, vertexRefCoords S (.hex x) v k = real (x.coords k) / 2 ^ S.M + g * cornerRefCoords .hex v k :=
    fun v hv k => by
      rw [vertexRefCoords_eq hx hv, ← refCoords_corner hx hv]
      show (_ + cornerRefCoords .hex v k * _) / _ = _
      simp only [g]; ring
  let d (k : Fin 3) : ℚ := V 1 k - V 0 k
  have hd : ∀ k, 0 < d k := fun k => sub_pos.2 (hV k)
  let o : Point := fun k => V 0 k + real (x.coords k) / 2 ^ S.M * d k
  have hq : ∀ v < 8, axisAlignedCoordinate S V (.hex x) v =
      at_ o ![g * d 0, 0, 0] ![0, g * d 1, 0] ![0, 0, g * d 2] (cornerRefCoords .hex v) := fun v hv => funext fun k => by
    rw [axisAlignedCoordinate, axisAlignedGeometry, hr v hv k]
    fin_cases k <;> simp [at_, o, d] <;> ring
  have hD : det ![g * d 0, 0, 0] ![0, g * d 1, 0] ![0, 0, g * d 2] ≠ 0 := by
    have : det ![g * d 0, 0, 0] ![0, g * d 1, 0] ![0, 0, g * d 2] = (g * d 0) * (g * d 1) * (g * d 2) := by simp [det]
    rw [this]
    exact (mul_pos (mul_pos (mul_pos hgp (hd 0)) (mul_pos hgp (hd 1))) (mul_pos hgp (hd 2))).ne'
  obtain ⟨r, rfl⟩ := exists_at (o := o) hD p
  rw [hull_frame hD hq, hull_hex]
  have h0 := hq 0 (by omega); have h7 := hq 7 (by omega)
  have p0 := mul_pos hgp (hd 0); have p1 := mul_pos hgp (hd 1); have p2 := mul_pos hgp (hd 2)
  simp only [axisAlignedPointInside, Bool.and_eq_true, decide_eq_true_iff]
  rw [if_neg (by simp [Element.eclass]), if_neg (by simp [Element.eclass]), h0, h7]
  have lo : ∀ {a r' : ℚ} (y : ℚ), 0 < a → (y ≤ y + r' * a ↔ 0 ≤ r') := fun y ha => by
    rw [le_add_iff_nonneg_right]; exact mul_nonneg_iff_of_pos_right ha
  have hi : ∀ {a r' : ℚ} (y : ℚ), 0 < a → (y + r' * a ≤ y + a ↔ r' ≤ 1) := fun y ha => by
    rw [add_le_add_iff_left]; exact mul_le_iff_le_one_left ha
  simp [at_, cornerRefCoords, cornerRefTable, InRef, lo _ p0, lo _ p1, lo _ p2, hi _ p0, hi _ p1, hi _ p2]
  tauto

/-- The tolerance enlarges the box. -/
theorem C61_axis_aligned_tolerance (S : P4ests) (V : Nat → Point) (e : Element) (p : Point) (tol tol' : ℚ) (h : tol ≤ tol')
    (hp : axisAlignedPointInside S V e p tol = true) : axisAlignedPointInside S V e p tol' = true := by
  simp only [axisAlignedPointInside, Bool.and_eq_true, decide_eq_true_iff] at hp ⊢
  obtain ⟨⟨⟨⟨⟨h1, h2⟩, h3⟩, h4⟩, h5⟩, h6⟩ := hp
  refine ⟨⟨⟨⟨⟨?_, ?_⟩, ?_⟩, ?_⟩, ?_⟩, ?_⟩ <;> linarith

/-- Finding: a line tree along the second axis passes the check of the vertices, but all its points are at its first vertex: coordinate `k` of the
geometry uses reference coordinate `k`, which is 0 for `k > 0`. -/
theorem C61_axis_aligned_line_false (S : P4ests) (V : Nat → Point) (h : V 1 0 = V 0 0) (l : Dline.Line) (v : Nat) :
    axisAlignedCoordinate S V (.line l) v = V 0 := by
  funext k
  rw [axisAlignedCoordinate, axisAlignedGeometry, vertexRefCoords]
  fin_cases k <;> simp [h]

/-! ### A concrete case -/

/-- A sheared pyramid: origin (1,2,3), directions (2,0,0), (1,3,0), (0,1,5). -/
def sheared : Nat → Point := fun v k =>
  (![1, 2, 3] : Point) k + unit .pyramid v 0 * (![2, 0, 0] : Point) k + unit .pyramid v 1 * (![1, 3, 0] : Point) k +
    unit .pyramid v 2 * (![0, 1, 5] : Point) k

theorem sheared_flat : Flat .pyramid sheared :=
  ⟨rfl, ![1, 2, 3], ![2, 0, 0], ![1, 3, 0], ![0, 1, 5], fun _ _ _ => rfl, by decide +kernel⟩

/-- The hypotheses hold for a tetrahedron of level 1 in the sheared pyramid, with a p4est as documented and a function that is positive, and its corner
0 is inside. -/
example : ∃ b, pointInside (fun x => x) reference sheared (.pyramid (Pyramid.child Pyramid.root 1))
      (elementCoordinate reference sheared (.pyramid (Pyramid.child Pyramid.root 1)) 0) 0 = some b ∧ b = true := by
  have hv : Pyramid.Valid (Pyramid.child Pyramid.root 1) := .child _ _ .root (by decide) (by decide)
  have hsh : shape (.pyramid (Pyramid.child Pyramid.root 1)) = .tet := by decide
  obtain ⟨b, hb, hi⟩ := C61_volume (sqrt := fun x => x) (fun _ h => h) reference
    ⟨Cube.Cls.quad.reference_documented, (Cube.Cls.hex 19 (by decide)).reference_documented⟩ sheared
    (.pyramid (Pyramid.child Pyramid.root 1)) hv sheared_flat (elementCoordinate reference sheared (.pyramid (Pyramid.child Pyramid.root 1)) 0) 0
  refine ⟨b, hb, hi.2 ?_⟩
  rw [hsh]
  refine ⟨fun v => if v = 0 then 1 else 0, ?_, ?_, fun k => ?_⟩
  · intro v _; show (0 : ℚ) ≤ if v = 0 then 1 else 0; split <;> decide
  · show ((List.range 4).map _).sum = _
    rw [sum_range]; simp
  · show _ = ((List.range 4).map _).sum
    rw [sum_range]; simp

end T8.Geometry
