/-
Elements of a tree that is an affine image of the reference tree are affine images of the reference elements.
-/
import Verif.Lemmas.GeometryCentroid
import Verif.Spec.PointInside
import Verif.Model.Measure
import Mathlib.Tactic.FieldSimp
import Mathlib.Tactic.Positivity
import Mathlib.Algebra.Order.Field.Basic
import Mathlib.Algebra.Order.Field.Rat
import Mathlib.Tactic.LinearCombination

namespace T8.Geometry
open Neighbor

/-- The matrix entries of the affine map of the reference element. -/
def RefFrame (S : P4ests) (e : Element) (A b c d : Point) : Prop :=
  ∀ r k, refCoords S e r k = A k + b k * r 0 + c k * r 1 + d k * r 2

theorem scaled {M l : Nat} (h : l ≤ M) : (2 : ℚ) ^ (M - l) / 2 ^ M = 1 / 2 ^ l := by
  rw [div_eq_div_iff (by positivity) (by positivity), one_mul, ← pow_add]
  congr 1; omega

theorem cube_eighth (l : Nat) : (1 / 2 ^ l : ℚ) ^ 3 = 1 / 8 ^ l := by
  rw [div_pow, one_pow, ← pow_mul, Nat.mul_comm, pow_mul]; norm_num

theorem abs_cube {x : ℚ} {l : Nat} (h : x = (1 / 2 ^ l : ℚ) ^ 3 ∨ x = -(1 / 2 ^ l : ℚ) ^ 3) : |x| = 1 / 8 ^ l := by
  have hp : (0 : ℚ) < 1 / 8 ^ l := by positivity
  rcases h with h | h <;> rw [h, cube_eighth]
  · exact abs_of_pos hp
  · rw [abs_neg]; exact abs_of_pos hp

theorem tet_det (y : Nat) (hy : y < 6) (g : ℚ) :
    let i (k : Fin 3) (j : Nat) : ℚ := if k.val = j then 1 else 0
    let o1 := (y / 2 + (if y % 2 = 0 then 1 else 2)) % 3
    let o2 := (y / 2 + (if y % 2 = 0 then 2 else 1)) % 3
    det (fun k => i k (y / 2) * g) (fun k => i k o1 * g) (fun k => i k o2 * g) = g ^ 3 ∨
    det (fun k => i k (y / 2) * g) (fun k => i k o1 * g) (fun k => i k o2 * g) = -g ^ 3 := by
  simp only [det]
  interval_cases y <;> norm_num <;> (first | (left; ring; done) | (right; ring; done))

theorem tet_frame (t : Simplex.Elem 3) (hl : t.level ≤ 21) (ht : t.type < 6) : ∃ A b c d : Point,
    (∀ r k, tetRefCoords t r k = A k + b k * r 0 + c k * r 1 + d k * r 2) ∧ |det b c d| = 1 / 8 ^ t.level := by
  let g : ℚ := 1 / 2 ^ t.level
  let o0 := t.type / 2
  let o1 := (o0 + (if t.type % 2 = 0 then 1 else 2)) % 3
  let o2 := (o0 + (if t.type % 2 = 0 then 2 else 1)) % 3
  let i (k : Fin 3) (j : Nat) : ℚ := if k.val = j then 1 else 0
  have hg : real (Simplex.len .tet t.level) = g * 2 ^ 21 := by
    rw [Simplex.len, real_twoPow (by show 21 - _ ≤ 30; omega)]
    show (2 : ℚ) ^ (21 - t.level) = _
    have := scaled hl
    simp only [g, ← this]; norm_num
  refine ⟨fun k => real (t.x k) / 2 ^ 21, fun k => i k o0 * g, fun k => i k o1 * g, fun k => i k o2 * g, fun r k => ?_, abs_cube ?_⟩
  · rw [tetRefCoords]
    simp only [plusAt_eq, hg]
    simp only [i, o0, o1, o2]
    ring
  · exact tet_det t.type ht g

theorem tri_frame (t : Simplex.Elem 2) (hl : t.level ≤ 29) (ht : t.type < 2) : ∃ A b c : Point,
    (∀ r k, triRefCoords t r k = A k + b k * r 0 + c k * r 1) ∧
    (b 0 * c 1 - b 1 * c 0 = (1 / 2 ^ t.level : ℚ) ^ 2 ∨ b 0 * c 1 - b 1 * c 0 = -(1 / 2 ^ t.level : ℚ) ^ 2) ∧ b 2 = 0 ∧ c 2 = 0 := by
  let g : ℚ := 1 / 2 ^ t.level
  have hg : real (Simplex.len .tri t.level) = g * 2 ^ 29 := by
    rw [Simplex.len, real_twoPow (by show 29 - _ ≤ 30; omega)]
    show (2 : ℚ) ^ (29 - t.level) = _
    have := scaled hl
    simp only [g, ← this]; norm_num
  have h2 : t.type = 0 ∨ t.type = 1 := by omega
  rcases h2 with h2 | h2
  · refine ⟨![real (t.x 0) / 2 ^ 29, real (t.x 1) / 2 ^ 29, 0], ![g, 0, 0], ![0, g, 0], fun r k => ?_, ?_, rfl, rfl⟩
    · rw [triRefCoords, hg, h2]
      fin_cases k <;> simp [plusAt] <;> ring
    · left; show g * g - 0 * 0 = g ^ 2; ring
  · refine ⟨![real (t.x 0) / 2 ^ 29, real (t.x 1) / 2 ^ 29, 0], ![0, g, 0], ![g, 0, 0], fun r k => ?_, ?_, rfl, rfl⟩
    · rw [triRefCoords, hg, h2]
      fin_cases k <;> simp [plusAt] <;> ring
    · right; show 0 * 0 - g * g = -g ^ 2; ring

theorem line_frame (l : Dline.Line) (hl : l.level ≤ 30) : ∃ a : ℚ, ∀ r, lineRefCoord l r = a + 1 / 2 ^ l.level * r := by
  refine ⟨real l.x / 2 ^ 30, fun r => ?_⟩
  rw [lineRefCoord, Dline.len]
  rw [real_twoPow (by show 30 - _ ≤ 30; omega)]
  have : (2 : ℚ) ^ (30 - l.level) / 2 ^ 30 = 1 / 2 ^ l.level := scaled hl
  rw [← this]; show (_ + 2 ^ (30 - l.level) * _) / _ = _; ring

/-- The reference coordinates of the points of an element are an affine image of the reference element, scaled by the level. -/
theorem ref_frame {S : P4ests} {e : Element} (he : e.Valid S) (h3 : e.eclass.dim = 3) :
    ∃ A b c d : Point, RefFrame S e A b c d ∧ |det b c d| = 1 / 8 ^ e.level := by
  cases e with
  | vertex v => simp [Element.eclass, Eclass.dim] at h3
  | line l => simp [Element.eclass, Eclass.dim] at h3
  | quad q => simp [Element.eclass, Eclass.dim] at h3
  | triangle t => simp [Element.eclass, Eclass.dim] at h3
  | hex x =>
    have hx : Standalone.Valid S.M x := he.1
    have hg := (cube_anchor S.hM.2 hx (0 : Fin 3)).2
    have hs : (2 : ℚ) ^ (S.M - x.level) / 2 ^ S.M = 1 / 2 ^ x.level := scaled hx.1
    let g : ℚ := 1 / 2 ^ x.level
    refine ⟨fun k => real (x.coords k) / 2 ^ S.M, ![g, 0, 0], ![0, g, 0], ![0, 0, g], fun r k => ?_, ?_⟩
    · rw [refCoords]
      simp only [hg, g, ← hs]
      fin_cases k <;> simp <;> ring
    · apply abs_cube; left
      show _ = g ^ 3
      simp [det]; ring
  | tet t => exact tet_frame t he.1.1 he.2.1
  | prism p =>
    obtain ⟨A, b, c, h, hd, hb, hc⟩ := tri_frame p.1 he.1.1.1 he.1.2.1
    obtain ⟨a, h'⟩ := line_frame p.2 he.2.1.1
    have hl : p.2.level = p.1.level := he.2.2.1.symm
    refine ⟨![A 0, A 1, a], ![b 0, b 1, 0], ![c 0, c 1, 0], ![0, 0, 1 / 2 ^ p.2.level], fun r k => ?_, ?_⟩
    · fin_cases k <;> simp [refCoords, h, h']
    · apply abs_cube
      rw [show (Element.prism p).level = p.1.level from (by first | exact rfl | exact hl), hl]
      generalize (1 / 2 ^ p.1.level : ℚ) = g at *
      rcases hd with hd | hd
      · left; simp [det]; linear_combination g * hd
      · right; simp [det]; linear_combination g * hd
  | pyramid p =>
    have hl : p.level ≤ 21 := Pyramid.tree.level_le p he
    by_cases hp : Pyramid.isPyra p = true
    · let g : ℚ := 1 / 2 ^ p.level
      have hg : real (Pyramid.len p.level) = g * 2 ^ 21 := by
        rw [Pyramid.len, real_twoPow (by show 21 - _ ≤ 30; omega)]
        show (2 : ℚ) ^ (21 - p.level) = _
        have := scaled hl
        simp only [g, ← this]; norm_num
      by_cases h7 : p.type = 7
      · refine ⟨![real (p.tet.x 0) / 2 ^ 21, real (p.tet.x 1) / 2 ^ 21, real (p.tet.x 2) / 2 ^ 21 + g], ![g, 0, 0], ![0, g, 0], ![-g, -g, -g],
          fun r k => ?_, ?_⟩
        · fin_cases k <;> simp [refCoords, hp, h7, hg] <;> ring
        · apply abs_cube; right
          show _ = -g ^ 3
          simp [det]; ring
      · refine ⟨fun k => real (p.tet.x k) / 2 ^ 21, ![g, 0, 0], ![0, g, 0], ![0, 0, g], fun r k => ?_, ?_⟩
        · fin_cases k <;> simp [refCoords, hp, h7, hg] <;> ring
        · apply abs_cube; left
          show _ = g ^ 3
          simp [det]; ring
    · obtain ⟨A, b, c, d, h, h'⟩ := tet_frame p.tet hl (by
        have := (Pyramid.isPyra_iff p).not.1 hp; simpa [Pyramid.Elem.type] using this)
      exact ⟨A, b, c, d, fun r k => by rw [refCoords, if_neg hp]; exact h r k, h'⟩

/-- The linear geometry of a tree that is an affine image of the reference tree. -/
theorem geometry_frame {c : Eclass} {V : Nat → Point} {o a0 a1 a2 : Point} (hV : Frame c V o a0 a1 a2) (h3 : c.dim = 3) (r : Point)
    (hr : c = .pyramid → r 2 = 1 → r 0 = 1 ∧ r 1 = 1) (k : Fin 3) :
    linearGeometry c V r k = o k + r 0 * a0 k + r 1 * a1 k + r 2 * a2 k := by
  have h := fun v hv => hV v hv k
  cases c with
  | vertex => simp [Eclass.dim] at h3
  | line => simp [Eclass.dim] at h3
  | quad => simp [Eclass.dim] at h3
  | triangle => simp [Eclass.dim] at h3
  | hex =>
    simp only [linearGeometry, linearInterpolation, h 0 (by decide), h 1 (by decide), h 2 (by decide), h 3 (by decide), h 4 (by decide),
      h 5 (by decide), h 6 (by decide), h 7 (by decide)]
    simp [unit, unitCorner]; ring
  | tet =>
    simp only [linearGeometry, triangularInterpolation, h 0 (by decide), h 1 (by decide), h 2 (by decide), h 3 (by decide)]
    simp [unit, unitCorner]; ring
  | prism =>
    simp [linearGeometry, triangularInterpolation, linearInterpolation, h 0 (by decide), h 1 (by decide), h 2 (by decide), h 3 (by decide),
      h 4 (by decide), h 5 (by decide)]
    simp [unit, unitCorner]; ring
  | pyramid =>
    rw [pyramid_affine V (fun k => ?_) r (hr rfl) k, h 0 (by decide), h 1 (by decide), h 2 (by decide), h 4 (by decide)]
    · simp [unit, unitCorner]; ring
    · rw [hV 0 (by decide), hV 1 (by decide), hV 2 (by decide), hV 3 (by decide)]
      simp [unit, unitCorner]; ring

/-- The corners of an element in a tree that is an affine image of the reference tree. -/
def Corners (S : P4ests) (V : Nat → Point) (e : Element) (o b0 b1 b2 : Point) : Prop :=
  ∀ v < (shape e).numVertices, ∀ k, elementCoordinate S V e v k = o k + cornerRefCoords (shape e) v 0 * b0 k +
    cornerRefCoords (shape e) v 1 * b1 k + cornerRefCoords (shape e) v 2 * b2 k

theorem element_frame {S : P4ests} {e : Element} (he : e.Valid S) (h3 : e.eclass.dim = 3) {V : Nat → Point} {o a0 a1 a2 : Point}
    (hV : Frame e.eclass V o a0 a1 a2) :
    ∃ o' b0 b1 b2, Corners S V e o' b0 b1 b2 ∧ |det b0 b1 b2| = |det a0 a1 a2| / 8 ^ e.level := by
  obtain ⟨A, b, c, d, h, hd⟩ := ref_frame he h3
  refine ⟨fun k => o k + A 0 * a0 k + A 1 * a1 k + A 2 * a2 k, fun k => b 0 * a0 k + b 1 * a1 k + b 2 * a2 k,
    fun k => c 0 * a0 k + c 1 * a1 k + c 2 * a2 k, fun k => d 0 * a0 k + d 1 * a1 k + d 2 * a2 k, fun v hv k => ?_, ?_⟩
  · rw [elementCoordinate, geometry_frame hV h3]
    · rw [vertexRefCoords_eq he hv, ← refCoords_corner he hv, h, h, h]; ring
    · intro hc h1
      cases e with
      | pyramid p =>
        have := pyramid_corner_in (S := S) he hv
        constructor <;> linarith [this.1, this.2.1, this.2.2.1, this.2.2.2]
      | _ => simp [Element.eclass] at hc
  · rw [show |det a0 a1 a2| / 8 ^ e.level = |det a0 a1 a2| * (1 / 8 ^ e.level) by ring, ← hd, ← abs_mul]
    congr 1
    simp only [det]; ring

end T8.Geometry
