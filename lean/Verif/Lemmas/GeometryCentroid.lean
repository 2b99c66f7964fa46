/-
The centroids of the elements.
-/
import Verif.Lemmas.GeometryFaces
import Verif.Lemmas.PyramidPlane
import Mathlib.Tactic.LinearCombination

namespace T8.Geometry
open Neighbor

/-- The sum over the corners, written out. -/
theorem sum_range (n : Nat) (w : Nat → ℚ) : ((List.range n).map w).sum =
    match n with
    | 0 => 0 | 1 => w 0 | 2 => w 0 + w 1 | 3 => w 0 + w 1 + w 2 | 4 => w 0 + w 1 + w 2 + w 3 | 5 => w 0 + w 1 + w 2 + w 3 + w 4
    | 6 => w 0 + w 1 + w 2 + w 3 + w 4 + w 5
    | 8 => w 0 + w 1 + w 2 + w 3 + w 4 + w 5 + w 6 + w 7
    | n => ((List.range n).map w).sum := by
  split <;> simp [List.range_succ] <;> ring

theorem plusAt_eq (x : Point) (i : Nat) (v : ℚ) (k : Fin 3) : plusAt x i v k = x k + (if k.val = i then 1 else 0) * v := by
  rw [plusAt]; split <;> ring

theorem triRef_affine (t : Simplex.Elem 2) : ∃ a b c : Fin 3 → ℚ, ∀ r k, triRefCoords t r k = a k + b k * r 0 + c k * r 1 := by
  let h : ℚ := real (Simplex.len .tri t.level)
  let x : Point := ![real (t.x 0), real (t.x 1), 0]
  let i (k : Fin 3) (j : Nat) : ℚ := if k.val = j then 1 else 0
  let s : Point := ![1 / 2 ^ 29, 1 / 2 ^ 29, 0]
  refine ⟨fun k => x k * s k, fun k => i k t.type * h * s k, fun k => i k (1 - t.type) * h * s k, fun r k => ?_⟩
  rw [triRefCoords]
  simp only [plusAt_eq]
  fin_cases k
  · simp [x, i, s, h]; split_ifs <;> ring
  · simp [x, i, s, h]; split_ifs <;> ring
  · simp [s]

theorem tetRef_affine (t : Simplex.Elem 3) : ∃ a b c d : Fin 3 → ℚ, ∀ r k, tetRefCoords t r k = a k + b k * r 0 + c k * r 1 + d k * r 2 := by
  let h : ℚ := real (Simplex.len .tet t.level)
  let o0 := t.type / 2
  let o1 := (o0 + (if t.type % 2 = 0 then 1 else 2)) % 3
  let o2 := (o0 + (if t.type % 2 = 0 then 2 else 1)) % 3
  let i (k : Fin 3) (j : Nat) : ℚ := if k.val = j then 1 else 0
  refine ⟨fun k => real (t.x k) / 2 ^ 21, fun k => i k o0 * h / 2 ^ 21, fun k => i k o1 * h / 2 ^ 21, fun k => i k o2 * h / 2 ^ 21, fun r k => ?_⟩
  rw [tetRefCoords]
  simp only [plusAt_eq]
  simp only [i, o0, o1, o2, h]
  ring

theorem lineRef_affine (l : Dline.Line) : ∃ a b : ℚ, ∀ r, lineRefCoord l r = a + b * r :=
  ⟨real l.x / 2 ^ 30, real (Dline.len l.level) / 2 ^ 30, fun r => by rw [lineRefCoord]; ring⟩

/-- The reference coordinates of points are affine in the coordinates in the reference element. -/
theorem ref_affine (S : P4ests) (e : Element) :
    ∃ a b c d : Fin 3 → ℚ, ∀ r k, refCoords S e r k = a k + b k * r 0 + c k * r 1 + d k * r 2 := by
  cases e with
  | vertex v => exact ⟨0, 0, 0, 0, fun r k => by fin_cases k <;> simp [refCoords]⟩
  | line l =>
    obtain ⟨a, b, h⟩ := lineRef_affine l
    exact ⟨![a, 0, 0], ![b, 0, 0], 0, 0, fun r k => by fin_cases k <;> simp [refCoords, h]⟩
  | quad q =>
    refine ⟨![real (q.coords 0) / 2 ^ 30, real (q.coords 1) / 2 ^ 30, 0], ![real (Standalone.getLen 30 q.level) / 2 ^ 30, 0, 0],
      ![0, real (Standalone.getLen 30 q.level) / 2 ^ 30, 0], 0, fun r k => ?_⟩
    fin_cases k <;> simp [refCoords] <;> ring
  | triangle t =>
    obtain ⟨a, b, c, h⟩ := triRef_affine t
    exact ⟨a, b, c, 0, fun r k => by show triRefCoords t r k = _; rw [h]; simp⟩
  | hex e =>
    let g := real (Standalone.getLen S.M e.level) / 2 ^ S.M
    refine ⟨fun k => real (e.coords k) / 2 ^ S.M, ![g, 0, 0], ![0, g, 0], ![0, 0, g], fun r k => ?_⟩
    fin_cases k <;> simp [refCoords, g] <;> ring
  | tet t => exact tetRef_affine t
  | prism p =>
    obtain ⟨a, b, c, h⟩ := triRef_affine p.1
    obtain ⟨a', b', h'⟩ := lineRef_affine p.2
    refine ⟨![a 0, a 1, a'], ![b 0, b 1, 0], ![c 0, c 1, 0], ![0, 0, b'], fun r k => ?_⟩
    fin_cases k <;> simp [refCoords, h, h']
  | pyramid p =>
    by_cases hp : Pyramid.isPyra p = true
    · let g := real (Pyramid.len p.level) / 2 ^ 21
      by_cases h7 : p.type = 7
      · refine ⟨![real (p.tet.x 0) / 2 ^ 21, real (p.tet.x 1) / 2 ^ 21, real (p.tet.x 2) / 2 ^ 21 + g], ![g, 0, 0], ![0, g, 0], ![-g, -g, -g],
          fun r k => ?_⟩
        fin_cases k <;> simp [refCoords, hp, h7, g] <;> ring
      · refine ⟨fun k => real (p.tet.x k) / 2 ^ 21, ![g, 0, 0], ![0, g, 0], ![0, 0, g], fun r k => ?_⟩
        fin_cases k <;> simp [refCoords, hp, h7, g] <;> ring
    · obtain ⟨a, b, c, d, h⟩ := tetRef_affine p.tet
      exact ⟨a, b, c, d, fun r k => by rw [refCoords, if_neg hp]; exact h r k⟩

/-- The centroid of the reference element is sent to the mean of the corners. -/
theorem ref_centroid (S : P4ests) (e : Element) (c : Eclass) (k : Fin 3) : refCoords S e (centroidRefCoords c) k * (c.numVertices : ℚ) =
    ((List.range c.numVertices).map fun v => refCoords S e (cornerRefCoords c v) k).sum := by
  obtain ⟨a, b, c', d, h⟩ := ref_affine S e
  simp only [h]
  rw [sum_range]
  cases c <;> simp [Eclass.numVertices, centroidRefCoords, cornerRefCoords, cornerRefTable] <;> ring

/-! ### The linear geometry -/

/-- The mean of the coordinates of the corners, and the coordinates of the centroid, for trees that are not pyramids. -/
theorem geom_centroid (S : P4ests) (V : Nat → Point) {e : Element} (he : e.eclass ≠ .pyramid) (k : Fin 3) :
    linearGeometry e.eclass V (refCoords S e (centroidRefCoords (shape e))) k * ((shape e).numVertices : ℚ) =
    ((List.range (shape e).numVertices).map fun v => linearGeometry e.eclass V (refCoords S e (cornerRefCoords (shape e) v)) k).sum := by
  rw [sum_range]
  cases e with
  | vertex v => simp [shape, Element.eclass, Eclass.numVertices, linearGeometry]
  | line l =>
    obtain ⟨a, b, h⟩ := lineRef_affine l
    simp [shape, Element.eclass, Eclass.numVertices, linearGeometry, linearInterpolation, refCoords, h, centroidRefCoords,
      cornerRefCoords, cornerRefTable]
    ring
  | quad q =>
    have h : ∀ r : Point, refCoords S (.quad q) r = ![real (q.coords 0) / 2 ^ 30 + real (Standalone.getLen 30 q.level) / 2 ^ 30 * r 0,
        real (q.coords 1) / 2 ^ 30 + real (Standalone.getLen 30 q.level) / 2 ^ 30 * r 1, 0] := fun r => by
      rw [refCoords]; funext k; fin_cases k <;> simp <;> ring
    simp only [h]
    generalize real (q.coords 0) / 2 ^ 30 = a
    generalize real (q.coords 1) / 2 ^ 30 = b
    generalize real (Standalone.getLen 30 q.level) / 2 ^ 30 = g
    simp [shape, Element.eclass, Eclass.numVertices, linearGeometry, linearInterpolation, centroidRefCoords, cornerRefCoords,
      cornerRefTable]
    ring
  | triangle t =>
    obtain ⟨a, b, c, d, h⟩ := ref_affine S (.triangle t)
    simp [shape, Element.eclass, Eclass.numVertices, linearGeometry, triangularInterpolation, h, centroidRefCoords, cornerRefCoords,
      cornerRefTable]
    ring
  | hex x =>
    have h : ∀ (r : Point) k, refCoords S (.hex x) r k =
        real (x.coords k) / 2 ^ S.M + real (Standalone.getLen S.M x.level) / 2 ^ S.M * r k := fun r k => by
      rw [refCoords]; ring
    simp [shape, Element.eclass, Eclass.numVertices, linearGeometry, linearInterpolation, centroidRefCoords, cornerRefCoords,
      cornerRefTable, h]
    generalize real (x.coords 0) / 2 ^ S.M = a
    generalize real (x.coords 1) / 2 ^ S.M = b
    generalize real (x.coords 2) / 2 ^ S.M = c
    generalize real (Standalone.getLen S.M x.level) / 2 ^ S.M = g
    ring
  | tet t =>
    obtain ⟨a, b, c, d, h⟩ := ref_affine S (.tet t)
    simp [shape, Element.eclass, Eclass.numVertices, linearGeometry, triangularInterpolation, h, centroidRefCoords, cornerRefCoords,
      cornerRefTable]
    ring
  | prism p =>
    obtain ⟨a, b, c, h⟩ := triRef_affine p.1
    obtain ⟨a', b', h'⟩ := lineRef_affine p.2
    simp [shape, Element.eclass, Eclass.numVertices, linearGeometry, triangularInterpolation, linearInterpolation, refCoords, h, h',
      centroidRefCoords, cornerRefCoords, cornerRefTable]
    ring
  | pyramid p => exact absurd rfl he

/-- The geometry of a pyramid whose base is a parallelogram. -/
theorem pyramid_affine (V : Nat → Point) (hV : ∀ k, V 3 k = V 1 k + V 2 k - V 0 k) (r : Point) (hr : r 2 = 1 → r 0 = 1 ∧ r 1 = 1) (k : Fin 3) :
    linearGeometry .pyramid V r k = V 0 k * (1 - r 2) + (V 1 k - V 0 k) * (r 0 - r 2) + (V 2 k - V 0 k) * (r 1 - r 2) + V 4 k * r 2 := by
  by_cases h : r 2 = 1
  · rw [linearGeometry, if_neg (by simpa using h), (hr h).1, (hr h).2, h]; ring
  · have h' : 1 - r 2 ≠ 0 := fun h1 => h (by linarith)
    rw [linearGeometry, if_pos h]
    simp [linearInterpolation, hV]
    field_simp
    ring

theorem pyramid_in_root {p : Pyramid.Elem} (hp : Pyramid.Valid p) : Pyramid.Points p ⊆ Pyramid.Points Pyramid.root := by
  induction hp with
  | root => exact fun _ h => h
  | child e i he hl hi ih => exact fun x hx => ih (Pyramid.C01_pyramid_inside e he hl i (by rw [Pyramid.numChildren_eq]; exact hi) hx)

theorem pyramid_root_points {p : Fin 3 → Nat} (hp : p ∈ Pyramid.Points Pyramid.root) :
    p 2 ≤ p 0 ∧ p 2 ≤ p 1 ∧ p 0 ≤ 2 ^ 21 ∧ p 1 ≤ 2 ^ 21 := by
  simp [Pyramid.Points, Pyramid.root, Pyramid.Elem.level, Pyramid.Elem.type, Fin.forall_fin_succ] at hp ⊢; omega

/-- The corners of the elements in a pyramid lie in the pyramid. -/
theorem pyramid_corner_in {S : P4ests} {p : Pyramid.Elem} (hp : Pyramid.Valid p) {v : Nat} (hv : v < (shape (.pyramid p)).numVertices) :
    let r := vertexRefCoords S (.pyramid p) v
    r 2 ≤ r 0 ∧ r 2 ≤ r 1 ∧ r 0 ≤ 1 ∧ r 1 ≤ 1 := by
  have ht := Pyramid.type_lt (Pyramid.Valid.good hp)
  have hv' : v < Pyramid.nf p.type := by
    rw [isPyra_shape] at hv
    rw [Pyramid.nf]
    by_cases h6 : 6 ≤ p.type
    · rw [if_pos h6] at hv ⊢; exact hv
    · rw [if_neg h6] at hv ⊢; exact hv
  have h := pyramid_root_points (pyramid_in_root hp (Pyramid.corner_mem p ht hv'))
  obtain ⟨h1, h2, h3, h4⟩ := h
  show _ ∧ _ ∧ _ ∧ _
  rw [vertexRefCoords_eq (e := .pyramid p) hp hv]
  simp only [toRef, cornerPoint, rootLength, Element.eclass]
  have hpos : (0 : ℚ) < ((2 ^ 21 : Nat) : ℚ) := by norm_num
  refine ⟨?_, ?_, ?_, ?_⟩
  · exact (div_le_div_iff_of_pos_right hpos).2 (by exact_mod_cast h1)
  · exact (div_le_div_iff_of_pos_right hpos).2 (by exact_mod_cast h2)
  · rw [div_le_iff₀ hpos, one_mul]; exact_mod_cast h3
  · rw [div_le_iff₀ hpos, one_mul]; exact_mod_cast h4

theorem pyramid_centroid (S : P4ests) (V : Nat → Point) (hV : ∀ k, V 3 k = V 1 k + V 2 k - V 0 k) {p : Pyramid.Elem} (hp : Pyramid.Valid p)
    (k : Fin 3) :
    linearGeometry .pyramid V (refCoords S (.pyramid p) (centroidRefCoords (shape (.pyramid p)))) k * ((shape (.pyramid p)).numVertices : ℚ) =
    ((List.range (shape (.pyramid p)).numVertices).map fun v => linearGeometry .pyramid V (vertexRefCoords S (.pyramid p) v) k).sum := by
  have hc : ∀ v < (shape (.pyramid p)).numVertices, refCoords S (.pyramid p) (cornerRefCoords (shape (.pyramid p)) v) =
      vertexRefCoords S (.pyramid p) v := fun v hv => by
    rw [vertexRefCoords_eq (e := .pyramid p) hp hv, refCoords_corner (e := .pyramid p) hp hv]
  have hin := fun v hv => pyramid_corner_in (S := S) hp (v := v) hv
  have hm := ref_centroid S (.pyramid p) (shape (.pyramid p))
  have hm' : ∀ k, refCoords S (.pyramid p) (centroidRefCoords (shape (.pyramid p))) k * ((shape (.pyramid p)).numVertices : ℚ) =
      ((List.range (shape (.pyramid p)).numVertices).map fun v => vertexRefCoords S (.pyramid p) v k).sum := fun k => by
    rw [hm k]
    congr 1
    exact List.map_congr_left fun v hv => by rw [hc v (List.mem_range.1 hv)]
  generalize refCoords S (.pyramid p) (centroidRefCoords (shape (.pyramid p))) = R at hm'
  generalize vertexRefCoords S (.pyramid p) = W at hm' hin
  have hn : shape (.pyramid p) = .pyramid ∨ shape (.pyramid p) = .tet := by rw [isPyra_shape]; split <;> simp
  have hcor : ∀ x : Point, (x 2 ≤ x 0 ∧ x 2 ≤ x 1 ∧ x 0 ≤ 1 ∧ x 1 ≤ 1) → (x 2 = 1 → x 0 = 1 ∧ x 1 = 1) := fun x h h1 => by
    constructor <;> linarith [h.1, h.2.1, h.2.2.1, h.2.2.2]
  have hW : ∀ v < (shape (.pyramid p)).numVertices, W v 2 = 1 → W v 0 = 1 ∧ W v 1 = 1 := fun v hv => hcor _ (hin v hv)
  rcases hn with hn | hn <;> rw [hn] at hm' hin hW ⊢ <;> simp only [Eclass.numVertices] at hm' hin hW ⊢ <;> rw [sum_range] <;>
    simp only [sum_range] at hm'
  · have m0 := hm' 0; have m1 := hm' 1; have m2 := hm' 2
    have hR : R 2 = 1 → R 0 = 1 ∧ R 1 = 1 := hcor R (by
      have i0 := hin 0 (by omega); have i1 := hin 1 (by omega); have i2 := hin 2 (by omega); have i3 := hin 3 (by omega)
      have i4 := hin 4 (by omega)
      push_cast at m0 m1 m2
      refine ⟨?_, ?_, ?_, ?_⟩ <;> linarith [i0.1, i0.2.1, i0.2.2.1, i0.2.2.2, i1.1, i1.2.1, i1.2.2.1, i1.2.2.2, i2.1, i2.2.1, i2.2.2.1,
        i2.2.2.2, i3.1, i3.2.1, i3.2.2.1, i3.2.2.2, i4.1, i4.2.1, i4.2.2.1, i4.2.2.2])
    simp only [pyramid_affine V hV R hR, pyramid_affine V hV _ (hW 0 (by omega)), pyramid_affine V hV _ (hW 1 (by omega)),
      pyramid_affine V hV _ (hW 2 (by omega)), pyramid_affine V hV _ (hW 3 (by omega)), pyramid_affine V hV _ (hW 4 (by omega))]
    linear_combination (V 1 k - V 0 k) * m0 + (V 2 k - V 0 k) * m1 + (V 4 k + V 0 k - V 1 k - V 2 k) * m2
  · have m0 := hm' 0; have m1 := hm' 1; have m2 := hm' 2
    have hR : R 2 = 1 → R 0 = 1 ∧ R 1 = 1 := hcor R (by
      have i0 := hin 0 (by omega); have i1 := hin 1 (by omega); have i2 := hin 2 (by omega); have i3 := hin 3 (by omega)
      push_cast at m0 m1 m2
      refine ⟨?_, ?_, ?_, ?_⟩ <;> linarith [i0.1, i0.2.1, i0.2.2.1, i0.2.2.2, i1.1, i1.2.1, i1.2.2.1, i1.2.2.2, i2.1, i2.2.1, i2.2.2.1,
        i2.2.2.2, i3.1, i3.2.1, i3.2.2.1, i3.2.2.2])
    simp only [pyramid_affine V hV R hR, pyramid_affine V hV _ (hW 0 (by omega)), pyramid_affine V hV _ (hW 1 (by omega)),
      pyramid_affine V hV _ (hW 2 (by omega)), pyramid_affine V hV _ (hW 3 (by omega))]
    linear_combination (V 1 k - V 0 k) * m0 + (V 2 k - V 0 k) * m1 + (V 4 k + V 0 k - V 1 k - V 2 k) * m2

end T8.Geometry
