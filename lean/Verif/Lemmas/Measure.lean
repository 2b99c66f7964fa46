/-
The volumes of the elements in trees that are affine images of the reference tree.
-/
import Verif.Lemmas.PointInside
import Verif.Spec.Measure
import Verif.Spec.DefaultForest

namespace T8.Geometry
open Neighbor

theorem minus_at (o b0 b1 b2 u v : Point) :
    minus (at_ o b0 b1 b2 u) (at_ o b0 b1 b2 v) = at_ (fun _ => 0) b0 b1 b2 (fun k => u k - v k) := by
  funext k; simp only [minus, at_]; ring

theorem tet_at (o b0 b1 b2 u0 u1 u2 u3 : Point) :
    tetVolume (at_ o b0 b1 b2 u0) (at_ o b0 b1 b2 u1) (at_ o b0 b1 b2 u2) (at_ o b0 b1 b2 u3) =
    |det b0 b1 b2| * |side u3 u1 u2 u0| / 6 := by
  rw [tetVolume, dot_minus, abs_mul]

/-- Corners as points of the frame. -/
theorem corners_at {S : P4ests} {V : Nat → Point} {e : Element} {o b0 b1 b2 : Point} (hC : Corners S V e o b0 b1 b2) {v : Nat}
    (hv : v < (shape e).numVertices) : elementCoordinate S V e v = at_ o b0 b1 b2 (cornerRefCoords (shape e) v) :=
  funext fun k => hC v hv k

/-- The volume in dimension three. -/
theorem volume_dim3 (sqrt : ℚ → ℚ) {S : P4ests} {V : Nat → Point} {e : Element} {o b0 b1 b2 : Point} (hC : Corners S V e o b0 b1 b2)
    (hsh : shape e = .hex ∨ shape e = .tet ∨ shape e = .prism ∨ shape e = .pyramid) :
    volume sqrt S V e = refVolume (shape e) * |det b0 b1 b2| := by
  have hc := fun v hv => corners_at hC (v := v) hv
  rw [volume]
  rcases hsh with h | h | h | h <;> rw [h] at hc ⊢ <;> simp only [Eclass.numVertices] at hc <;> simp only [refVolume]
  · rw [hc 0 (by omega), hc 1 (by omega), hc 2 (by omega), hc 4 (by omega), dot_minus, abs_mul]
    simp [side, det, cornerRefCoords, cornerRefTable]
  · rw [hc 0 (by omega), hc 1 (by omega), hc 2 (by omega), hc 3 (by omega), tet_at]
    simp [side, det, cornerRefCoords, cornerRefTable]; ring
  · rw [hc 0 (by omega), hc 1 (by omega), hc 2 (by omega), hc 3 (by omega), hc 4 (by omega), hc 5 (by omega), tet_at, tet_at, tet_at]
    simp [side, det, cornerRefCoords, cornerRefTable]; ring
  · rw [hc 0 (by omega), hc 1 (by omega), hc 2 (by omega), hc 3 (by omega), hc 4 (by omega), tet_at, tet_at]
    simp [side, det, cornerRefCoords, cornerRefTable]; ring

/-! ### Dimension two and one -/

/-- The reference coordinates in dimension two. -/
theorem ref_frame2 {S : P4ests} {e : Element} (he : e.Valid S) (h2 : e.eclass.dim = 2) :
    ∃ A b c : Point, (∀ r k, refCoords S e r k = A k + b k * r 0 + c k * r 1) ∧
    (b 0 * c 1 - b 1 * c 0) ^ 2 = 1 / 16 ^ e.level := by
  have sq : ∀ {x : ℚ} (l : Nat), x = (1 / 2 ^ l : ℚ) ^ 2 ∨ x = -(1 / 2 ^ l : ℚ) ^ 2 → x ^ 2 = 1 / 16 ^ l := fun l h => by
    have : ((1 / 2 ^ l : ℚ) ^ 2) ^ 2 = 1 / 16 ^ l := by
      rw [div_pow, div_pow, one_pow, one_pow, ← pow_mul, ← pow_mul, show l * (2 * 2) = 4 * l by ring, pow_mul]; norm_num
    rcases h with h | h <;> rw [h]
    · exact this
    · rw [neg_sq]; exact this
  cases e with
  | vertex v => simp [Element.eclass, Eclass.dim] at h2
  | line l => simp [Element.eclass, Eclass.dim] at h2
  | quad q =>
    have hx : Standalone.Valid 30 q := he.1
    have hg := (cube_anchor (le_refl 30) hx (0 : Fin 2)).2
    have hs : (2 : ℚ) ^ (30 - q.level) / 2 ^ 30 = 1 / 2 ^ q.level := scaled hx.1
    let g : ℚ := 1 / 2 ^ q.level
    refine ⟨![real (q.coords 0) / 2 ^ 30, real (q.coords 1) / 2 ^ 30, 0], ![g, 0, 0], ![0, g, 0], fun r k => ?_, sq q.level (Or.inl ?_)⟩
    · rw [refCoords]
      simp only [hg, g, ← hs]
      fin_cases k <;> simp <;> ring
    · show g * g - 0 * 0 = g ^ 2; ring
  | triangle t =>
    obtain ⟨A, b, c, h, hd, -, -⟩ := tri_frame t he.1.1 he.2.1
    exact ⟨A, b, c, h, sq t.level hd⟩
  | hex x => simp [Element.eclass, Eclass.dim] at h2
  | tet t => simp [Element.eclass, Eclass.dim] at h2
  | prism p => simp [Element.eclass, Eclass.dim] at h2
  | pyramid p => simp [Element.eclass, Eclass.dim] at h2

theorem geometry_frame2 {c : Eclass} {V : Nat → Point} {o a0 a1 a2 : Point} (hV : Frame c V o a0 a1 a2) (h2 : c.dim = 2) (r : Point) (k : Fin 3) :
    linearGeometry c V r k = o k + r 0 * a0 k + r 1 * a1 k := by
  have h := fun v hv => hV v hv k
  cases c with
  | quad =>
    simp only [linearGeometry, linearInterpolation, h 0 (by decide), h 1 (by decide), h 2 (by decide), h 3 (by decide)]
    simp [unit, unitCorner]; ring
  | triangle =>
    simp only [linearGeometry, triangularInterpolation, h 0 (by decide), h 1 (by decide), h 2 (by decide)]
    simp [unit, unitCorner]; ring
  | _ => simp [Eclass.dim] at h2

/-- The area of the parallelogram, squared. -/
def gram (a b : Point) : ℚ := inner a a * inner b b - inner a b * inner a b

theorem element_frame2 {S : P4ests} {e : Element} (he : e.Valid S) (h2 : e.eclass.dim = 2) {V : Nat → Point} {o a0 a1 a2 : Point}
    (hV : Frame e.eclass V o a0 a1 a2) :
    ∃ o' b0 b1, Corners S V e o' b0 b1 (fun _ => 0) ∧ gram b0 b1 = gram a0 a1 / 16 ^ e.level := by
  obtain ⟨A, b, c, h, hd⟩ := ref_frame2 he h2
  refine ⟨fun k => o k + A 0 * a0 k + A 1 * a1 k, fun k => b 0 * a0 k + b 1 * a1 k,
    fun k => c 0 * a0 k + c 1 * a1 k, fun v hv k => ?_, ?_⟩
  · rw [elementCoordinate, geometry_frame2 hV h2, vertexRefCoords_eq he hv, ← refCoords_corner he hv, h, h]; ring
  · rw [show gram a0 a1 / 16 ^ e.level = gram a0 a1 * (1 / 16 ^ e.level) by ring, ← hd]
    simp only [gram, inner]; ring

theorem element_frame1 {S : P4ests} {l : Dline.Line} (he : Element.Valid S (.line l)) {V : Nat → Point} {o a0 a1 a2 : Point}
    (hV : Frame .line V o a0 a1 a2) :
    ∃ o', Corners S V (.line l) o' (fun k => a0 k / 2 ^ l.level) (fun _ => 0) (fun _ => 0) ∧
      ∀ r k, elementPoint S V (.line l) r k = o' k + r 0 * (a0 k / 2 ^ l.level) := by
  obtain ⟨a, h⟩ := line_frame l he.1
  have hg : ∀ r k, linearGeometry .line V r k = o k + r 0 * a0 k := fun r k => by
    simp only [linearGeometry, linearInterpolation, hV 0 (by decide) k, hV 1 (by decide) k]
    simp [unit, unitCorner]; ring
  refine ⟨fun k => o k + a * a0 k, fun v hv k => ?_, fun r k => ?_⟩
  · rw [elementCoordinate]
    show linearGeometry .line V _ k = _
    rw [hg, vertexRefCoords_eq he hv, ← refCoords_corner he hv]
    show _ + lineRefCoord l _ * _ = _
    rw [h]; simp only [shape, Element.eclass]; ring
  · rw [elementPoint]
    show linearGeometry .line V _ k = _
    rw [hg]
    show _ + lineRefCoord l _ * _ = _
    rw [h]; ring

theorem doubling_pow {sqrt : ℚ → ℚ} (hs : Doubling sqrt) (x : ℚ) (n : Nat) : sqrt (x / 4 ^ n) = sqrt x / 2 ^ n := by
  induction n with
  | zero => simp
  | succ n ih =>
    have := hs (x / 4 ^ (n + 1))
    rw [show 4 * (x / 4 ^ (n + 1)) = x / 4 ^ n by rw [pow_succ]; field_simp, ih] at this
    have h2 : sqrt (x / 4 ^ (n + 1)) = sqrt x / 2 ^ n / 2 := by rw [this]; ring
    rw [h2, pow_succ]; field_simp

theorem gram_eq (x y : Point) : dot x x * dot y y - dot x y * dot x y = gram x y := rfl

theorem gram_nonneg (x y : Point) : 0 ≤ gram x y := by
  have : gram x y = dot (cross x y) (cross x y) := by simp [gram, inner, dot, cross]; ring
  rw [this]
  simp only [dot]
  have a := mul_self_nonneg (cross x y 0); have b := mul_self_nonneg (cross x y 1); have c := mul_self_nonneg (cross x y 2)
  linarith

theorem area_at (sqrt : ℚ → ℚ) (o b0 b1 u0 u1 u2 : Point) :
    triangleArea sqrt (at_ o b0 b1 (fun _ => 0) u0) (at_ o b0 b1 (fun _ => 0) u1) (at_ o b0 b1 (fun _ => 0) u2) =
    1 / 2 * sqrt (((u1 0 - u0 0) * (u2 1 - u0 1) - (u1 1 - u0 1) * (u2 0 - u0 0)) ^ 2 * gram b0 b1) := by
  rw [triangleArea]
  simp only [gram_eq]
  rw [abs_of_nonneg (gram_nonneg _ _)]
  congr 2
  simp only [gram, inner, minus, at_]; ring

theorem gram_scale (sqrt : ℚ → ℚ) (hs : Doubling sqrt) (x : ℚ) (l : Nat) : sqrt (x / 16 ^ l) = sqrt x / 4 ^ l := by
  rw [show (16 : ℚ) ^ l = 4 ^ (2 * l) by rw [pow_mul]; norm_num, doubling_pow hs, pow_mul]; norm_num

/-- The corners that the area of a quadrilateral uses. -/
theorem quad_corners {S : P4ests} (D : S.Documented) :
    Cube.faceCorner S.quad (Cube.cornerFace S.quad 0 0) 1 = 2 ∧ Cube.faceCorner S.quad (Cube.cornerFace S.quad 0 1) 1 = 1 := by
  have h := D.1.cornerFaces 0 (by decide)
  have h' : (List.range 2).map (S.quad.cornerFaces 0) = [0, 2] := h
  have h0 : S.quad.cornerFaces 0 0 = 0 := by
    have := congrArg (fun l => l.getD 0 9) h'; simpa [List.range_succ] using this
  have h1 : S.quad.cornerFaces 0 1 = 2 := by
    have := congrArg (fun l => l.getD 1 9) h'; simpa [List.range_succ] using this
  have f0 : (List.range 2).map (S.quad.faceCorners 0) = [0, 2] := D.1.faceCorners 0 (by decide)
  have f2 : (List.range 2).map (S.quad.faceCorners 2) = [0, 1] := D.1.faceCorners 2 (by decide)
  refine ⟨?_, ?_⟩
  · rw [Cube.faceCorner, Cube.cornerFace, h0]
    have := congrArg (fun l => l.getD 1 9) f0; simpa [List.range_succ] using this
  · rw [Cube.faceCorner, Cube.cornerFace, h1]
    have := congrArg (fun l => l.getD 1 9) f2; simpa [List.range_succ] using this

theorem volume_dim2 {sqrt : ℚ → ℚ} {S : P4ests} (D : S.Documented) {V : Nat → Point} {e : Element}
    {o b0 b1 : Point} (hC : Corners S V e o b0 b1 (fun _ => 0)) (hsh : shape e = .quad ∨ shape e = .triangle) :
    volume sqrt S V e = refVolume (shape e) * sqrt (gram b0 b1) := by
  have hc := fun v hv => corners_at hC (v := v) hv
  rw [volume]
  rcases hsh with h | h <;> rw [h] at hc ⊢ <;> simp only [Eclass.numVertices] at hc <;> simp only [refVolume]
  · rw [(quad_corners D).1, (quad_corners D).2, hc 0 (by omega), hc 1 (by omega), hc 2 (by omega), area_at]
    simp [cornerRefCoords, cornerRefTable]
  · rw [hc 0 (by omega), hc 1 (by omega), hc 2 (by omega), area_at]
    simp [cornerRefCoords, cornerRefTable]

theorem volume_dim1 {sqrt : ℚ → ℚ} (hs : Doubling sqrt) {S : P4ests} {l : Dline.Line} (he : Element.Valid S (.line l)) {V : Nat → Point}
    {o a0 a1 a2 : Point} (hV : Frame .line V o a0 a1 a2) : volume sqrt S V (.line l) = sqrt (inner a0 a0) / 2 ^ l.level := by
  obtain ⟨o', hC, hP⟩ := element_frame1 he hV
  have hd : ∀ v < 2, dist sqrt (elementCoordinate S V (.line l) v) (centroid S V (.line l)) = sqrt (inner a0 a0) / 2 ^ (l.level + 1) := by
    intro v hv
    rw [← doubling_pow hs, dist]
    congr 1
    have h4 : (4 : ℚ) ^ (l.level + 1) = 4 * (2 ^ l.level * 2 ^ l.level) := by rw [pow_succ, ← mul_pow]; norm_num; ring
    rw [h4]
    have hp : (2 : ℚ) ^ l.level ≠ 0 := by positivity
    have hk : ∀ k, minus (elementCoordinate S V (.line l) v) (centroid S V (.line l)) k = (if v = 0 then -1 / 2 else 1 / 2) * (a0 k / 2 ^ l.level) := by
      intro k
      rw [minus, hC v hv k, centroid, hP]
      interval_cases v <;> simp [shape, Element.eclass, cornerRefCoords, cornerRefTable, centroidRefCoords] <;> ring
    simp only [dot, hk, inner]
    interval_cases v <;> simp <;> field_simp <;> ring
  rw [volume]
  show diam sqrt S V (.line l) = _
  rw [diam]
  show 2 * ((List.range 2).map _).sum / ((2 : Nat) : ℚ) = _
  rw [sum_range]
  simp only [List.range_succ, List.range_zero, List.nil_append, List.map_append, List.map_cons, List.map_nil, List.singleton_append]
  rw [hd 0 (by omega), hd 1 (by omega), pow_succ]
  simp
  field_simp
  ring

/-! ### Children and leaves -/

/-- A quantity of which the elements pass a part to each of their children. -/
theorem tiles_sum {T : RTree} (f : T.E → ℚ) (hf : ∀ e, T.Valid e → T.level e < T.maxLevel →
      ((List.range (T.nc e)).map fun i => f (T.child e i)).sum = f e) {e : T.E} {ls : List T.E} (h : T.Tiles e ls) :
    T.Valid e → (ls.map f).sum = f e := by
  induction h with
  | leaf e => intro _; simp
  | node e ls hl _ ih =>
    intro he
    rw [← hf e he hl, List.map_flatMap, List.flatMap_def, List.sum_flatten, List.map_map]
    congr 1
    refine List.map_congr_left fun i hi => ?_
    rw [List.mem_range] at hi
    exact ih i hi (T.valid_child e i he hl hi)

theorem sum_const {n : Nat} {f : Nat → ℚ} {a : ℚ} (h : ∀ i < n, f i = a) : ((List.range n).map f).sum = n * a := by
  rw [sum_map_congr h]
  simp

theorem pyramid_child_types {ty : Nat} (h : ty = 6 ∨ ty = 7) :
    ((List.range 10).map fun i => if 6 ≤ Simplex.look Pyramid.parenttypeIlocToType ty i then (1 / 3 : ℚ) else 1 / 6).sum = 8 * (1 / 3) := by
  rcases h with rfl | rfl <;> decide +kernel

theorem shape_pyramid (p : Pyramid.Elem) : shape (.pyramid p) = if 6 ≤ p.type then .pyramid else .tet := by
  rw [shape]
  by_cases h : 6 ≤ p.type
  · rw [if_pos h, if_pos ((Pyramid.isPyra_iff p).2 h)]
  · rw [if_neg h, if_neg (fun h' => h ((Pyramid.isPyra_iff p).1 h'))]

theorem pyramid_children_ref {x : Pyramid.Elem} (hg : Pyramid.Good x) (hl : x.level < 21) :
    ((List.range (Pyramid.numChildren x)).map fun i => refVolume (shape (.pyramid (Pyramid.child x i)))).sum =
      2 ^ 3 * refVolume (shape (.pyramid x)) := by
  by_cases h : 6 ≤ x.type
  · rw [Pyramid.numChildren_eq, if_pos h, shape_pyramid, if_pos h]
    rw [show (2 : ℚ) ^ 3 * refVolume .pyramid = 8 * (1 / 3) by norm_num [refVolume], ← pyramid_child_types (hg.pyra h).1]
    refine sum_map_congr fun i _ => ?_
    rw [shape_pyramid, Pyramid.child, if_pos ((Pyramid.isPyra_iff x).2 h)]
    show refVolume (if 6 ≤ Simplex.look Pyramid.parenttypeIlocToType x.type i then _ else _) = _
    split <;> rfl
  · have hn : Pyramid.numChildren x = 8 := by rw [Pyramid.numChildren_eq, if_neg h]
    rw [sum_const (a := 1 / 6) (fun i hi => ?_), hn, shape_pyramid, if_neg h]
    · norm_num [refVolume]
    · have hc := Pyramid.good_child hg hl hi
      have hs : (Pyramid.child x i).switch = x.switch := by
        rw [Pyramid.child, if_neg (fun h' => h ((Pyramid.isPyra_iff x).1 h'))]
      have ht := hg.tet h
      rw [shape_pyramid, if_neg (fun h6 => ?_)]
      · rfl
      · have := (hc.pyra h6).2
        omega

/-- The reference volumes of the children. -/
theorem children_ref (S : P4ests) (c : Eclass) {x : (treeOf S c).E} (hx : (treeOf S c).Valid x)
    (hl : (treeOf S c).level x < (treeOf S c).maxLevel) :
    ((List.range ((treeOf S c).nc x)).map fun i => refVolume (shape (emb S c ((treeOf S c).child x i)))).sum =
    2 ^ c.dim * refVolume (shape (emb S c x)) := by
  cases c with
  | vertex => refine (sum_const (a := 0) (fun i _ => rfl)).trans ?_; simp [emb, shape, Element.eclass, refVolume]
  | line => refine (sum_const (a := 1) (fun i _ => rfl)).trans ?_; show ((2 : Nat) : ℚ) * 1 = 2 ^ 1 * 1; norm_num
  | quad => refine (sum_const (a := 1) (fun i _ => rfl)).trans ?_; show ((4 : Nat) : ℚ) * 1 = 2 ^ 2 * 1; norm_num
  | triangle => refine (sum_const (a := 1 / 2) (fun i _ => rfl)).trans ?_; show ((4 : Nat) : ℚ) * (1 / 2) = 2 ^ 2 * (1 / 2); norm_num
  | hex => refine (sum_const (a := 1) (fun i _ => rfl)).trans ?_; show ((8 : Nat) : ℚ) * 1 = 2 ^ 3 * 1; norm_num
  | tet => refine (sum_const (a := 1 / 6) (fun i _ => rfl)).trans ?_; show ((8 : Nat) : ℚ) * (1 / 6) = 2 ^ 3 * (1 / 6); norm_num
  | prism => refine (sum_const (a := 1 / 2) (fun i _ => rfl)).trans ?_; show ((8 : Nat) : ℚ) * (1 / 2) = 2 ^ 3 * (1 / 2); norm_num
  | pyramid =>
    exact pyramid_children_ref (Pyramid.Valid.good hx) hl

end T8.Geometry
