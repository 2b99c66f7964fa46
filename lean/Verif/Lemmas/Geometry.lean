/-
Lemmas on the coordinates of the elements.
-/
import Verif.Spec.Geometry
import Verif.Lemmas.FaceNeighbor
import Verif.Props.Prism
import Verif.Props.Pyramid
import Mathlib.Tactic.IntervalCases
import Mathlib.Tactic.FieldSimp
import Mathlib.Tactic.Ring

namespace T8.Geometry
open Neighbor

theorem real_eq {x : BitVec 32} (h : x.toNat < 2 ^ 31) : real x = (x.toNat : ℚ) := by
  have : x.toInt = (x.toNat : Int) := by
    rw [BitVec.toInt_eq_toNat_cond, if_pos (by omega)]
  rw [real, this]; rfl

theorem real_of {x : BitVec 32} {n : Nat} (h : x.toNat = n) (hn : n < 2 ^ 31) : real x = (n : ℚ) := by
  rw [real_eq (by omega), h]

/-- An aligned coordinate plus the length. -/
theorem add_le {M l x : Nat} (hl : l ≤ M) (hx : x < 2 ^ M) (hd : 2 ^ (M - l) ∣ x) : x + 2 ^ (M - l) ≤ 2 ^ M := by
  obtain ⟨k, rfl⟩ := hd
  have h : 2 ^ M = 2 ^ (M - l) * 2 ^ l := by rw [← Nat.pow_add]; congr 1; omega
  rw [h] at hx ⊢
  have : k < 2 ^ l := Nat.lt_of_mul_lt_mul_left hx
  calc 2 ^ (M - l) * k + 2 ^ (M - l) = 2 ^ (M - l) * (k + 1) := by ring
    _ ≤ _ := Nat.mul_le_mul_left _ this

theorem pow_lt {M : Nat} (hM : M ≤ 30) : 2 ^ M < 2 ^ 31 := Nat.pow_lt_pow_right (by omega) (by omega)

theorem cube_coord {d M : Nat} (hM : M ≤ 30) {e : Standalone.Elem d} (he : Standalone.Valid M e) (v : Nat) (i : Fin d) :
    (Cube.vertexCoords M e v i).toNat = (e.coords i).toNat + v / 2 ^ i.val % 2 * 2 ^ (M - e.level) ∧
    (e.coords i).toNat + v / 2 ^ i.val % 2 * 2 ^ (M - e.level) < 2 ^ 31 := by
  have h1 := add_le he.1 (he.2 i).1 (he.2 i).2
  have h2 := pow_lt hM
  have hb : (v &&& (1 <<< i.val) ≠ 0) ↔ v / 2 ^ i.val % 2 = 1 := by
    rw [Standalone.and_shift_ne_zero, Nat.testBit_eq_decide_div_mod_eq, decide_eq_true_iff]
  have hl : (Standalone.getLen M e.level).toNat = 2 ^ (M - e.level) := Bits.toNat_twoPow (by omega)
  by_cases h : v / 2 ^ i.val % 2 = 1
  · rw [Cube.vertexCoords, if_pos (hb.2 h), h, show (1 : BitVec 32) * _ = _ from BitVec.one_mul _, BitVec.toNat_add, hl]
    constructor
    · rw [Nat.one_mul]; exact Nat.mod_eq_of_lt (by omega)
    · omega
  · have h0 : v / 2 ^ i.val % 2 = 0 := by omega
    rw [Cube.vertexCoords, if_neg (fun h' => h (hb.1 h')), h0]
    constructor
    · simp
    · omega

theorem line_coord {l : Dline.Line} (hl : Dline.Valid l) {v : Nat} (hv : v < 2) :
    (Dline.vertexCoord l v).toNat = l.x.toNat + v * 2 ^ (30 - l.level) ∧ l.x.toNat + v * 2 ^ (30 - l.level) < 2 ^ 31 := by
  have h1 : l.x.toNat + 2 ^ (30 - l.level) ≤ 2 ^ 30 := add_le hl.1 hl.2.1 hl.2.2
  have h2 : (Dline.len l.level).toNat = 2 ^ (30 - l.level) := Dline.len_toNat
  rw [Dline.vertexCoord]
  interval_cases v
  · simp; omega
  · rw [if_neg (by decide), BitVec.toNat_add, h2, Nat.one_mul]
    exact ⟨Nat.mod_eq_of_lt (by omega), by omega⟩

theorem simplex_coord {c : Simplex.Cls} {e : Simplex.Elem c.dim} (he : Simplex.Aligned c e) {v : Nat} (hv : v ≤ c.dim)
    (i : Fin c.dim) : (Simplex.integerCoords c e v i).toNat = Simplex.corner c e v i ∧ Simplex.corner c e v i < 2 ^ 31 := by
  refine ⟨Simplex.integerCoords_corner he hv i, ?_⟩
  have h1 := Simplex.x_add_le he i
  have h2 := Simplex.pow_max_lt c
  rw [Simplex.corner]
  split <;> omega

theorem pyramid_coord {p : Pyramid.Elem} (hp : Pyramid.Valid p) {v : Nat} (hv : v < if 6 ≤ p.type then 5 else 4) (i : Fin 3) :
    (Pyramid.integerCoords p v i).toNat = Pyramid.corner p v i ∧ Pyramid.corner p v i < 2 ^ 31 := by
  by_cases h : 6 ≤ p.type
  · rw [if_pos h] at hv
    rw [Pyramid.corner, if_pos h]
    refine ⟨((Pyramid.C01_pyramid_vertex p hp v).1 h hv).1 i, ?_⟩
    have hx := Pyramid.x_add_le hp.good i
    have : Pyramid.pyraCorner p v i ≤ (p.tet.x i).toNat + 2 ^ (21 - p.level) := by
      rw [Pyramid.pyraCorner]
      have h1 : ∀ a b : Nat, b ≤ 1 → a * b ≤ a := fun a b hb => by
        calc a * b ≤ a * 1 := Nat.mul_le_mul_left _ hb
          _ = a := Nat.mul_one _
      refine Nat.add_le_add_left (h1 _ _ ?_) _
      split_ifs <;> omega
    omega
  · rw [if_neg h] at hv
    rw [Pyramid.corner, if_neg h]
    exact ⟨((Pyramid.C01_pyramid_vertex p hp v).2 h hv).1 i,
      (simplex_coord (c := .tet) (hp.good.aligned h) (v := v) (show v ≤ 3 by omega) i).2⟩


theorem isPyra_shape (p : Pyramid.Elem) : shape (.pyramid p) = if 6 ≤ p.type then .pyramid else .tet := by
  rw [shape]; simp only [Pyramid.isPyra_iff]

/-- The vertex reference coordinates are the corners of the element, divided by the length of the tree. -/
theorem vertexRefCoords_eq {S : P4ests} {e : Element} (he : e.Valid S) {v : Nat} (hv : v < (shape e).numVertices) :
    vertexRefCoords S e v = toRef S e.eclass (cornerPoint S e v) := by
  funext k
  cases e with
  | vertex x => fin_cases k <;> simp [vertexRefCoords, toRef, cornerPoint]
  | line l =>
    have h := line_coord he hv
    fin_cases k <;> norm_num [vertexRefCoords, toRef, cornerPoint, rootLength, Element.eclass, real_of h.1 h.2]
  | quad q =>
    have he' : Standalone.Valid 30 q := he.1
    have h0 := cube_coord (le_refl 30) he' v 0
    have h1 := cube_coord (le_refl 30) he' v 1
    fin_cases k
    · norm_num [vertexRefCoords, toRef, cornerPoint, rootLength, Element.eclass, real_of h0.1 h0.2]
    · norm_num [vertexRefCoords, toRef, cornerPoint, rootLength, Element.eclass, real_of h1.1 h1.2]
    · simp [vertexRefCoords, toRef, cornerPoint]
  | triangle t =>
    have hv' : v ≤ 2 := by have : v < 3 := hv; omega
    have h0 := simplex_coord (c := .tri) he.aligned hv' (0 : Fin 2)
    have h1 := simplex_coord (c := .tri) he.aligned hv' (1 : Fin 2)
    fin_cases k
    · have := real_of h0.1 h0.2
      norm_num [vertexRefCoords, toRef, cornerPoint, rootLength, Element.eclass]
      rw [this]
    · have := real_of h1.1 h1.2
      norm_num [vertexRefCoords, toRef, cornerPoint, rootLength, Element.eclass]
      rw [this]
    · simp [vertexRefCoords, toRef, cornerPoint]
  | hex h =>
    have he' : Standalone.Valid S.M h := he.1
    have hk := cube_coord S.hM.2 he' v k
    show real _ / 2 ^ S.M = (((h.coords k).toNat + v / 2 ^ k.val % 2 * 2 ^ (S.M - h.level) : Nat) : ℚ) / ((2 ^ S.M : Nat) : ℚ)
    rw [real_of hk.1 hk.2]
    push_cast
    rfl
  | tet t =>
    have hv' : v ≤ 3 := by have : v < 4 := hv; omega
    have hk := simplex_coord (c := .tet) he.aligned hv' k
    show real _ / 2 ^ 21 = _ / ((2 ^ 21 : Nat) : ℚ)
    rw [real_of hk.1 hk.2]
    push_cast
    rfl
  | prism p =>
    have hv' : v < 6 := hv
    obtain ⟨h0, h1, h2⟩ := Prism.C01_prism_vertex p he v hv'
    have b0 := simplex_coord (c := .tri) he.1.aligned (v := v % 3) (by show _ ≤ 2; omega) (0 : Fin 2)
    have b1 := simplex_coord (c := .tri) he.1.aligned (v := v % 3) (by show _ ≤ 2; omega) (1 : Fin 2)
    have b2 := line_coord he.2.1 (v := v / 3) (by omega)
    fin_cases k
    · have : cornerPoint S (.prism p) v 0 = (Prism.vertexCoords p v).1.toNat * 2 ^ 8 := h0.symm
      show real (Prism.vertexCoords p v).1 / 2 ^ 21 = ((cornerPoint S (.prism p) v 0 : Nat) : ℚ) / ((2 ^ 29 : Nat) : ℚ)
      rw [this, real_eq (by omega)]
      push_cast
      ring
    · have : cornerPoint S (.prism p) v 1 = (Prism.vertexCoords p v).2.1.toNat * 2 ^ 8 := h1.symm
      show real (Prism.vertexCoords p v).2.1 / 2 ^ 21 = ((cornerPoint S (.prism p) v 1 : Nat) : ℚ) / ((2 ^ 29 : Nat) : ℚ)
      rw [this, real_eq (by omega)]
      push_cast
      ring
    · have : cornerPoint S (.prism p) v 2 = (Prism.vertexCoords p v).2.2.toNat * 2 ^ 9 := h2.symm
      show real (Prism.vertexCoords p v).2.2 / 2 ^ 21 = ((cornerPoint S (.prism p) v 2 : Nat) : ℚ) / ((2 ^ 30 : Nat) : ℚ)
      rw [this, real_eq (by omega)]
      push_cast
      ring
  | pyramid p =>
    have hv' : v < if 6 ≤ p.type then 5 else 4 := by
      rw [isPyra_shape] at hv
      split_ifs at hv ⊢ <;> exact hv
    have hk := pyramid_coord he hv' k
    show real _ / 2 ^ 21 = _ / ((2 ^ 21 : Nat) : ℚ)
    rw [real_of hk.1 hk.2]
    push_cast
    rfl

/-! ### Reference coordinates of points -/

theorem real_twoPow {n : Nat} (hn : n ≤ 30) : real (BitVec.twoPow 32 n) = 2 ^ n := by
  rw [real_of (Bits.toNat_twoPow (by omega)) (pow_lt hn)]; push_cast; rfl

theorem real_small {M : Nat} {c : BitVec 32} (hM : M ≤ 30) (hx : c.toNat ≤ 2 ^ M) : real c = (c.toNat : ℚ) := by
  have := pow_lt hM
  exact real_eq (by omega)

theorem tri_ref {t : Simplex.Elem 2} (ht : Simplex.Aligned .tri t) {v : Nat} (hv : v ≤ 2) (r : Point) (h0 : r 0 = if 1 ≤ v then 1 else 0)
    (h1 : r 1 = if 2 ≤ v then 1 else 0) :
    triRefCoords t r = ![(Simplex.corner .tri t v (0 : Fin 2) : ℚ) / 2 ^ 29, (Simplex.corner .tri t v (1 : Fin 2) : ℚ) / 2 ^ 29, 0] := by
  have a0 := Simplex.x_add_le (c := .tri) ht (0 : Fin 2)
  have a1 := Simplex.x_add_le (c := .tri) ht (1 : Fin 2)
  have r0 : real (t.x 0) = ((t.x 0).toNat : ℚ) := real_small (M := 29) (by omega) (le_trans (Nat.le_add_right _ _) a0)
  have r1 : real (t.x 1) = ((t.x 1).toNat : ℚ) := real_small (M := 29) (by omega) (le_trans (Nat.le_add_right _ _) a1)
  have rh : real (Simplex.len .tri t.level) = ((Simplex.size .tri t.level : Nat) : ℚ) := by
    rw [Simplex.len, real_twoPow (by show 29 - _ ≤ 30; omega), Simplex.size]; push_cast; rfl
  have ht2 : t.type < 2 := ht.2
  rw [triRefCoords, r0, r1, rh, h0, h1]
  simp only [Simplex.corner]
  generalize Simplex.size .tri t.level = H
  obtain ⟨x, l, ty⟩ := t
  simp only at *
  interval_cases ty <;> interval_cases v <;> simp [plusAt, Simplex.rank, Simplex.axes, List.idxOf_cons]

theorem tet_ref {t : Simplex.Elem 3} (ht : Simplex.Aligned .tet t) {v : Nat} (hv : v ≤ 3) (r : Point)
    (hr : r = cornerRefCoords .tet v) (k : Fin 3) :
    tetRefCoords t r k = (Simplex.corner .tet t v k : ℚ) / 2 ^ 21 := by
  have r0 : ∀ k, real (t.x k) = ((t.x k).toNat : ℚ) := fun k =>
    real_small (M := 21) (by omega) (le_trans (Nat.le_add_right _ _) (Simplex.x_add_le (c := .tet) ht k))
  have rh : real (Simplex.len .tet t.level) = ((Simplex.size .tet t.level : Nat) : ℚ) := by
    rw [Simplex.len, real_twoPow (by show 21 - _ ≤ 30; omega), Simplex.size]; push_cast; rfl
  have ht2 : t.type < 6 := ht.2
  subst hr
  simp only [tetRefCoords, r0, rh, Simplex.corner]
  generalize Simplex.size .tet t.level = H
  obtain ⟨x, l, ty⟩ := t
  simp only at *
  interval_cases ty <;> interval_cases v <;> fin_cases k <;>
    simp [plusAt, Simplex.rank, Simplex.axes, List.idxOf_cons, cornerRefCoords, cornerRefTable]

theorem line_ref {l : Dline.Line} (hl : Dline.Valid l) (v : Nat) :
    lineRefCoord l v = ((l.x.toNat + v * 2 ^ (30 - l.level) : Nat) : ℚ) / 2 ^ 30 := by
  have h1 : l.x.toNat + 2 ^ (30 - l.level) ≤ 2 ^ 30 := add_le hl.1 hl.2.1 hl.2.2
  have rh : real (Dline.len l.level) = 2 ^ (30 - l.level) := real_twoPow (by show 30 - _ ≤ 30; omega)
  rw [lineRefCoord, real_small (M := 30) (by omega) (le_trans (Nat.le_add_right _ _) h1), rh]
  push_cast
  ring

theorem cube_anchor {d M : Nat} (hM : M ≤ 30) {e : Standalone.Elem d} (he : Standalone.Valid M e) (i : Fin d) :
    real (e.coords i) = ((e.coords i).toNat : ℚ) ∧ real (Standalone.getLen M e.level) = 2 ^ (M - e.level) :=
  ⟨real_small hM (le_of_lt (he.2 i).1), real_twoPow (by omega)⟩

/-- The corners of the reference element are sent to the corners of the element. -/
theorem refCoords_corner {S : P4ests} {e : Element} (he : e.Valid S) {v : Nat} (hv : v < (shape e).numVertices) :
    refCoords S e (cornerRefCoords (shape e) v) = toRef S e.eclass (cornerPoint S e v) := by
  funext k
  cases e with
  | vertex x => fin_cases k <;> simp [refCoords, toRef, cornerPoint]
  | line l =>
    have hv' : v < 2 := hv
    have h := line_ref he v
    have hr : cornerRefCoords .line v 0 = (v : ℚ) := by interval_cases v <;> rfl
    fin_cases k
    · show lineRefCoord l (cornerRefCoords .line v 0) = ((l.x.toNat + v * 2 ^ (30 - l.level) : Nat) : ℚ) / ((2 ^ 30 : Nat) : ℚ)
      rw [hr, h]; push_cast; rfl
    · simp [refCoords, toRef, cornerPoint]
    · simp [refCoords, toRef, cornerPoint]
  | quad q =>
    have he' : Standalone.Valid 30 q := he.1
    have hv' : v < 4 := hv
    obtain ⟨a0, b⟩ := cube_anchor (le_refl 30) he' 0
    obtain ⟨a1, _⟩ := cube_anchor (le_refl 30) he' 1
    have r0 : cornerRefCoords .quad v 0 = ((v / 2 ^ 0 % 2 : Nat) : ℚ) := by interval_cases v <;> rfl
    have r1 : cornerRefCoords .quad v 1 = ((v / 2 ^ 1 % 2 : Nat) : ℚ) := by interval_cases v <;> rfl
    fin_cases k
    · show (real (q.coords 0) + cornerRefCoords .quad v 0 * real (Standalone.getLen 30 q.level)) / 2 ^ 30 =
        (((q.coords 0).toNat + v / 2 ^ 0 % 2 * 2 ^ (30 - q.level) : Nat) : ℚ) / ((2 ^ 30 : Nat) : ℚ)
      rw [a0, b, r0]; push_cast; rfl
    · show (real (q.coords 1) + cornerRefCoords .quad v 1 * real (Standalone.getLen 30 q.level)) / 2 ^ 30 =
        (((q.coords 1).toNat + v / 2 ^ 1 % 2 * 2 ^ (30 - q.level) : Nat) : ℚ) / ((2 ^ 30 : Nat) : ℚ)
      rw [a1, b, r1]; push_cast; rfl
    · simp [refCoords, toRef, cornerPoint]
  | triangle t =>
    have hv' : v ≤ 2 := by have : v < 3 := hv; omega
    show triRefCoords t (cornerRefCoords .triangle v) k = _
    rw [tri_ref he.aligned hv' _ (by interval_cases v <;> rfl) (by interval_cases v <;> rfl)]
    fin_cases k <;> norm_num [toRef, cornerPoint, rootLength, Element.eclass]
  | hex h =>
    have he' : Standalone.Valid S.M h := he.1
    have hv' : v < 8 := hv
    obtain ⟨a0, b⟩ := cube_anchor S.hM.2 he' k
    have r0 : cornerRefCoords .hex v k = ((v / 2 ^ k.val % 2 : Nat) : ℚ) := by
      fin_cases k <;> interval_cases v <;> rfl
    show (real (h.coords k) + cornerRefCoords .hex v k * real (Standalone.getLen S.M h.level)) / 2 ^ S.M =
      (((h.coords k).toNat + v / 2 ^ k.val % 2 * 2 ^ (S.M - h.level) : Nat) : ℚ) / ((2 ^ S.M : Nat) : ℚ)
    rw [a0, b, r0]; push_cast; rfl
  | tet t =>
    have hv' : v ≤ 3 := by have : v < 4 := hv; omega
    show tetRefCoords t (cornerRefCoords .tet v) k = _ / ((2 ^ 21 : Nat) : ℚ)
    rw [tet_ref he.aligned hv' _ rfl]; push_cast; rfl
  | prism p =>
    have hv' : v < 6 := hv
    have h1 := tri_ref he.1.aligned (v := v % 3) (by omega) (cornerRefCoords .prism v) (by interval_cases v <;> rfl)
      (by interval_cases v <;> rfl)
    have h2 := line_ref he.2.1 (v / 3)
    have hr : cornerRefCoords .prism v 2 = ((v / 3 : Nat) : ℚ) := by interval_cases v <;> rfl
    fin_cases k
    · show triRefCoords p.1 (cornerRefCoords .prism v) 0 = _
      rw [h1]
      norm_num [toRef, cornerPoint, rootLength, Element.eclass]
    · show triRefCoords p.1 (cornerRefCoords .prism v) 1 = _
      rw [h1]
      norm_num [toRef, cornerPoint, rootLength, Element.eclass]
    · show lineRefCoord p.2 (cornerRefCoords .prism v 2) = ((p.2.x.toNat + v / 3 * 2 ^ (30 - p.2.level) : Nat) : ℚ) / ((2 ^ 30 : Nat) : ℚ)
      rw [hr, h2]; push_cast; rfl
  | pyramid p =>
    show _ = ((Pyramid.corner p v k : Nat) : ℚ) / ((2 ^ 21 : Nat) : ℚ)
    by_cases h : 6 ≤ p.type
    · rw [isPyra_shape, if_pos h] at hv
      rw [isPyra_shape, if_pos h, Pyramid.corner, if_pos h, refCoords, if_pos ((Pyramid.isPyra_iff p).2 h)]
      have hv' : v < 5 := hv
      have a : ∀ k, real (p.tet.x k) = ((p.tet.x k).toNat : ℚ) := fun k =>
        real_small (M := 21) (by omega) (le_trans (Nat.le_add_right _ _) (Pyramid.x_add_le he.good k))
      have rh : real (Pyramid.len p.level) = ((2 ^ (21 - p.level) : Nat) : ℚ) := by
        rw [real_of (Pyramid.len_toNat _) (pow_lt (by omega))]
      obtain ⟨hb, _⟩ := he.good.pyra h
      rw [rh]
      simp only [a, Pyramid.pyraCorner]
      generalize 2 ^ (21 - p.level) = H
      rcases hb with h6 | h6 <;> simp only [h6] <;> interval_cases v <;> fin_cases k <;>
        simp [cornerRefCoords, cornerRefTable] <;> ring
    · rw [isPyra_shape, if_neg h] at hv
      rw [isPyra_shape, if_neg h, Pyramid.corner, if_neg h, refCoords, if_neg (by rw [Pyramid.isPyra_iff]; exact h)]
      have hv' : v ≤ 3 := by have : v < 4 := hv; omega
      rw [tet_ref (he.good.aligned h) hv' _ rfl]; push_cast; rfl

end T8.Geometry
