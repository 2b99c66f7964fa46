import Mathlib.Tactic.Ring
import Mathlib.Tactic.FinCases
import Mathlib.Tactic.IntervalCases
import Mathlib.Tactic.Linarith
import Mathlib.Tactic.FieldSimp
import Mathlib.Tactic.Positivity
import Verif.Spec.Sphere

/-!
# Proofs: disk and sphere geometries
-/

namespace T8.Sphere
open T8 T8.CadGeometry

theorem dot_sq (v : Pt) : dot v v = v 0 ^ 2 + v 1 ^ 2 + v 2 ^ 2 := by simp only [dot]; ring

theorem dot_nonneg (v : Pt) : 0 ≤ dot v v := by rw [dot_sq]; positivity

theorem rescale_eq (v : Pt) (R : ℝ) : rescale v R = onSphere R v := by
  funext i
  simp only [rescale, normalize, norm, onSphere, dot_sq, Pi.smul_apply, smul_eq_mul]
  ring

theorem onSphere_on {v : Pt} (h : v ≠ 0) (R : ℝ) : OnSphere R (onSphere R v) := by
  have h0 : 0 < v 0 ^ 2 + v 1 ^ 2 + v 2 ^ 2 := by
    rcases lt_or_eq_of_le (show 0 ≤ v 0 ^ 2 + v 1 ^ 2 + v 2 ^ 2 by positivity) with h' | h'
    · exact h'
    · exfalso
      have e0 : v 0 = 0 := pow_eq_zero_iff (n := 2) (by decide) |>.1 (by nlinarith [sq_nonneg (v 0), sq_nonneg (v 1), sq_nonneg (v 2)])
      have e1 : v 1 = 0 := pow_eq_zero_iff (n := 2) (by decide) |>.1 (by nlinarith [sq_nonneg (v 0), sq_nonneg (v 1), sq_nonneg (v 2)])
      have e2 : v 2 = 0 := pow_eq_zero_iff (n := 2) (by decide) |>.1 (by nlinarith [sq_nonneg (v 0), sq_nonneg (v 1), sq_nonneg (v 2)])
      exact h (by funext i; fin_cases i <;> simp [e0, e1, e2])
  have hs := Real.sq_sqrt h0.le
  have hne : Real.sqrt (v 0 ^ 2 + v 1 ^ 2 + v 2 ^ 2) ≠ 0 := (Real.sqrt_pos.2 h0).ne'
  simp only [OnSphere, onSphere, Pi.smul_apply, smul_eq_mul]
  have : ∀ a : ℝ, (a * v 0) ^ 2 + (a * v 1) ^ 2 + (a * v 2) ^ 2 = a ^ 2 * (v 0 ^ 2 + v 1 ^ 2 + v 2 ^ 2) := fun a => by ring
  rw [this, div_pow, hs]
  field_simp

theorem onSphere_smul {a : ℝ} (ha : 0 < a) (R : ℝ) (v : Pt) : onSphere R (a • v) = onSphere R v := by
  funext i
  simp only [onSphere, Pi.smul_apply, smul_eq_mul]
  have : (a * v 0) ^ 2 + (a * v 1) ^ 2 + (a * v 2) ^ 2 = a ^ 2 * (v 0 ^ 2 + v 1 ^ 2 + v 2 ^ 2) := by ring
  rw [this, Real.sqrt_mul (by positivity), Real.sqrt_sq ha.le]
  field_simp

theorem onSphere_self {R : ℝ} {v : Pt} (hR : 0 < R) (h : OnSphere R v) : onSphere R v = v := by
  simp only [OnSphere] at h
  rw [onSphere, h, Real.sqrt_sq hR.le, div_self hR.ne', one_smul]

/-! ### Triangles and prisms -/

/-- **C68** (triangulated surfaces).  All points of a tree that does not contain the origin are on the sphere through its first vertex, in the direction of the linear
geometry, and vertices on this sphere stay where they are. -/
theorem C68_triangulated (V : Nat → Pt) (r : Pt) (h : tri2 (r 0) (r 1) V ≠ 0) :
    triSurface V r = onSphere (norm (V 0)) (tri2 (r 0) (r 1) V) ∧ OnSphere (norm (V 0)) (triSurface V r) := by
  rw [triSurface, rescale_eq]
  exact ⟨rfl, onSphere_on h _⟩

/-- **C68** (vertices of triangulated surfaces). -/
theorem C68_triangulated_vertices {V : Nat → Pt} {R : ℝ} (hR : 0 < R) (hV : ∀ v < 3, OnSphere R (V v)) :
    triSurface V ![0, 0, 0] = V 0 ∧ triSurface V ![1, 0, 0] = V 1 ∧ triSurface V ![1, 1, 0] = V 2 := by
  have hn : norm (V 0) = R := by rw [norm, dot_sq, hV 0 (by decide), Real.sqrt_sq hR.le]
  have e0 : tri2 ((![0, 0, 0] : Pt) 0) ((![0, 0, 0] : Pt) 1) V = V 0 := by funext i; simp [tri2]
  have e1 : tri2 ((![1, 0, 0] : Pt) 0) ((![1, 0, 0] : Pt) 1) V = V 1 := by funext i; simp [tri2]
  have e2 : tri2 ((![1, 1, 0] : Pt) 0) ((![1, 1, 0] : Pt) 1) V = V 2 := by funext i; simp [tri2]
  refine ⟨?_, ?_, ?_⟩ <;> rw [triSurface, rescale_eq, hn]
  · rw [e0, onSphere_self hR (hV 0 (by decide))]
  · rw [e1, onSphere_self hR (hV 1 (by decide))]
  · rw [e2, onSphere_self hR (hV 2 (by decide))]

/-- **C68** (shells of prisms).  The radius of the image depends on the third coordinate only and grows linearly from the inner to the outer radius. -/
theorem C68_prism_shell (V : Nat → Pt) (r : Pt) (h : prismLinear r V ≠ 0) :
    OnSphere ((1 - r 2) * norm (V 0) + r 2 * norm (V 3)) (prismShell V r) ∧
      prismShell V r = onSphere ((1 - r 2) * norm (V 0) + r 2 * norm (V 3)) (prismLinear r V) := by
  have e : norm (V 0) + r 2 * (norm (V 3) - norm (V 0)) = (1 - r 2) * norm (V 0) + r 2 * norm (V 3) := by ring
  rw [prismShell, rescale_eq, e]
  exact ⟨onSphere_on h _, rfl⟩

/-! ### Trees over the faces of a cube -/

theorem vec2 (a b c : ℝ) : (![a, b, c] : Fin 3 → ℝ) 2 = c := rfl

theorem axis_eq (k : Fin 3) (x : ℝ) : (Pi.single k x : Pt) = fun j => if j = k then x else 0 := by
  funext j
  by_cases h : j = k
  · subst h; simp
  · simp [h]

theorem normalize_axis (k : Fin 3) {σ x : ℝ} (hσ : σ = 1 ∨ σ = -1) (hx : 0 < σ * x) :
    normalize (fun j => if j = k then x else 0) = fun j => if j = k then σ else 0 := by
  have hn : norm (fun j => if j = k then x else 0) = σ * x := by
    rw [norm, show dot (fun j => if j = k then x else 0) (fun j => if j = k then x else 0) = (σ * x) ^ 2 by
      have : σ ^ 2 = 1 := by rcases hσ with rfl | rfl <;> norm_num
      rw [mul_pow, this]
      fin_cases k <;> simp [dot] <;> ring]
    exact Real.sqrt_sq hx.le
  funext j
  simp only [normalize]
  rw [hn]
  have hx0 : x ≠ 0 := by rintro rfl; simp at hx
  split
  · rcases hσ with rfl | rfl <;> field_simp
  · simp

/-- The component of the normal across the face. -/
theorem cross_component (V : Nat → Pt) (k : Fin 3) : cross (V 1 - V 0) (V 2 - V 0) k =
    (V 1 (k + 1) - V 0 (k + 1)) * (V 2 (k + 2) - V 0 (k + 2)) - (V 1 (k + 2) - V 0 (k + 2)) * (V 2 (k + 1) - V 0 (k + 1)) := by
  fin_cases k <;> simp [cross, vec2]

theorem normal_eq {V : Nat → Pt} {c : Eclass} {k : Fin 3} {σ d : ℝ} (H : InCubeFace V c k σ d) : normal V = fun j => if j = k then σ else 0 := by
  have h0 := H.face 0 (by split <;> decide)
  have h1 := H.face 1 (by split <;> decide)
  have h2 := H.face 2 (by split <;> decide)
  have hc : cross (V 1 - V 0) (V 2 - V 0) = fun j => if j = k then cross (V 1 - V 0) (V 2 - V 0) k else 0 := by
    funext j
    fin_cases k <;> fin_cases j <;> simp at h0 h1 h2 <;> simp [cross, vec2, h0, h1, h2]
  rw [normal, hc]
  exact normalize_axis k H.sign (by rw [cross_component]; exact H.outward)

theorem distance_eq {V : Nat → Pt} {c : Eclass} {k : Fin 3} {σ d : ℝ} (H : InCubeFace V c k σ d) : distance V = d := by
  have h0 := H.face 0 (by split <;> decide)
  have hd : dot (V 0) (fun j => if j = k then σ else 0) = d := by
    have : σ * σ = 1 := by rcases H.sign with h | h <;> rw [h] <;> norm_num
    have h' : dot (V 0) (fun j => if j = k then σ else 0) = V 0 k * σ := by fin_cases k <;> simp [dot]
    rw [h', h0, show σ * d * σ = σ * σ * d by ring, this, one_mul]
  rw [distance, normal_eq H, hd, abs_of_pos H.pos]

theorem norm_one {a b c : ℝ} (h : a ^ 2 + b ^ 2 + c ^ 2 = 1) : normalize ![a, b, c] = ![a, b, c] := by
  have hn : norm ![a, b, c] = 1 := by
    rw [norm, dot_sq]
    simp only [Matrix.cons_val_zero, Matrix.cons_val_one, vec2]
    rw [h, Real.sqrt_one]
  funext i
  simp [normalize, hn]

theorem tripod_0 {σ : ℝ} (h : σ ^ 2 = 1) : tripod (fun j => if j = 0 then σ else 0) = (![0, 0, -σ], ![0, 1, 0]) := by
  have e1 : normalize ![0, 0, -σ] = ![0, 0, -σ] := norm_one (by rw [neg_sq, h]; norm_num)
  have e2 : normalize ![0, 1, 0] = ![0, 1, 0] := norm_one (by norm_num)
  have hw : (![0, 0, -σ] : Pt) + (-dot (fun j => if j = 0 then σ else 0) ![0, 0, -σ] / dot (fun j => if j = 0 then σ else 0) (fun j => if j = 0 then σ else 0)) •
      (fun j => if j = 0 then σ else 0) = ![0, 0, -σ] := by simp [dot]
  have hc : cross (fun j => if j = 0 then σ else 0) ![0, 0, -σ] = ![0, 1, 0] := by
    rw [← h]; simp [cross, vec2, sq]
  simp only [tripod, if_true, show ((1 : Fin 3) = 0) = False by simp, show ((2 : Fin 3) = 0) = False by simp, if_false]
  rw [hw, hc, e1, e2]

theorem tripod_1 {σ : ℝ} (h : σ ^ 2 = 1) : tripod (fun j => if j = 1 then σ else 0) = (![σ, 0, 0], ![0, 0, -1]) := by
  have e1 : normalize ![σ, 0, 0] = ![σ, 0, 0] := norm_one (by rw [h]; norm_num)
  have e2 : normalize ![0, 0, -1] = ![0, 0, -1] := norm_one (by norm_num)
  have hw : (![σ, 0, 0] : Pt) + (-dot (fun j => if j = 1 then σ else 0) ![σ, 0, 0] / dot (fun j => if j = 1 then σ else 0) (fun j => if j = 1 then σ else 0)) •
      (fun j => if j = 1 then σ else 0) = ![σ, 0, 0] := by simp [dot]
  have hc : cross (fun j => if j = 1 then σ else 0) ![σ, 0, 0] = ![0, 0, -1] := by
    rw [← h]; simp [cross, vec2, sq]
  simp only [tripod, if_true, show ((0 : Fin 3) = 1) = False by simp, show ((2 : Fin 3) = 1) = False by simp, if_false, neg_zero]
  rw [hw, hc, e1, e2]

theorem tripod_2 {σ : ℝ} (h : σ ^ 2 = 1) : tripod (fun j => if j = 2 then σ else 0) = (![0, σ, 0], ![-1, 0, 0]) := by
  have e1 : normalize ![0, σ, 0] = ![0, σ, 0] := norm_one (by rw [h]; norm_num)
  have e2 : normalize ![-1, 0, 0] = ![-1, 0, 0] := norm_one (by norm_num)
  have hw : (![0, σ, 0] : Pt) + (-dot (fun j => if j = 2 then σ else 0) ![0, σ, 0] / dot (fun j => if j = 2 then σ else 0) (fun j => if j = 2 then σ else 0)) •
      (fun j => if j = 2 then σ else 0) = ![0, σ, 0] := by simp [dot]
  have hc : cross (fun j => if j = 2 then σ else 0) ![0, σ, 0] = ![-1, 0, 0] := by
    rw [← h]; simp [cross, vec2, sq]
  simp only [tripod, if_true, show ((0 : Fin 3) = 2) = False by simp, show ((1 : Fin 3) = 2) = False by simp, if_false, neg_zero]
  rw [hw, hc, e1, e2]

/-- The point before it is moved to the sphere. -/
theorem cubed_eq {V : Nat → Pt} {c : Eclass} {k : Fin 3} {σ d : ℝ} (H : InCubeFace V c k σ d) {P : Pt} (hP : P k = σ * d) :
    cubed V P = d • direction (fun j => P j / d) := by
  have hd := H.pos.ne'
  have htan : ∀ x : ℝ, Real.tan (1 / 4 * Real.pi * x / d) = Real.tan (Real.pi / 4 * (x / d)) := fun x => by congr 1; ring
  have htan' : ∀ x : ℝ, Real.tan (Real.pi / 4 * (-x / d)) = -Real.tan (Real.pi / 4 * (x / d)) := fun x => by
    rw [← Real.tan_neg]; congr 1; ring
  have hn : ∀ x : ℝ, Real.tan (-(1 / 4 * Real.pi * x) / d) = -Real.tan (Real.pi / 4 * (x / d)) := fun x => by
    rw [← Real.tan_neg]; congr 1; ring
  have h1 : Real.tan (Real.pi / 4 * (d / d)) = 1 := by rw [div_self hd, mul_one, Real.tan_pi_div_four]
  simp only [cubed, normal_eq H, distance_eq H]
  have hs := H.sign
  clear H
  have h2 : σ ^ 2 = 1 := by rcases hs with rfl | rfl <;> norm_num
  have h1' : Real.tan (Real.pi / 4 * (-d / d)) = -1 := by rw [htan', h1]
  fin_cases k
  · simp only [Fin.zero_eta] at hP ⊢
    rw [tripod_0 h2]
    funext j
    rcases hs with rfl | rfl <;> fin_cases j <;>
      simp [direction, dot, vec2, Matrix.vecHead, Matrix.vecTail, htan, htan', hn, hP, h1, h1', -one_div, -mul_eq_mul_left_iff]
  · simp only [Fin.mk_one] at hP ⊢
    rw [tripod_1 h2]
    funext j
    rcases hs with rfl | rfl <;> fin_cases j <;>
      simp [direction, dot, vec2, Matrix.vecHead, Matrix.vecTail, htan, htan', hn, hP, h1, h1', -one_div, -mul_eq_mul_left_iff]
  · simp only [Fin.reduceFinMk] at hP ⊢
    rw [tripod_2 h2]
    funext j
    rcases hs with rfl | rfl <;> fin_cases j <;>
      simp [direction, dot, vec2, Matrix.vecHead, Matrix.vecTail, htan, htan', hn, hP, h1, h1', -one_div, -mul_eq_mul_left_iff]

theorem linear2_face {V : Nat → Pt} {c : Eclass} {k : Fin 3} {σ d : ℝ} (H : InCubeFace V c k σ d) (r : Pt) : linear2 c V r k = σ * d := by
  have h0 := H.face 0 (by split <;> decide)
  have h1 := H.face 1 (by split <;> decide)
  have h2 := H.face 2 (by split <;> decide)
  by_cases hc : c = .quad
  · have h3 := H.face 3 (by rw [if_pos hc]; decide)
    simp only [linear2, hc, if_true, lerp2, h0, h1, h2, h3]
    ring
  · simp only [linear2, hc, if_false, tri2, h0, h1, h2]
    ring

theorem direction_face {σ d : ℝ} (hσ : σ = 1 ∨ σ = -1) (hd : 0 < d) {P : Pt} {k : Fin 3} (hP : P k = σ * d) : direction (fun j => P j / d) k = σ := by
  simp only [direction, hP]
  rw [mul_div_assoc, div_self hd.ne', mul_one]
  rcases hσ with rfl | rfl
  · rw [mul_one, Real.tan_pi_div_four]
  · rw [mul_neg_one, Real.tan_neg, Real.tan_pi_div_four]

theorem direction_ne {σ d : ℝ} (hσ : σ = 1 ∨ σ = -1) (hd : 0 < d) {P : Pt} {k : Fin 3} (hP : P k = σ * d) : direction (fun j => P j / d) ≠ 0 := by
  intro h
  have := direction_face hσ hd hP
  rw [h] at this
  rcases hσ with rfl | rfl <;> simp at this

/-- **C68** (surfaces over cubes).  The image of a tree in a face of the cube `[-d, d]^3` is on the sphere through the corners of the cube, and its direction depends on the
linear position only. -/
theorem C68_cube_surface {V : Nat → Pt} {c : Eclass} {k : Fin 3} {σ d : ℝ} (H : InCubeFace V c k σ d) (r : Pt) :
    tessellated c V r = onSphere (Real.sqrt 3 * d) (direction fun j => linear2 c V r j / d) ∧ OnSphere (Real.sqrt 3 * d) (tessellated c V r) := by
  have h : tessellated c V r = onSphere (Real.sqrt 3 * d) (direction fun j => linear2 c V r j / d) := by
    rw [tessellated, rescale_eq, cubed_eq H (linear2_face H r), onSphere_smul H.pos, distance_eq H, mul_comm]
  exact ⟨h, h ▸ onSphere_on (direction_ne H.sign H.pos (linear2_face H r)) _⟩

/-- **C68** (trees of surfaces fit together).  Trees in any two faces of the cube map common points of their linear geometries to the same point. -/
theorem C68_cube_surface_fit {V V' : Nat → Pt} {c c' : Eclass} {k k' : Fin 3} {σ σ' d : ℝ} (H : InCubeFace V c k σ d) (H' : InCubeFace V' c' k' σ' d) {r r' : Pt}
    (h : linear2 c V r = linear2 c' V' r') : tessellated c V r = tessellated c' V' r' := by
  rw [(C68_cube_surface H r).1, (C68_cube_surface H' r').1, h]

/-- **C68** (shells over cubes).  The radius of the image grows linearly with the third coordinate, from the sphere through the corners of the inner cube to the sphere
through the corners of the outer cube, and the direction depends on the linear position of the first two coordinates only. -/
theorem C68_cube_shell {V : Nat → Pt} {c : Eclass} {k : Fin 3} {σ d d' : ℝ} (H : InCubeFace V c k σ d) (hd' : 0 < d')
    (ho : V (if c = .quad then 4 else 3) k = σ * d') (r : Pt) :
    shell c V r = onSphere (Real.sqrt 3 * ((1 - r 2) * d + r 2 * d')) (direction fun j => linear2 c V r j / d) ∧
      OnSphere (Real.sqrt 3 * ((1 - r 2) * d + r 2 * d')) (shell c V r) := by
  have ht : |dot (V (if c = .quad then 4 else 3)) (normal V)| = d' := by
    have : σ * σ = 1 := by rcases H.sign with h | h <;> rw [h] <;> norm_num
    have h' : ∀ w : Pt, dot w (fun j => if j = k then σ else 0) = w k * σ := fun w => by fin_cases k <;> simp [dot]
    rw [normal_eq H, h', ho, show σ * d' * σ = σ * σ * d' by ring, this, one_mul, abs_of_pos hd']
  have h : shell c V r = onSphere (Real.sqrt 3 * ((1 - r 2) * d + r 2 * d')) (direction fun j => linear2 c V r j / d) := by
    simp only [shell]
    rw [ht, rescale_eq, cubed_eq H (linear2_face H r), onSphere_smul H.pos, distance_eq H]
    congr 1
    ring
  exact ⟨h, h ▸ onSphere_on (direction_ne H.sign H.pos (linear2_face H r)) _⟩

/-- **C68** (layers of shells fit together).  The outer side of a tree and the inner side of the tree above it coincide if the vertices of the upper one are the vertices of
the lower one scaled from the inner to the outer cube. -/
theorem C68_cube_layers {V V' : Nat → Pt} {c : Eclass} {k : Fin 3} {σ d d' d'' : ℝ} (H : InCubeFace V c k σ d) (H' : InCubeFace V' c k σ d') (hd'' : 0 < d'')
    (ho : V (if c = .quad then 4 else 3) k = σ * d') (ho' : V' (if c = .quad then 4 else 3) k = σ * d'')
    (hs : ∀ v < (if c = .quad then 4 else 3), V' v = (d' / d) • V v) (x y : ℝ) : shell c V ![x, y, 1] = shell c V' ![x, y, 0] := by
  rw [(C68_cube_shell H H'.pos ho _).1, (C68_cube_shell H' hd'' ho' _).1]
  have e : linear2 c V' ![x, y, 0] = (d' / d) • linear2 c V ![x, y, 1] := by
    have s0 := hs 0 (by split <;> decide)
    have s1 := hs 1 (by split <;> decide)
    have s2 := hs 2 (by split <;> decide)
    funext j
    by_cases hc : c = .quad
    · have s3 := hs 3 (by rw [if_pos hc]; decide)
      simp only [linear2, hc, if_true, lerp2, s0, s1, s2, s3, Pi.smul_apply, smul_eq_mul, Matrix.cons_val_zero, Matrix.cons_val_one]
      ring
    · simp only [linear2, hc, if_false, tri2, s0, s1, s2, Pi.smul_apply, smul_eq_mul, Matrix.cons_val_zero, Matrix.cons_val_one]
      ring
  have hd := H.pos.ne'
  have hd' := H'.pos.ne'
  have e' : (fun j => linear2 c V' ![x, y, 0] j / d') = fun j => linear2 c V ![x, y, 1] j / d := by
    funext j
    rw [e, Pi.smul_apply, smul_eq_mul]
    field_simp
  rw [e']
  simp only [vec2]
  congr 1
  ring

/-- **C68** (corners of the cube stay). -/
theorem C68_cube_corner {V : Nat → Pt} {c : Eclass} {k : Fin 3} {σ d : ℝ} (H : InCubeFace V c k σ d) {r : Pt}
    (hc : ∀ j, linear2 c V r j = d ∨ linear2 c V r j = -d) : tessellated c V r = linear2 c V r := by
  have hd := H.pos
  have e : (direction fun j => linear2 c V r j / d) = (1 / d) • linear2 c V r := by
    funext j
    rcases hc j with h | h
    · rw [direction_face (σ := 1) (Or.inl rfl) hd (by rw [h, one_mul])]
      simp [h, hd.ne']
    · rw [direction_face (σ := -1) (Or.inr rfl) hd (by rw [h, neg_one_mul])]
      simp [h, hd.ne']
  rw [(C68_cube_surface H r).1, e, onSphere_smul (by positivity)]
  refine onSphere_self (by positivity) ?_
  have h2 : ∀ j, linear2 c V r j ^ 2 = d ^ 2 := fun j => by rcases hc j with h | h <;> rw [h] <;> ring
  rw [OnSphere, h2, h2, h2, mul_pow, Real.sq_sqrt (by norm_num)]
  ring

theorem onSphere_dir {R : ℝ} (hR : 0 < R) {q q' : Pt} (hq : q ≠ 0) (hq' : q' ≠ 0) (h : onSphere R q = onSphere R q') : ∃ l : ℝ, 0 < l ∧ q = l • q' := by
  have pos : ∀ {v : Pt}, v ≠ 0 → 0 < Real.sqrt (v 0 ^ 2 + v 1 ^ 2 + v 2 ^ 2) := fun {v} hv => by
    rcases lt_or_eq_of_le (Real.sqrt_nonneg (v 0 ^ 2 + v 1 ^ 2 + v 2 ^ 2)) with h' | h'
    · exact h'
    · exfalso
      have := onSphere_on hv 1
      rw [onSphere, ← h', div_zero, zero_smul] at this
      simp [OnSphere] at this
  have a := pos hq
  have b := pos hq'
  refine ⟨Real.sqrt (q 0 ^ 2 + q 1 ^ 2 + q 2 ^ 2) / Real.sqrt (q' 0 ^ 2 + q' 1 ^ 2 + q' 2 ^ 2), by positivity, ?_⟩
  funext i
  have := congrFun h i
  simp only [onSphere, Pi.smul_apply, smul_eq_mul] at this ⊢
  field_simp at this ⊢
  linarith

theorem tan_le_one {x : ℝ} (h : |x| ≤ 1) : |Real.tan (Real.pi / 4 * x)| ≤ 1 := by
  have hp := Real.pi_pos
  obtain ⟨h1, h2⟩ := abs_le.1 h
  have hm := Real.strictMonoOn_tan.monotoneOn
  have m : ∀ y : ℝ, -1 ≤ y → y ≤ 1 → Real.pi / 4 * y ∈ Set.Ioo (-(Real.pi / 2)) (Real.pi / 2) := fun y a b => ⟨by nlinarith, by nlinarith⟩
  have u := hm (m x h1 h2) (m 1 (by norm_num) le_rfl) (by nlinarith)
  have l := hm (m (-1) le_rfl (by norm_num)) (m x h1 h2) (by nlinarith)
  rw [mul_one, Real.tan_pi_div_four] at u
  rw [mul_neg_one, Real.tan_neg, Real.tan_pi_div_four] at l
  exact abs_le.2 ⟨l, u⟩

/-- **C68** (trees of surfaces do not overlap).  Points in any two faces of the cube that have the same image have the same linear position. -/
theorem C68_cube_surface_injective {V V' : Nat → Pt} {c c' : Eclass} {k k' : Fin 3} {σ σ' d : ℝ} (H : InCubeFace V c k σ d) (H' : InCubeFace V' c' k' σ' d) {r r' : Pt}
    (hP : ∀ j, |linear2 c V r j| ≤ d) (hP' : ∀ j, |linear2 c' V' r' j| ≤ d) (h : tessellated c V r = tessellated c' V' r') :
    linear2 c V r = linear2 c' V' r' := by
  have hd := H.pos
  rw [(C68_cube_surface H r).1, (C68_cube_surface H' r').1] at h
  obtain ⟨l, hl, e⟩ := onSphere_dir (by positivity) (direction_ne H.sign hd (linear2_face H r)) (direction_ne H'.sign hd (linear2_face H' r')) h
  have one : ∀ {s : ℝ}, s = 1 ∨ s = -1 → |s| = 1 := fun hs => by rcases hs with rfl | rfl <;> simp
  have le : ∀ {P : Pt}, (∀ j, |P j| ≤ d) → ∀ j, |P j / d| ≤ 1 := fun h j => by rw [abs_div, abs_of_pos hd]; exact (div_le_one hd).2 (h j)
  have e1 := congrArg abs (congrFun e k)
  have e2 := congrArg abs (congrFun e k')
  rw [Pi.smul_apply, smul_eq_mul, abs_mul, abs_of_pos hl, direction_face H.sign hd (linear2_face H r), one H.sign] at e1
  rw [Pi.smul_apply, smul_eq_mul, abs_mul, abs_of_pos hl, direction_face H'.sign hd (linear2_face H' r'), one H'.sign] at e2
  have b1 : |direction (fun j => linear2 c' V' r' j / d) k| ≤ 1 := tan_le_one (le hP' k)
  have b2 : |direction (fun j => linear2 c V r j / d) k'| ≤ 1 := tan_le_one (le hP k')
  have hl1 : l = 1 := by nlinarith
  rw [hl1, one_smul] at e
  funext j
  have ej : Real.tan (Real.pi / 4 * (linear2 c V r j / d)) = Real.tan (Real.pi / 4 * (linear2 c' V' r' j / d)) := congrFun e j
  have hp := Real.pi_pos
  have m : ∀ {y : ℝ}, |y| ≤ 1 → Real.pi / 4 * y ∈ Set.Ioo (-(Real.pi / 2)) (Real.pi / 2) := fun {y} hy => by
    obtain ⟨a, b⟩ := abs_le.1 hy
    exact ⟨by nlinarith, by nlinarith⟩
  have := Real.strictMonoOn_tan.injOn (m (le hP j)) (m (le hP' j)) ej
  have h3 : linear2 c V r j / d = linear2 c' V' r' j / d := by
    have h4 : Real.pi / 4 ≠ 0 := by positivity
    exact mul_left_cancel₀ h4 this
  field_simp at h3
  exact h3

/-! ### Disk and ball -/

theorem dot_normalize (a b : Pt) : dot a (normalize b) = dot a b / norm b := by simp only [dot, normalize]; ring

theorem normalize_dot (a b : Pt) : dot (normalize a) b = dot a b / norm a := by simp only [dot, normalize]; ring

theorem norm_pos_of_dot {a b : Pt} (h : dot a b ≠ 0) : 0 < norm a := by
  rcases lt_or_eq_of_le (Real.sqrt_nonneg (dot a a)) with h' | h'
  · exact h'
  · exfalso
    have h0 := (Real.sqrt_eq_zero (dot_nonneg a)).1 h'.symm
    rw [dot_sq] at h0
    have e0 : a 0 = 0 := pow_eq_zero_iff (n := 2) (by decide) |>.1 (by nlinarith [sq_nonneg (a 0), sq_nonneg (a 1), sq_nonneg (a 2)])
    have e1 : a 1 = 0 := pow_eq_zero_iff (n := 2) (by decide) |>.1 (by nlinarith [sq_nonneg (a 0), sq_nonneg (a 1), sq_nonneg (a 2)])
    have e2 : a 2 = 0 := pow_eq_zero_iff (n := 2) (by decide) |>.1 (by nlinarith [sq_nonneg (a 0), sq_nonneg (a 1), sq_nonneg (a 2)])
    exact h (by simp [dot, e0, e1, e2])

theorem dot_comm (a b : Pt) : dot a b = dot b a := by simp only [dot]; ring

/-- The outer radius at points in the plane through the last vertex. -/
theorem outRadius_eq {n v p : Pt} (h : dot v n ≠ 0) (hp : dot p n = dot v n) : dot p (normalize n) * (1 / dot (normalize v) (normalize n)) = norm v := by
  have a := norm_pos_of_dot h
  have b := norm_pos_of_dot (a := n) (b := v) (by rwa [dot_comm])
  rw [dot_normalize, dot_normalize, normalize_dot, hp]
  field_simp

theorem normalize_on {q : Pt} (h : q ≠ 0) (R : ℝ) : OnSphere R (R • normalize q) := by
  have e : R • normalize q = rescale q R := by funext i; simp [rescale]
  rw [e, rescale_eq]
  exact onSphere_on h R

/-- **C68** (center and inner sides).  The trees in the center are linear, and so are the sides of the other trees that touch them. -/
theorem C68_inner (g : Nat) (V : Nat → Pt) (r : Pt) :
    ((g % 3 = 0 ∨ (g % 3 = 1 ∧ r 1 = 0) ∨ (g % 3 = 2 ∧ r 0 = 0)) → disk g V r = lerp2 (r 0) (r 1) V) ∧
      ((g % 4 = 0 ∨ (g % 4 = 1 ∧ r 1 = 0) ∨ (g % 4 = 2 ∧ r 0 = 0) ∨ (g % 4 = 3 ∧ r 2 = 0)) → ball g V r = lerp3 r V) := by
  constructor
  · rintro (h | ⟨h, h'⟩ | ⟨h, h'⟩)
    · simp [disk, h]
    · simp [disk, h, h']
    · simp [disk, h, h']
  · rintro (h | ⟨h, h'⟩ | ⟨h, h'⟩ | ⟨h, h'⟩)
    · simp [ball, h]
    all_goals simp [ball, rCoord, h, h']

/-- **C68** (the boundary of the disk is a circle).  Let the outer edge of a tree be orthogonal to its first vertex.  Then the image of the outer edge is on the circle
through the last vertex. -/
theorem C68_disk_circle (g : Nat) {V : Nat → Pt} (hg : g % 3 ≠ 0) (hv : dot (V 3) (V 0) ≠ 0)
    (ho : dot (V (if g % 3 = 1 then 2 else 1)) (V 0) = dot (V 3) (V 0)) {r : Pt} (hr : r (if g % 3 = 1 then 1 else 0) = 1) :
    OnSphere (norm (V 3)) (disk g V r) := by
  have h12 : g % 3 = 1 ∨ g % 3 = 2 := by omega
  rcases h12 with h | h
  · simp only [h, if_true] at ho hr
    have hp : ∀ a : ℝ, dot (lerp2 a 1 V) (V 0) = dot (V 3) (V 0) := fun a => by
      have : dot (lerp2 a 1 V) (V 0) = dot (V 2) (V 0) * (1 - a) + dot (V 3) (V 0) * a := by simp only [dot, lerp2]; ring
      rw [this, ho]; ring
    have hne : ∀ a : ℝ, lerp2 a 1 V ≠ 0 := fun a e => hv (by rw [← hp a, e]; simp [dot])
    have e : disk g V r = norm (V 3) • normalize (lerp2 (Real.tan (1 / 4 * Real.pi * r 0)) 1 V) := by
      simp only [disk, h, hr]
      rw [outRadius_eq hv (hp _)]
      simp
    rw [e]
    exact normalize_on (hne _) _
  · simp only [h, show ((2 : Nat) = 1) = False by simp, if_false] at ho hr
    have hp : ∀ a : ℝ, dot (lerp2 1 a V) (V 0) = dot (V 3) (V 0) := fun a => by
      have : dot (lerp2 1 a V) (V 0) = dot (V 1) (V 0) * (1 - a) + dot (V 3) (V 0) * a := by simp only [dot, lerp2]; ring
      rw [this, ho]; ring
    have hne : ∀ a : ℝ, lerp2 1 a V ≠ 0 := fun a e => hv (by rw [← hp a, e]; simp [dot])
    have e : disk g V r = norm (V 3) • normalize (lerp2 1 (Real.tan (1 / 4 * Real.pi * r 1)) V) := by
      simp only [disk, h, hr]
      rw [outRadius_eq hv (hp _)]
      simp
    rw [e]
    exact normalize_on (hne _) _

/-- The vertices of the outer face of a hexahedron of the ball. -/
def outerVertices (g : Nat) : List Nat := if g % 4 = 1 then [2, 3, 6, 7] else if g % 4 = 2 then [1, 3, 5, 7] else [4, 5, 6, 7]

/-- **C68** (the boundary of the ball is a sphere).  Let the outer face of a tree be orthogonal to its first vertex.  Then the image of the outer face is on the sphere
through the last vertex. -/
theorem C68_ball_sphere (g : Nat) {V : Nat → Pt} (hg : g % 4 ≠ 0) (hv : dot (V 7) (V 0) ≠ 0)
    (ho : ∀ v ∈ outerVertices g, dot (V v) (V 0) = dot (V 7) (V 0)) {r : Pt}
    (hr : r (if g % 4 = 1 then 1 else if g % 4 = 2 then 0 else 2) = 1) : OnSphere (norm (V 7)) (ball g V r) := by
  have hrc : rCoord g = if g % 4 = 1 then 1 else if g % 4 = 2 then 0 else 2 := rfl
  have hp : ∀ q : Pt, q (rCoord g) = 1 → dot (lerp3 q V) (V 0) = dot (V 7) (V 0) := fun q hq => by
    have : dot (lerp3 q V) (V 0) =
        ((dot (V 0) (V 0) * (1 - q 0) + dot (V 1) (V 0) * q 0) * (1 - q 1) + (dot (V 2) (V 0) * (1 - q 0) + dot (V 3) (V 0) * q 0) * q 1) * (1 - q 2) +
          (dot (V 4) (V 0) * (1 - q 0) * (1 - q 1) + dot (V 5) (V 0) * q 0 * (1 - q 1) + dot (V 6) (V 0) * (1 - q 0) * q 1 +
            dot (V 7) (V 0) * q 0 * q 1) * q 2 := by simp only [dot, lerp3]; ring
    rw [this]
    have h123 : g % 4 = 1 ∨ g % 4 = 2 ∨ g % 4 = 3 := by omega
    rcases h123 with h | h | h <;> simp [outerVertices, h] at ho <;> simp [rCoord, h] at hq <;> obtain ⟨o1, o2, o3⟩ := ho <;> rw [o1, o2, o3, hq] <;> ring
  have hne : ∀ q : Pt, q (rCoord g) = 1 → lerp3 q V ≠ 0 := fun q hq e => hv (by rw [← hp q hq, e]; simp [dot])
  rw [← hrc] at hr
  have e : ball g V r = norm (V 7) • normalize (lerp3 (fun j => if j = rCoord g then r j else Real.tan (1 / 4 * Real.pi * r j)) V) := by
    simp only [ball, hg, hr, if_false]
    rw [outRadius_eq hv (hp r hr)]
    simp
  rw [e]
  exact normalize_on (hne _ (by simp [hr])) _

/-- **C68** (tilted sides of the trees of a disk).  The side between the last vertex and the inner vertex below it stays straight if both are on a line through the center.  As
this is the side that two neighbouring trees of a quarter share, they fit together. -/
theorem C68_disk_tilted (g : Nat) {V : Nat → Pt} (hg : g % 3 ≠ 0) (hv : dot (V 3) (V 0) ≠ 0) {m : ℝ} (hm : 0 < m)
    (hi : V (if g % 3 = 1 then 1 else 2) = m • V 3) {r : Pt} (ha : r (if g % 3 = 1 then 0 else 1) = 1)
    (hr : 0 ≤ r (if g % 3 = 1 then 1 else 0)) (hr1 : r (if g % 3 = 1 then 1 else 0) ≤ 1) : disk g V r = lerp2 (r 0) (r 1) V := by
  have ht : Real.tan (1 / 4 * Real.pi * 1) = 1 := by
    rw [show (1 / 4 * Real.pi * 1 : ℝ) = Real.pi / 4 by ring, Real.tan_pi_div_four]
  have key : ∀ c : ℝ, 0 < c → (dot (c • V 3) (normalize (V 0)) * (1 / dot (normalize (V 3)) (normalize (V 0)))) • normalize (c • V 3) = c • V 3 := fun c hc => by
    have a := norm_pos_of_dot hv
    have b := norm_pos_of_dot (a := V 0) (b := V 3) (by rwa [dot_comm])
    have hn : norm (c • V 3) = c * norm (V 3) := by
      rw [norm, show dot (c • V 3) (c • V 3) = c ^ 2 * dot (V 3) (V 3) by simp only [dot, Pi.smul_apply, smul_eq_mul]; ring,
        Real.sqrt_mul (by positivity), Real.sqrt_sq hc.le, norm]
    have hd : dot (c • V 3) (V 0) = c * dot (V 3) (V 0) := by simp only [dot, Pi.smul_apply, smul_eq_mul]; ring
    funext i
    rw [dot_normalize, dot_normalize, normalize_dot, hd]
    simp only [Pi.smul_apply, smul_eq_mul, normalize]
    rw [hn]
    field_simp
  have h12 : g % 3 = 1 ∨ g % 3 = 2 := by omega
  rcases h12 with h | h
  · simp only [h, if_true] at hi ha hr hr1
    have hp : lerp2 1 (r 1) V = (m * (1 - r 1) + r 1) • V 3 := by
      funext i; simp only [lerp2, hi, Pi.smul_apply, smul_eq_mul]; ring
    have hc : 0 < m * (1 - r 1) + r 1 := by
      rcases eq_or_lt_of_le hr1 with h1 | h1
      · rw [h1]; norm_num
      · nlinarith [mul_pos hm (sub_pos.2 h1)]
    simp only [disk, h, ha, ht, hp, show ((1 : Nat) = 0) = False by simp, show ((1 : Nat) = 2) = False by simp, if_false]
    rw [mul_smul, key _ hc, ← add_smul]
    simp
  · simp only [h, show ((2 : Nat) = 1) = False by simp, if_false] at hi ha hr hr1
    have hp : lerp2 (r 0) 1 V = (m * (1 - r 0) + r 0) • V 3 := by
      funext i; simp only [lerp2, hi, Pi.smul_apply, smul_eq_mul]; ring
    have hc : 0 < m * (1 - r 0) + r 0 := by
      rcases eq_or_lt_of_le hr1 with h1 | h1
      · rw [h1]; norm_num
      · nlinarith [mul_pos hm (sub_pos.2 h1)]
    simp only [disk, h, ha, ht, hp, show ((2 : Nat) = 0) = False by simp, if_false, if_true]
    rw [mul_smul, key _ hc, ← add_smul]
    simp

/-- **C68** (straight sides of the trees of a disk).  Two trees that share the side from the first vertex to the outside fit together if their last vertices have the same
distance to the center and the same angle to this side. -/
theorem C68_disk_straight {g g' : Nat} {V V' : Nat → Pt} (hg : g % 3 = 2) (hg' : g' % 3 = 1) (h0 : V 0 = V' 0) (h1 : V 1 = V' 2)
    (hd : dot (V 3) (V 0) = dot (V' 3) (V' 0)) (hn : dot (V 3) (V 3) = dot (V' 3) (V' 3)) (s : ℝ) : disk g V ![s, 0, 0] = disk g' V' ![0, s, 0] := by
  have hp : lerp2 s 0 V = lerp2 0 s V' := by funext i; simp only [lerp2, h0, h1]; ring
  have hr : dot (normalize (V 3)) (normalize (V 0)) = dot (normalize (V' 3)) (normalize (V' 0)) := by
    rw [dot_normalize, dot_normalize, normalize_dot, normalize_dot, hd, h0, norm, norm, norm, hn]
  simp only [disk, hg, hg', Matrix.cons_val_zero, Matrix.cons_val_one, mul_zero, Real.tan_zero, hp, hr]
  simp [h0]

/-! ### Examples -/

/-- The quad in the face `x = 2` of the cube `[-2, 2]^3`. -/
def exQuad : Nat → Pt
  | 0 => ![2, -2, -2]
  | 1 => ![2, 2, -2]
  | 2 => ![2, -2, 2]
  | 3 => ![2, 2, 2]
  | 4 => ![3, -3, -3]
  | _ => ![3, 3, 3]

theorem exQuad_face : InCubeFace exQuad .quad 0 1 2 where
  sign := Or.inl rfl
  pos := by norm_num
  face v hv := by
    simp only [if_true] at hv
    interval_cases v <;> norm_num [exQuad]
  outward := by norm_num [exQuad, vec2]

/-- The example meets the hypotheses of `C68_cube_surface` and `C68_cube_shell`. -/
example (r : Pt) : OnSphere (Real.sqrt 3 * 2) (tessellated .quad exQuad r) ∧ OnSphere (Real.sqrt 3 * ((1 - r 2) * 2 + r 2 * 3)) (shell .quad exQuad r) :=
  ⟨(C68_cube_surface exQuad_face r).2, (C68_cube_shell exQuad_face (by norm_num) (by norm_num [exQuad]) r).2⟩

/-- A wedge of the disk: inner edge from (1, 0) to (1, 1), outer edge from (2, 0) to (2, 2). -/
def exWedge : Nat → Pt
  | 0 => ![1, 0, 0]
  | 1 => ![2, 0, 0]
  | 2 => ![1, 1, 0]
  | _ => ![2, 2, 0]

/-- The example meets the hypotheses of `C68_disk_circle` and `C68_disk_tilted`. -/
example (a : ℝ) : OnSphere (norm ![2, 2, 0]) (disk 2 exWedge ![1, a, 0]) ∧ disk 2 exWedge ![1 / 2, 1, 0] = lerp2 (1 / 2) 1 exWedge :=
  ⟨C68_disk_circle 2 (V := exWedge) (by decide) (by norm_num [dot, exWedge, vec2]) (by norm_num [dot, exWedge, vec2]) (by simp),
    C68_disk_tilted 2 (V := exWedge) (by decide) (by norm_num [dot, exWedge, vec2]) (m := 1 / 2) (by norm_num)
      (by funext i; fin_cases i <;> norm_num [exWedge, vec2]) (r := ![1 / 2, 1, 0]) (by simp) (by norm_num) (by norm_num)⟩

/-- The quad in the face `y = 2` of the same cube; it shares the edge from (2, 2, -2) to (2, 2, 2) with `exQuad`. -/
def exQuad' : Nat → Pt
  | 0 => ![2, 2, -2]
  | 1 => ![-2, 2, -2]
  | 2 => ![2, 2, 2]
  | _ => ![-2, 2, 2]

theorem exQuad'_face : InCubeFace exQuad' .quad 1 1 2 where
  sign := Or.inl rfl
  pos := by norm_num
  face v hv := by
    simp only [if_true] at hv
    interval_cases v <;> norm_num [exQuad']
  outward := by norm_num [exQuad', vec2, show (1 + 1 : Fin 3) = 2 from rfl, show (1 + 2 : Fin 3) = 0 from rfl]

/-- The two quads meet the hypotheses of `C68_cube_surface_fit` along their common edge, and a vertex meets those of `C68_cube_corner`. -/
example (t : ℝ) : tessellated .quad exQuad ![1, t, 0] = tessellated .quad exQuad' ![0, t, 0] ∧ tessellated .quad exQuad ![1, 1, 0] = ![2, 2, 2] := by
  have e : linear2 .quad exQuad ![1, 1, 0] = ![2, 2, 2] := by funext i; fin_cases i <;> norm_num [linear2, lerp2, exQuad, vec2]
  refine ⟨C68_cube_surface_fit exQuad_face exQuad'_face ?_, ?_⟩
  · funext i
    fin_cases i <;> simp [linear2, lerp2, exQuad, exQuad', vec2]
  · rw [C68_cube_corner exQuad_face (by rw [e]; intro j; left; fin_cases j <;> rfl), e]

/-- The two quads meet the hypotheses of `C68_cube_surface_injective`: interior points of both do not have the same image. -/
example : tessellated .quad exQuad ![1 / 2, 1 / 2, 0] ≠ tessellated .quad exQuad' ![1 / 2, 1 / 2, 0] := by
  intro h
  have e := C68_cube_surface_injective exQuad_face exQuad'_face
    (fun j => by fin_cases j <;> norm_num [linear2, lerp2, exQuad, vec2]) (fun j => by fin_cases j <;> norm_num [linear2, lerp2, exQuad', vec2]) h
  have := congrFun e 0
  norm_num [linear2, lerp2, exQuad, exQuad'] at this

/-- The layer above `exQuad`. -/
noncomputable def exUpper : Nat → Pt := fun v => (3 / 2 : ℝ) • exQuad v

/-- The example meets the hypotheses of `C68_cube_layers`. -/
example (x y : ℝ) : shell .quad exQuad ![x, y, 1] = shell .quad exUpper ![x, y, 0] := by
  refine C68_cube_layers (k := 0) (σ := 1) (d := 2) (d' := 3) (d'' := 9 / 2) exQuad_face ?_ (by norm_num) ?_ ?_ (fun v _ => rfl) x y
  · refine ⟨Or.inl rfl, by norm_num, fun v hv => ?_, ?_⟩
    · simp only [if_true] at hv
      interval_cases v <;> norm_num [exUpper, exQuad]
    · norm_num [exUpper, exQuad, vec2]
  · norm_num [exQuad]
  · norm_num [exUpper, exQuad]

/-- A hexahedron of the ball whose outer face is at `x = 2`. -/
def exHex : Nat → Pt
  | 0 => ![1, 0, 0]
  | 1 => ![2, 0, 0]
  | 2 => ![1, 1, 0]
  | 3 => ![2, 2, 0]
  | 4 => ![1, 0, 1]
  | 5 => ![2, 0, 2]
  | 6 => ![1, 1, 1]
  | _ => ![2, 2, 2]

/-- The example meets the hypotheses of `C68_ball_sphere`. -/
example (a b : ℝ) : OnSphere (norm ![2, 2, 2]) (ball 2 exHex ![1, a, b]) :=
  C68_ball_sphere 2 (V := exHex) (by decide) (by norm_num [dot, exHex, vec2])
    (fun v hv => by simp [outerVertices] at hv; rcases hv with rfl | rfl | rfl | rfl <;> norm_num [dot, exHex, vec2]) (by simp)

/-- A triangle of the octahedron meets the hypotheses of `C68_triangulated_vertices`. -/
example : triSurface (fun v => if v = 0 then ![1, 0, 0] else if v = 1 then ![0, 1, 0] else ![0, 0, 1]) ![1, 0, 0] = ![0, 1, 0] :=
  (C68_triangulated_vertices (R := 1) (by norm_num) (fun v hv => by interval_cases v <;> norm_num [OnSphere, vec2])).2.1

end T8.Sphere
