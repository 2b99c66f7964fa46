import Verif.Model.SphereMesh
import Verif.Props.Sphere

/-!
# Proofs: the coarse meshes of disks and spheres

Each tree of the meshes meets the hypotheses of the theorems on the geometries.
-/

namespace T8.SphereMesh
open T8 T8.CadGeometry T8.Sphere

/-- The face of the cube for each rotation: the axis and the side. -/
def faceOf : Nat → Fin 3 × ℝ
  | 0 => (2, 1)
  | 1 => (1, -1)
  | 2 => (0, 1)
  | 3 => (2, -1)
  | 4 => (1, 1)
  | _ => (0, -1)

/-- The rotations, written out. -/
def turn (i : Nat) (p : Pt) : Pt :=
  match i with
  | 0 => ![p 0, p 1, p 2]
  | 1 => ![p 0, -p 2, p 1]
  | 2 => ![p 2, p 1, -p 0]
  | 3 => ![-p 0, p 1, -p 2]
  | 4 => ![p 0, p 2, -p 1]
  | _ => ![-p 2, p 1, p 0]

theorem half_pi (x : ℝ) (h : x = Real.pi / 2) : Real.cos x = 0 ∧ Real.sin x = 1 := by rw [h]; exact ⟨Real.cos_pi_div_two, Real.sin_pi_div_two⟩

theorem neg_half_pi (x : ℝ) (h : x = -(Real.pi / 2)) : Real.cos x = 0 ∧ Real.sin x = -1 := by
  rw [h, Real.cos_neg, Real.sin_neg]; exact ⟨Real.cos_pi_div_two, by rw [Real.sin_pi_div_two]⟩

theorem cubeRot_eq {i : Nat} (hi : i < 6) (p : Pt) : cubeRot i p = turn i p := by
  have a := half_pi (1 / 2 * Real.pi) (by ring)
  have b := neg_half_pi (-(1 / 2) * Real.pi) (by ring)
  interval_cases i <;> funext j <;> fin_cases j <;>
    simp [cubeRot, rotAxis, angles, mulVec, xrot, yrot, turn, vec2, a, b, -one_div, -neg_mul, neg_one_mul]

theorem sqrt3_pos : 0 < Real.sqrt 3 := Real.sqrt_pos.2 (by norm_num)

theorem face_sign {i : Nat} (hi : i < 6) : (faceOf i).2 = 1 ∨ (faceOf i).2 = -1 := by interval_cases i <;> simp [faceOf]

theorem turn_face {i : Nat} (hi : i < 6) (p : Pt) : turn i p (faceOf i).1 = (faceOf i).2 * p 2 := by
  interval_cases i <;> simp [turn, faceOf, vec2]

theorem turn_smul (i : Nat) (a : ℝ) (p : Pt) : turn i (a • p) = a • turn i p := by
  unfold turn
  split <;> funext j <;> fin_cases j <;> simp [vec2]

theorem turn_sub (i : Nat) (p q : Pt) : turn i (p - q) = turn i p - turn i q := by
  unfold turn
  split <;> funext j <;> fin_cases j <;> simp [vec2] <;> ring

/-- Rotations keep the outward side. -/
theorem turn_cross {i : Nat} (hi : i < 6) (p q : Pt) : (faceOf i).2 * cross (turn i p) (turn i q) (faceOf i).1 = cross p q 2 := by
  interval_cases i <;> simp [turn, faceOf, cross, vec2] <;> ring

/-- A tree whose vertices are turned vertices with third coordinate `d`. -/
theorem inFace_turn {i : Nat} (hi : i < 6) {V W : Nat → Pt} {c : Eclass} {d : ℝ} (hd : 0 < d)
    (hV : ∀ v < (if c = .quad then 4 else 3), V v = turn i (W v)) (hW : ∀ v < (if c = .quad then 4 else 3), W v 2 = d)
    (hc : 0 < cross (W 1 - W 0) (W 2 - W 0) 2) : InCubeFace V c (faceOf i).1 (faceOf i).2 d where
  sign := face_sign hi
  pos := hd
  face v hv := by rw [hV v hv, turn_face hi, hW v hv]
  outward := by
    rw [← cross_component]
    rw [hV 0 (by split <;> decide), hV 1 (by split <;> decide), hV 2 (by split <;> decide), ← turn_sub, ← turn_sub, turn_cross hi]
    exact hc

/-- **C69** (six faces).  The six rotations reach the six faces of the cube. -/
theorem C69_faces (k : Fin 3) (s : Bool) : ∃ i < 6, faceOf i = (k, if s then 1 else -1) ∧ ∀ i' < 6, faceOf i' = (k, if s then 1 else -1) → i' = i := by
  have ne : (1 : ℝ) ≠ -1 := by norm_num
  have ne' : (-1 : ℝ) ≠ 1 := by norm_num
  fin_cases k <;> cases s
  · exact ⟨5, by decide, by simp [faceOf], fun i hi h => by interval_cases i <;> simp [faceOf, ne] at h ⊢⟩
  · exact ⟨2, by decide, by simp [faceOf], fun i hi h => by interval_cases i <;> simp [faceOf, ne'] at h ⊢⟩
  · exact ⟨1, by decide, by simp [faceOf], fun i hi h => by interval_cases i <;> simp [faceOf, ne] at h ⊢⟩
  · exact ⟨4, by decide, by simp [faceOf], fun i hi h => by interval_cases i <;> simp [faceOf, ne'] at h ⊢⟩
  · exact ⟨3, by decide, by simp [faceOf], fun i hi h => by interval_cases i <;> simp [faceOf, ne] at h ⊢⟩
  · exact ⟨0, by decide, by simp [faceOf], fun i hi h => by interval_cases i <;> simp [faceOf, ne'] at h ⊢⟩

theorem surfaceTree_eq {i : Nat} (hi : i < 6) (R : ℝ) (v : Nat) : surfaceTree R i v = turn i (quadVertices (R / Real.sqrt 3) v) := by
  rw [surfaceTree, cubeRot_eq hi, ← turn_smul]
  congr 1
  unfold quadVertices
  split <;> funext j <;> fin_cases j <;> simp [vec2] <;> ring

theorem surfaceTree_face {i : Nat} (hi : i < 6) {R : ℝ} (hR : 0 < R) : InCubeFace (surfaceTree R i) .quad (faceOf i).1 (faceOf i).2 (R / Real.sqrt 3) := by
  have h3 := sqrt3_pos
  have hd : 0 < R / Real.sqrt 3 := by positivity
  refine inFace_turn hi hd (fun v _ => surfaceTree_eq hi R v) (fun v hv => ?_) ?_
  · simp only [if_true] at hv
    interval_cases v <;> simp [quadVertices, vec2]
  · simp [cross, quadVertices, vec2]
    positivity

/-- **C69** (`t8_cmesh_new_quadrangulated_spherical_surface`).  Every point of every tree is mapped to the sphere of the given radius, in the direction that belongs to its
position on the surface of the cube `[-1, 1]^3`. -/
theorem C69_surface {i : Nat} (hi : i < 6) {R : ℝ} (hR : 0 < R) (r : Pt) :
    tessellated .quad (surfaceTree R i) r = onSphere R (direction (turn i ![2 * r 0 - 1, 2 * r 1 - 1, 1])) ∧ OnSphere R (tessellated .quad (surfaceTree R i) r) := by
  have h3 := sqrt3_pos
  have e : Real.sqrt 3 * (R / Real.sqrt 3) = R := by field_simp
  obtain ⟨h1, h2⟩ := C68_cube_surface (surfaceTree_face hi hR) r
  rw [e] at h1 h2
  refine ⟨?_, h2⟩
  rw [h1]
  congr 2
  funext j
  have hd : R / Real.sqrt 3 ≠ 0 := by positivity
  rw [div_eq_iff hd]
  simp only [linear2, if_true, lerp2, surfaceTree_eq hi]
  interval_cases i <;> fin_cases j <;> simp [turn, quadVertices, vec2] <;> ring

theorem triTree_face {i f : Nat} (hi : i < 6) {R : ℝ} (hR : 0 < R) :
    InCubeFace (triTree R i f) .triangle (faceOf i).1 (faceOf i).2 (R / Real.sqrt 3) := by
  have h3 := sqrt3_pos
  have hd : 0 < R / Real.sqrt 3 := by positivity
  have hV : ∀ v, triTree R i f v = turn i (R • mulVec (zrot (faceAngles f)) (triVertices (1 / Real.sqrt 3) v)) := fun v => by
    rw [triTree, cubeRot_eq hi, turn_smul]
  refine inFace_turn (W := fun v => R • mulVec (zrot (faceAngles f)) (triVertices (1 / Real.sqrt 3) v)) hi hd (fun v _ => hV v) (fun v hv => ?_) ?_
  · simp at hv
    interval_cases v <;> simp [mulVec, zrot, triVertices, vec2] <;> ring
  · have hs := Real.sin_sq_add_cos_sq (faceAngles f)
    have : cross (R • mulVec (zrot (faceAngles f)) (triVertices (1 / Real.sqrt 3) 1) - R • mulVec (zrot (faceAngles f)) (triVertices (1 / Real.sqrt 3) 0))
        (R • mulVec (zrot (faceAngles f)) (triVertices (1 / Real.sqrt 3) 2) - R • mulVec (zrot (faceAngles f)) (triVertices (1 / Real.sqrt 3) 0)) 2 =
        2 * (R / Real.sqrt 3) ^ 2 * (Real.sin (faceAngles f) ^ 2 + Real.cos (faceAngles f) ^ 2) := by
      simp [cross, mulVec, zrot, triVertices, vec2, -Real.sin_sq_add_cos_sq]
      ring
    show 0 < cross _ _ 2
    rw [this, hs]
    positivity

/-- **C69** (`t8_cmesh_new_triangulated_spherical_surface_cube`).  Every point of every tree is mapped to the sphere of the given radius, and common points of the linear
geometries of two trees have the same image. -/
theorem C69_triangulated_cube {i f : Nat} (hi : i < 6) {R : ℝ} (hR : 0 < R) (r : Pt) :
    OnSphere R (tessellated .triangle (triTree R i f) r) ∧
      ∀ i' < 6, ∀ f' : Nat, ∀ r' : Pt, linear2 .triangle (triTree R i f) r = linear2 .triangle (triTree R i' f') r' →
        tessellated .triangle (triTree R i f) r = tessellated .triangle (triTree R i' f') r' := by
  have h3 := sqrt3_pos
  have e : Real.sqrt 3 * (R / Real.sqrt 3) = R := by field_simp
  have h2 := (C68_cube_surface (triTree_face (f := f) hi hR) r).2
  rw [e] at h2
  exact ⟨h2, fun i' hi' f' r' h => C68_cube_surface_fit (triTree_face hi hR) (triTree_face hi' hR) h⟩

/-! ### Shells -/

/-- The vertices of a tree of the shell before the rotation. -/
theorem shellTree_eq {irot : Nat} (hi : irot < 6) (inner th : ℝ) (n layers i j k v : Nat) :
    shellTree inner th n layers irot i j k v =
      turn irot ((((inner + tileCoords n layers i j k v 2 * th) / Real.sqrt 3) : ℝ) •
        ![2 * tileCoords n layers i j k v 0 - 1, 2 * tileCoords n layers i j k v 1 - 1, 1]) := by
  simp only [shellTree]
  generalize tileCoords n layers i j k v = t
  simp only [cubeRot_eq hi]
  funext m
  interval_cases irot <;> fin_cases m <;> simp [lerp3, turn, hexVertices, quadVertices, vec2] <;> ring

theorem layer_pos {inner th : ℝ} (h0 : 0 < inner) (ht : 0 ≤ th) (x layers : Nat) : 0 < (inner + (x : ℝ) * (1 / layers) * th) / Real.sqrt 3 := by
  have h3 := sqrt3_pos
  positivity

theorem shellTree_face {irot : Nat} (hi : irot < 6) {inner th : ℝ} (h0 : 0 < inner) (ht : 0 ≤ th) {n : Nat} (hn : 0 < n) (layers i j k : Nat) :
    InCubeFace (shellTree inner th n layers irot i j k) .quad (faceOf irot).1 (faceOf irot).2 ((inner + (k : ℝ) * (1 / layers) * th) / Real.sqrt 3) := by
  have hd := layer_pos h0 ht k layers
  have hn' : (0 : ℝ) < n := by exact_mod_cast hn
  refine inFace_turn hi hd (fun v _ => shellTree_eq hi inner th n layers i j k v) (fun v hv => ?_) ?_
  · simp only [if_true] at hv
    interval_cases v <;> simp [tileCoords, vec2]
  · have e : ∀ a b c d e f : ℝ, ∀ D : ℝ, cross (D • ![a, b, 1] - D • ![c, d, 1]) (D • ![e, f, 1] - D • ![c, d, 1]) 2 = D ^ 2 * ((a - c) * (f - d) - (b - d) * (e - c)) :=
      fun a b c d e f D => by simp [cross, vec2]; ring
    have k0 : tileCoords n layers i j k 0 = ![(i : ℝ) * (1 / n), (j : ℝ) * (1 / n), (k : ℝ) * (1 / layers)] := by simp [tileCoords]
    have k1 : tileCoords n layers i j k 1 = ![((i : ℝ) + 1) * (1 / n), (j : ℝ) * (1 / n), (k : ℝ) * (1 / layers)] := by simp [tileCoords]
    have k2 : tileCoords n layers i j k 2 = ![(i : ℝ) * (1 / n), ((j : ℝ) + 1) * (1 / n), (k : ℝ) * (1 / layers)] := by simp [tileCoords]
    simp only [k0, k1, k2, vec2, Matrix.cons_val_zero, Matrix.cons_val_one, e]
    have : (2 * (((i : ℝ) + 1) * (1 / n)) - 1 - (2 * ((i : ℝ) * (1 / n)) - 1)) * (2 * (((j : ℝ) + 1) * (1 / n)) - 1 - (2 * ((j : ℝ) * (1 / n)) - 1)) -
        (2 * ((j : ℝ) * (1 / n)) - 1 - (2 * ((j : ℝ) * (1 / n)) - 1)) * (2 * ((i : ℝ) * (1 / n)) - 1 - (2 * ((i : ℝ) * (1 / n)) - 1)) = (2 / n) ^ 2 := by ring
    rw [this]
    positivity

/-- **C69** (`t8_cmesh_new_cubed_spherical_shell`).  For any number of trees and layers, the radius of the image grows linearly from the inner radius by the thickness over all
layers, and the direction belongs to the position on the surface of the cube `[-1, 1]^3`.  In particular neighbouring trees, rotations and layers fit together. -/
theorem C69_shell {irot : Nat} (hi : irot < 6) {inner th : ℝ} (h0 : 0 < inner) (ht : 0 ≤ th) {n layers : Nat} (hn : 0 < n) (i j k : Nat) (r : Pt) :
    shell .quad (shellTree inner th n layers irot i j k) r =
        onSphere (inner + (k + r 2) / layers * th) (direction (turn irot ![2 * ((i + r 0) / n) - 1, 2 * ((j + r 1) / n) - 1, 1])) ∧
      OnSphere (inner + (k + r 2) / layers * th) (shell .quad (shellTree inner th n layers irot i j k) r) := by
  have h3 := sqrt3_pos
  have hd := layer_pos h0 ht k layers
  have hd' := layer_pos h0 ht (k + 1) layers
  have h4 : shellTree inner th n layers irot i j k (if Eclass.quad = .quad then 4 else 3) (faceOf irot).1 =
      (faceOf irot).2 * ((inner + ((k + 1 : Nat) : ℝ) * (1 / layers) * th) / Real.sqrt 3) := by
    rw [if_pos rfl, shellTree_eq hi, turn_face hi]
    simp [tileCoords, vec2]
  obtain ⟨e1, e2⟩ := C68_cube_shell (shellTree_face hi h0 ht hn layers i j k) hd' h4 r
  have eR : Real.sqrt 3 * ((1 - r 2) * ((inner + (k : ℝ) * (1 / layers) * th) / Real.sqrt 3) + r 2 * ((inner + ((k + 1 : Nat) : ℝ) * (1 / layers) * th) / Real.sqrt 3)) =
      inner + (k + r 2) / layers * th := by
    field_simp
    push_cast
    ring
  rw [eR] at e1 e2
  refine ⟨?_, e2⟩
  rw [e1]
  congr 2
  funext m
  rw [div_eq_iff hd.ne']
  simp only [linear2, if_true, lerp2, shellTree_eq hi]
  have k0 : tileCoords n layers i j k 0 = ![(i : ℝ) * (1 / n), (j : ℝ) * (1 / n), (k : ℝ) * (1 / layers)] := by simp [tileCoords]
  have k1 : tileCoords n layers i j k 1 = ![((i : ℝ) + 1) * (1 / n), (j : ℝ) * (1 / n), (k : ℝ) * (1 / layers)] := by simp [tileCoords]
  have k2 : tileCoords n layers i j k 2 = ![(i : ℝ) * (1 / n), ((j : ℝ) + 1) * (1 / n), (k : ℝ) * (1 / layers)] := by simp [tileCoords]
  have k3 : tileCoords n layers i j k 3 = ![((i : ℝ) + 1) * (1 / n), ((j : ℝ) + 1) * (1 / n), (k : ℝ) * (1 / layers)] := by simp [tileCoords]
  simp only [k0, k1, k2, k3, turn_smul, vec2, Matrix.cons_val_zero, Matrix.cons_val_one]
  generalize (inner + (k : ℝ) * (1 / layers) * th) / Real.sqrt 3 = D
  simp only [Pi.smul_apply, smul_eq_mul]
  interval_cases irot <;> fin_cases m <;> simp [turn, vec2] <;> ring

/-- **C69** (layers).  The outer side of a tree is the inner side of the tree above it. -/
theorem C69_layers {irot : Nat} (hi : irot < 6) {inner th : ℝ} (h0 : 0 < inner) (ht : 0 ≤ th) {n layers : Nat} (hn : 0 < n) (i j k : Nat) (x y : ℝ) :
    shell .quad (shellTree inner th n layers irot i j k) ![x, y, 1] = shell .quad (shellTree inner th n layers irot i j (k + 1)) ![x, y, 0] := by
  rw [(C69_shell hi h0 ht hn i j k _).1, (C69_shell hi h0 ht hn i j (k + 1) _).1]
  simp [vec2]

/-! ### Disk and ball -/

theorem zrot_dot (t : ℝ) (a b : Pt) : dot (mulVec (zrot t) a) (mulVec (zrot t) b) = dot a b := by
  have h := Real.sin_sq_add_cos_sq t
  have : dot (mulVec (zrot t) a) (mulVec (zrot t) b) = (Real.sin t ^ 2 + Real.cos t ^ 2) * (a 0 * b 0 + a 1 * b 1) + a 2 * b 2 := by
    simp [dot, mulVec, zrot, vec2, -Real.sin_sq_add_cos_sq]; ring
  rw [this, h]; simp only [dot]; ring

theorem yrot_dot (t : ℝ) (a b : Pt) : dot (mulVec (yrot t) a) (mulVec (yrot t) b) = dot a b := by
  have h := Real.sin_sq_add_cos_sq t
  have : dot (mulVec (yrot t) a) (mulVec (yrot t) b) = (Real.sin t ^ 2 + Real.cos t ^ 2) * (a 0 * b 0 + a 2 * b 2) + a 1 * b 1 := by
    simp [dot, mulVec, yrot, vec2, -Real.sin_sq_add_cos_sq]; ring
  rw [this, h]; simp only [dot]; ring

theorem dot_smul (c : ℝ) (a b : Pt) : dot (c • a) (c • b) = c ^ 2 * dot a b := by simp only [dot, Pi.smul_apply, smul_eq_mul]; ring

theorem diskTree_dot (R : ℝ) (g v w : Nat) : dot (diskTree R g v) (diskTree R g w) =
    R ^ 2 * dot (diskVertices (3 / 5 / Real.sqrt 2) (1 / Real.sqrt 2) (g % 3) v) (diskVertices (3 / 5 / Real.sqrt 2) (1 / Real.sqrt 2) (g % 3) w) := by
  simp only [diskTree]
  rw [dot_smul, zrot_dot]

/-- **C69** (`t8_cmesh_new_quadrangulated_disk`).  The outer edges of all trees are mapped to the circle of the given radius, and the edge between the two outer trees of a
quarter stays straight.  Missing: that the linear sides, which touch the trees in the center or the other tree of the quarter, have the same vertices in both trees. -/
theorem C69_disk_partial {g : Nat} (hg : g % 3 ≠ 0) {R : ℝ} (hR : 0 < R) (r : Pt) :
    (r (if g % 3 = 1 then 1 else 0) = 1 → OnSphere R (disk g (diskTree R g) r)) ∧
      (r (if g % 3 = 1 then 0 else 1) = 1 → 0 ≤ r (if g % 3 = 1 then 1 else 0) → r (if g % 3 = 1 then 1 else 0) ≤ 1 →
        disk g (diskTree R g) r = lerp2 (r 0) (r 1) (diskTree R g)) := by
  have h2 : 0 < Real.sqrt 2 := Real.sqrt_pos.2 (by norm_num)
  have hs : Real.sqrt 2 ^ 2 = 2 := Real.sq_sqrt (by norm_num)
  have h12 : g % 3 = 1 ∨ g % 3 = 2 := by omega
  have hv : dot (diskTree R g 3) (diskTree R g 0) ≠ 0 := by
    rw [diskTree_dot]
    rcases h12 with h | h <;> rw [h] <;> simp [dot, diskVertices, vec2, hR.ne', h2.ne']
  have hn : Sphere.norm (diskTree R g 3) = R := by
    rw [Sphere.norm, diskTree_dot]
    have : dot (diskVertices (3 / 5 / Real.sqrt 2) (1 / Real.sqrt 2) (g % 3) 3) (diskVertices (3 / 5 / Real.sqrt 2) (1 / Real.sqrt 2) (g % 3) 3) = 1 := by
      rcases h12 with h | h <;> rw [h] <;> simp only [dot, diskVertices, vec2, Matrix.cons_val_zero, Matrix.cons_val_one] <;> field_simp <;> rw [hs] <;> norm_num
    rw [this, mul_one, Real.sqrt_sq hR.le]
  refine ⟨fun hr => ?_, fun ha hr0 hr1 => ?_⟩
  · have := C68_disk_circle g hg hv (by
      rw [diskTree_dot, diskTree_dot]
      rcases h12 with h | h <;> rw [h] <;> simp [dot, diskVertices, vec2]) hr
    rwa [hn] at this
  · refine C68_disk_tilted g hg hv (m := 3 / 5) (by norm_num) ?_ ha hr0 hr1
    rcases h12 with h | h <;> funext m <;> fin_cases m <;> simp [diskTree, h, diskVertices, mulVec, zrot, vec2] <;> ring

theorem zturn (t : Nat) (ht : t < 4) (p : Pt) : mulVec (zrot (-(t : ℝ) * (1 / 2) * Real.pi)) p =
    if t = 0 then ![p 0, p 1, p 2] else if t = 1 then ![p 1, -p 0, p 2] else if t = 2 then ![-p 0, -p 1, p 2] else ![-p 1, p 0, p 2] := by
  have a := neg_half_pi (-(1 / 2) * Real.pi) (by ring)
  have b1 : Real.cos (-2 * (1 / 2) * Real.pi) = -1 := by rw [show (-2 * (1 / 2) * Real.pi : ℝ) = -Real.pi by ring, Real.cos_neg, Real.cos_pi]
  have b2 : Real.sin (-2 * (1 / 2) * Real.pi) = 0 := by rw [show (-2 * (1 / 2) * Real.pi : ℝ) = -Real.pi by ring, Real.sin_neg, Real.sin_pi, neg_zero]
  have c1 : Real.cos (-3 * (1 / 2) * Real.pi) = 0 := by
    rw [show (-3 * (1 / 2) * Real.pi : ℝ) = Real.pi / 2 - 2 * Real.pi by ring, Real.cos_sub_two_pi, Real.cos_pi_div_two]
  have c2 : Real.sin (-3 * (1 / 2) * Real.pi) = 1 := by
    rw [show (-3 * (1 / 2) * Real.pi : ℝ) = Real.pi / 2 - 2 * Real.pi by ring, Real.sin_sub_two_pi, Real.sin_pi_div_two]
  interval_cases t <;> simp only [Nat.cast_zero, Nat.cast_one, Nat.cast_ofNat] <;> funext j <;> fin_cases j <;>
    simp [mulVec, zrot, vec2, a, b1, b2, c1, c2, -one_div, -neg_mul, neg_one_mul]

/-- **C69** (quarters of the disk).  The second outer tree of a quarter and the first outer tree of the next quarter fit together. -/
theorem C69_disk_quarters {t : Nat} (ht : t < 4) (R : ℝ) (s : ℝ) :
    disk (3 * t + 2) (diskTree R (3 * t + 2)) ![s, 0, 0] = disk (3 * ((t + 1) % 4) + 1) (diskTree R (3 * ((t + 1) % 4) + 1)) ![0, s, 0] := by
  have e1 : ∀ t, (3 * t + 2) % 3 = 2 ∧ (3 * t + 2) / 3 = t := fun t => by omega
  have e2 : ∀ t, (3 * t + 1) % 3 = 1 ∧ (3 * t + 1) / 3 = t := fun t => by omega
  have ht' : (t + 1) % 4 < 4 := Nat.mod_lt _ (by decide)
  refine C68_disk_straight (e1 t).1 (e2 _).1 ?_ ?_ ?_ ?_ s
  · simp only [diskTree, (e1 _).1, (e1 _).2, (e2 _).1, (e2 _).2, zturn _ ht, zturn _ ht']
    interval_cases t <;> simp [diskVertices, vec2]
  · simp only [diskTree, (e1 _).1, (e1 _).2, (e2 _).1, (e2 _).2, zturn _ ht, zturn _ ht']
    interval_cases t <;> simp [diskVertices, vec2]
  · rw [diskTree_dot, diskTree_dot, (e1 _).1, (e2 _).1]
    simp [dot, diskVertices, vec2]
  · rw [diskTree_dot, diskTree_dot, (e1 _).1, (e2 _).1]
    simp [dot, diskVertices, vec2]

theorem bv10 (a b : ℝ) : ballVertices a b 1 0 = ![0, 6 / 5 * a, 0] := rfl
theorem bv11 (a b : ℝ) : ballVertices a b 1 1 = ![a, a, 0] := rfl
theorem bv12 (a b : ℝ) : ballVertices a b 1 2 = ![0, b, 0] := rfl
theorem bv13 (a b : ℝ) : ballVertices a b 1 3 = ![b, b, 0] := rfl
theorem bv14 (a b : ℝ) : ballVertices a b 1 4 = ![0, a, a] := rfl
theorem bv15 (a b : ℝ) : ballVertices a b 1 5 = ![a, a, a] := rfl
theorem bv16 (a b : ℝ) : ballVertices a b 1 6 = ![0, b, b] := rfl
theorem bv17 (a b : ℝ) : ballVertices a b 1 7 = ![b, b, b] := rfl
theorem bv20 (a b : ℝ) : ballVertices a b 2 0 = ![6 / 5 * a, 0, 0] := rfl
theorem bv21 (a b : ℝ) : ballVertices a b 2 1 = ![b, 0, 0] := rfl
theorem bv22 (a b : ℝ) : ballVertices a b 2 2 = ![a, a, 0] := rfl
theorem bv23 (a b : ℝ) : ballVertices a b 2 3 = ![b, b, 0] := rfl
theorem bv24 (a b : ℝ) : ballVertices a b 2 4 = ![a, 0, a] := rfl
theorem bv25 (a b : ℝ) : ballVertices a b 2 5 = ![b, 0, b] := rfl
theorem bv26 (a b : ℝ) : ballVertices a b 2 6 = ![a, a, a] := rfl
theorem bv27 (a b : ℝ) : ballVertices a b 2 7 = ![b, b, b] := rfl
theorem bv30 (a b : ℝ) : ballVertices a b 3 0 = ![0, 0, 6 / 5 * a] := rfl
theorem bv31 (a b : ℝ) : ballVertices a b 3 1 = ![a, 0, a] := rfl
theorem bv32 (a b : ℝ) : ballVertices a b 3 2 = ![0, a, a] := rfl
theorem bv33 (a b : ℝ) : ballVertices a b 3 3 = ![a, a, a] := rfl
theorem bv34 (a b : ℝ) : ballVertices a b 3 4 = ![0, 0, b] := rfl
theorem bv35 (a b : ℝ) : ballVertices a b 3 5 = ![b, 0, b] := rfl
theorem bv36 (a b : ℝ) : ballVertices a b 3 6 = ![0, b, b] := rfl
theorem bv37 (a b : ℝ) : ballVertices a b 3 7 = ![b, b, b] := rfl

theorem ballTree_dot (R : ℝ) (g v w : Nat) : dot (ballTree R g v) (ballTree R g w) =
    R ^ 2 * dot (ballVertices (3 / 5 / Real.sqrt 3) (1 / Real.sqrt 3) (g % 4) v) (ballVertices (3 / 5 / Real.sqrt 3) (1 / Real.sqrt 3) (g % 4) w) := by
  simp only [ballTree]
  rw [dot_smul, yrot_dot, zrot_dot]

set_option maxHeartbeats 4000000 in
/-- **C69** (`t8_cmesh_new_cubed_sphere`).  The outer faces of all trees are mapped to the sphere of the given radius.  Missing: that the linear inner
faces have the same vertices as the faces of the trees in the center. -/
theorem C69_ball_partial {g : Nat} (hg : g % 4 ≠ 0) {R : ℝ} (hR : 0 < R) {r : Pt} (hr : r (if g % 4 = 1 then 1 else if g % 4 = 2 then 0 else 2) = 1) :
    OnSphere R (ball g (ballTree R g) r) := by
  have h3 := sqrt3_pos
  have hs : Real.sqrt 3 ^ 2 = 3 := Real.sq_sqrt (by norm_num)
  have h123 : g % 4 = 1 ∨ g % 4 = 2 ∨ g % 4 = 3 := by omega
  have hv : dot (ballTree R g 7) (ballTree R g 0) ≠ 0 := by
    rw [ballTree_dot]
    rcases h123 with h | h | h <;> rw [h] <;> simp [dot, bv10, bv11, bv12, bv13, bv14, bv15, bv16, bv17, bv20, bv21, bv22, bv23, bv24, bv25, bv26, bv27, bv30, bv31, bv32, bv33, bv34, bv35, bv36, bv37, vec2, hR.ne', h3.ne']
  have hn : Sphere.norm (ballTree R g 7) = R := by
    rw [Sphere.norm, ballTree_dot]
    have : dot (ballVertices (3 / 5 / Real.sqrt 3) (1 / Real.sqrt 3) (g % 4) 7) (ballVertices (3 / 5 / Real.sqrt 3) (1 / Real.sqrt 3) (g % 4) 7) = 1 := by
      rcases h123 with h | h | h <;> rw [h] <;> simp only [dot, bv10, bv11, bv12, bv13, bv14, bv15, bv16, bv17, bv20, bv21, bv22, bv23, bv24, bv25, bv26, bv27, bv30, bv31, bv32, bv33, bv34, bv35, bv36, bv37, vec2, Matrix.cons_val_zero, Matrix.cons_val_one] <;> field_simp <;> rw [hs] <;> norm_num
    rw [this, mul_one, Real.sqrt_sq hR.le]
  have := C68_ball_sphere g hg hv (fun v hvm => by
    rw [ballTree_dot, ballTree_dot]
    rcases h123 with h | h | h <;> simp [outerVertices, h] at hvm <;> rcases hvm with rfl | rfl | rfl | rfl <;> rw [h] <;> simp [dot, bv10, bv11, bv12, bv13, bv14, bv15, bv16, bv17, bv20, bv21, bv22, bv23, bv24, bv25, bv26, bv27, bv30, bv31, bv32, bv33, bv34, bv35, bv36, bv37, vec2]) hr
  rwa [hn] at this

/-- The coordinates with corrected angles. -/
theorem ball_congr {g g' : Nat} {V V' : Nat → Pt} {r r' q q' : Pt} (hg : g % 4 ≠ 0) (hg' : g' % 4 ≠ 0)
    (hq : q = fun j => if j = rCoord g then r j else Real.tan (1 / 4 * Real.pi * r j)) (hq' : q' = fun j => if j = rCoord g' then r' j else Real.tan (1 / 4 * Real.pi * r' j))
    (hr : r (rCoord g) = r' (rCoord g')) (hp : lerp3 r V = lerp3 r' V') (hc : lerp3 q V = lerp3 q' V')
    (hpn : dot (lerp3 r V) (V 0) = dot (lerp3 r' V') (V' 0)) (h7 : dot (V 7) (V 7) = dot (V' 7) (V' 7)) (h70 : dot (V 7) (V 0) = dot (V' 7) (V' 0))
    (h0 : dot (V 0) (V 0) = dot (V' 0) (V' 0)) : ball g V r = ball g' V' r' := by
  subst hq hq'
  simp only [ball, hg, hg', if_false]
  rw [hc, hr, dot_normalize, dot_normalize, dot_normalize, dot_normalize, normalize_dot, normalize_dot, hpn, h70, Sphere.norm, Sphere.norm, Sphere.norm, Sphere.norm, h0, h7, hp]

/-- The scalar product of a point of a tree with the first vertex. -/
theorem ballTree_lerp_dot (R : ℝ) (g : Nat) (r : Pt) : dot (lerp3 r (ballTree R g)) (ballTree R g 0) =
    R ^ 2 * dot (lerp3 r (ballVertices (3 / 5 / Real.sqrt 3) (1 / Real.sqrt 3) (g % 4))) (ballVertices (3 / 5 / Real.sqrt 3) (1 / Real.sqrt 3) (g % 4) 0) := by
  have e : ∀ (V : Nat → Pt), dot (lerp3 r V) (V 0) =
      ((dot (V 0) (V 0) * (1 - r 0) + dot (V 1) (V 0) * r 0) * (1 - r 1) + (dot (V 2) (V 0) * (1 - r 0) + dot (V 3) (V 0) * r 0) * r 1) * (1 - r 2) +
        (dot (V 4) (V 0) * (1 - r 0) * (1 - r 1) + dot (V 5) (V 0) * r 0 * (1 - r 1) + dot (V 6) (V 0) * (1 - r 0) * r 1 + dot (V 7) (V 0) * r 0 * r 1) * r 2 :=
    fun V => by simp only [dot, lerp3]; ring
  rw [e, e]
  simp only [ballTree_dot]
  ring

theorem tan_one : Real.tan (1 / 4 * Real.pi * 1) = 1 := by rw [show (1 / 4 * Real.pi * 1 : ℝ) = Real.pi / 4 by ring, Real.tan_pi_div_four]

/-- The corrected coordinate. -/
noncomputable def ang (x : ℝ) : ℝ := Real.tan (1 / 4 * Real.pi * x)

theorem ang_zero : ang 0 = 0 := by simp [ang]
theorem ang_one : ang 1 = 1 := tan_one

theorem corr_1 {g : Nat} (h : g % 4 = 1) (x y z : ℝ) : (![ang x, y, ang z] : Pt) = fun j => if j = rCoord g then (![x, y, z] : Pt) j else Real.tan (1 / 4 * Real.pi * (![x, y, z] : Pt) j) := by
  funext j; fin_cases j <;> simp [rCoord, h, ang, vec2]

theorem corr_2 {g : Nat} (h : g % 4 = 2) (x y z : ℝ) : (![x, ang y, ang z] : Pt) = fun j => if j = rCoord g then (![x, y, z] : Pt) j else Real.tan (1 / 4 * Real.pi * (![x, y, z] : Pt) j) := by
  funext j; fin_cases j <;> simp [rCoord, h, ang, vec2]

theorem corr_3 {g : Nat} (h : g % 4 = 3) (x y z : ℝ) : (![ang x, ang y, z] : Pt) = fun j => if j = rCoord g then (![x, y, z] : Pt) j else Real.tan (1 / 4 * Real.pi * (![x, y, z] : Pt) j) := by
  funext j; fin_cases j <;> simp [rCoord, h, ang, vec2]

/-- The trees are rotated trees of the first octant. -/
theorem ballTree_lerp (R : ℝ) (g : Nat) (q : Pt) : lerp3 q (ballTree R g) = R • mulVec (yrot (((g / 16 : Nat) : ℝ) * Real.pi))
    (mulVec (zrot (-((g / 4 % 4 : Nat) : ℝ) * (1 / 2) * Real.pi)) (lerp3 q (ballVertices (3 / 5 / Real.sqrt 3) (1 / Real.sqrt 3) (g % 4)))) := by
  have e : ∀ (M N : Fin 3 → Pt) (W : Nat → Pt), lerp3 q (fun v => R • mulVec M (mulVec N (W v))) = R • mulVec M (mulVec N (lerp3 q W)) := fun M N W => by
    funext j; fin_cases j <;> simp [lerp3, mulVec, vec2] <;> ring
  unfold ballTree
  exact e _ _ _

/-- The two trees of the same octant agree at points where the trees of the first octant agree. -/
theorem octant_lerp {R : ℝ} {g g' : Nat} (h1 : g / 16 = g' / 16) (h2 : g / 4 = g' / 4) {r r' : Pt}
    (h : lerp3 r (ballVertices (3 / 5 / Real.sqrt 3) (1 / Real.sqrt 3) (g % 4)) = lerp3 r' (ballVertices (3 / 5 / Real.sqrt 3) (1 / Real.sqrt 3) (g' % 4))) :
    lerp3 r (ballTree R g) = lerp3 r' (ballTree R g') := by
  rw [ballTree_lerp, ballTree_lerp, h, h1, h2]

set_option maxHeartbeats 8000000 in
/-- **C69** (octants of the cubed sphere).  The three outer trees of an octant fit together along their common faces. -/
theorem C69_ball_octant (m : Nat) (R s t : ℝ) :
    ball (4 * m + 1) (ballTree R (4 * m + 1)) ![1, s, t] = ball (4 * m + 2) (ballTree R (4 * m + 2)) ![s, 1, t] ∧
      ball (4 * m + 1) (ballTree R (4 * m + 1)) ![t, s, 1] = ball (4 * m + 3) (ballTree R (4 * m + 3)) ![t, 1, s] ∧
      ball (4 * m + 2) (ballTree R (4 * m + 2)) ![s, t, 1] = ball (4 * m + 3) (ballTree R (4 * m + 3)) ![1, t, s] := by
  have m1 : (4 * m + 1) % 4 = 1 := by omega
  have m2 : (4 * m + 2) % 4 = 2 := by omega
  have m3 : (4 * m + 3) % 4 = 3 := by omega
  have c1 : rCoord (4 * m + 1) = 1 := by simp [rCoord, m1]
  have c2 : rCoord (4 * m + 2) = 0 := by simp [rCoord, m2]
  have c3 : rCoord (4 * m + 3) = 2 := by simp [rCoord, m3]
  refine ⟨ball_congr (by omega) (by omega) (corr_1 m1 _ _ _) (corr_2 m2 _ _ _) ?_ (octant_lerp (by omega) (by omega) ?_) (octant_lerp (by omega) (by omega) ?_) ?_ ?_ ?_ ?_,
    ball_congr (by omega) (by omega) (corr_1 m1 _ _ _) (corr_3 m3 _ _ _) ?_ (octant_lerp (by omega) (by omega) ?_) (octant_lerp (by omega) (by omega) ?_) ?_ ?_ ?_ ?_,
    ball_congr (by omega) (by omega) (corr_2 m2 _ _ _) (corr_3 m3 _ _ _) ?_ (octant_lerp (by omega) (by omega) ?_) (octant_lerp (by omega) (by omega) ?_) ?_ ?_ ?_ ?_⟩
  all_goals (try simp only [ballTree_lerp_dot, ballTree_dot, m1, m2, m3, c1, c2, c3, ang_one])
  all_goals (try generalize (3 / 5 / Real.sqrt 3 : ℝ) = a)
  all_goals (try generalize (1 / Real.sqrt 3 : ℝ) = b)
  all_goals first
    | (simp [vec2]; done)
    | (simp only [dot, lerp3, bv10, bv11, bv12, bv13, bv14, bv15, bv16, bv17, bv20, bv21, bv22, bv23, bv24, bv25, bv26, bv27, bv30, bv31, bv32, bv33, bv34, bv35, bv36, bv37, vec2, Matrix.cons_val_zero, Matrix.cons_val_one]; ring; done)
    | (simp only [dot, lerp3, bv10, bv11, bv12, bv13, bv14, bv15, bv16, bv17, bv20, bv21, bv22, bv23, bv24, bv25, bv26, bv27, bv30, bv31, bv32, bv33, bv34, bv35, bv36, bv37, vec2, Matrix.cons_val_zero, Matrix.cons_val_one]; done)
    | (funext j; fin_cases j <;> simp [lerp3, bv10, bv11, bv12, bv13, bv14, bv15, bv16, bv17, bv20, bv21, bv22, bv23, bv24, bv25, bv26, bv27, bv30, bv31, bv32, bv33, bv34, bv35, bv36, bv37, vec2] <;> ring)

/-- Two quarter turns that follow each other. -/
theorem zturn_step {t : Nat} (ht : t < 4) {P P' : Pt} (h0 : P 0 = P' 1) (h1 : P 1 = -P' 0) (h2 : P 2 = P' 2) :
    mulVec (zrot (-(t : ℝ) * (1 / 2) * Real.pi)) P = mulVec (zrot (-(((t + 1) % 4 : Nat) : ℝ) * (1 / 2) * Real.pi)) P' := by
  rw [zturn _ ht, zturn _ (Nat.mod_lt _ (by decide)), h0, h1, h2]
  interval_cases t <;> simp

/-- The quarter turns of the upper and the lower half that belong together. -/
theorem yturn_step {t : Nat} (ht : t < 4) {P P' : Pt} (h0 : P 0 = P' 1) (h1 : P 1 = P' 0) (h2 : P 2 = 0) (h2' : P' 2 = 0) :
    mulVec (yrot (((0 : Nat) : ℝ) * Real.pi)) (mulVec (zrot (-(t : ℝ) * (1 / 2) * Real.pi)) P) =
      mulVec (yrot (((1 : Nat) : ℝ) * Real.pi)) (mulVec (zrot (-((3 - t : Nat) : ℝ) * (1 / 2) * Real.pi)) P') := by
  rw [zturn _ ht, zturn (3 - t) (by omega), h0, h1, h2, h2']
  interval_cases t <;> funext j <;> fin_cases j <;> simp [mulVec, yrot, vec2]

set_option maxHeartbeats 8000000 in
/-- **C69** (quarters of the cubed sphere).  The outer trees of neighbouring octants of the same half fit together along their common faces. -/
theorem C69_ball_quarters {y t : Nat} (ht : t < 4) (R s u : ℝ) :
    ball (16 * y + 4 * t + 2) (ballTree R (16 * y + 4 * t + 2)) ![s, 0, u] =
        ball (16 * y + 4 * ((t + 1) % 4) + 1) (ballTree R (16 * y + 4 * ((t + 1) % 4) + 1)) ![0, s, u] ∧
      ball (16 * y + 4 * t + 3) (ballTree R (16 * y + 4 * t + 3)) ![u, 0, s] =
        ball (16 * y + 4 * ((t + 1) % 4) + 3) (ballTree R (16 * y + 4 * ((t + 1) % 4) + 3)) ![0, u, s] := by
  have key : ∀ {a b : Nat} {q q' : Pt}, a < 4 → b < 4 →
      lerp3 q (ballVertices (3 / 5 / Real.sqrt 3) (1 / Real.sqrt 3) a) 0 = lerp3 q' (ballVertices (3 / 5 / Real.sqrt 3) (1 / Real.sqrt 3) b) 1 →
      lerp3 q (ballVertices (3 / 5 / Real.sqrt 3) (1 / Real.sqrt 3) a) 1 = -lerp3 q' (ballVertices (3 / 5 / Real.sqrt 3) (1 / Real.sqrt 3) b) 0 →
      lerp3 q (ballVertices (3 / 5 / Real.sqrt 3) (1 / Real.sqrt 3) a) 2 = lerp3 q' (ballVertices (3 / 5 / Real.sqrt 3) (1 / Real.sqrt 3) b) 2 →
      lerp3 q (ballTree R (16 * y + 4 * t + a)) = lerp3 q' (ballTree R (16 * y + 4 * ((t + 1) % 4) + b)) := fun {a b q q'} ha hb h0 h1 h2 => by
    have hm : (t + 1) % 4 < 4 := Nat.mod_lt _ (by decide)
    rw [ballTree_lerp, ballTree_lerp, show (16 * y + 4 * t + a) / 16 = y by omega, show (16 * y + 4 * ((t + 1) % 4) + b) / 16 = y by omega,
      show (16 * y + 4 * t + a) / 4 % 4 = t by omega, show (16 * y + 4 * ((t + 1) % 4) + b) / 4 % 4 = (t + 1) % 4 by omega,
      show (16 * y + 4 * t + a) % 4 = a by omega, show (16 * y + 4 * ((t + 1) % 4) + b) % 4 = b by omega, zturn_step ht h0 h1 h2]
  have m2 : (16 * y + 4 * t + 2) % 4 = 2 := by omega
  have m3 : (16 * y + 4 * t + 3) % 4 = 3 := by omega
  have n1 : (16 * y + 4 * ((t + 1) % 4) + 1) % 4 = 1 := by omega
  have n3 : (16 * y + 4 * ((t + 1) % 4) + 3) % 4 = 3 := by omega
  have c2 : rCoord (16 * y + 4 * t + 2) = 0 := by simp [rCoord, m2]
  have c3 : rCoord (16 * y + 4 * t + 3) = 2 := by simp [rCoord, m3]
  have d1 : rCoord (16 * y + 4 * ((t + 1) % 4) + 1) = 1 := by simp [rCoord, n1]
  have d3 : rCoord (16 * y + 4 * ((t + 1) % 4) + 3) = 2 := by simp [rCoord, n3]
  refine ⟨ball_congr (by omega) (by omega) (corr_2 m2 _ _ _) (corr_1 n1 _ _ _) ?_ (key (by decide) (by decide) ?_ ?_ ?_) (key (by decide) (by decide) ?_ ?_ ?_) ?_ ?_ ?_ ?_,
    ball_congr (by omega) (by omega) (corr_3 m3 _ _ _) (corr_3 n3 _ _ _) ?_ (key (by decide) (by decide) ?_ ?_ ?_) (key (by decide) (by decide) ?_ ?_ ?_) ?_ ?_ ?_ ?_⟩
  all_goals (try simp only [ballTree_lerp_dot, ballTree_dot, m2, m3, n1, n3, c2, c3, d1, d3, ang_zero])
  all_goals (try generalize (3 / 5 / Real.sqrt 3 : ℝ) = a)
  all_goals (try generalize (1 / Real.sqrt 3 : ℝ) = b)
  all_goals first
    | (simp [vec2]; done)
    | (simp only [dot, lerp3, bv10, bv11, bv12, bv13, bv14, bv15, bv16, bv17, bv20, bv21, bv22, bv23, bv24, bv25, bv26, bv27, bv30, bv31, bv32, bv33, bv34, bv35, bv36, bv37, vec2, Matrix.cons_val_zero, Matrix.cons_val_one]; ring; done)
    | (simp only [dot, lerp3, bv10, bv11, bv12, bv13, bv14, bv15, bv16, bv17, bv20, bv21, bv22, bv23, bv24, bv25, bv26, bv27, bv30, bv31, bv32, bv33, bv34, bv35, bv36, bv37, vec2, Matrix.cons_val_zero, Matrix.cons_val_one]; done)
    | (funext j; fin_cases j <;> simp [lerp3, bv10, bv11, bv12, bv13, bv14, bv15, bv16, bv17, bv20, bv21, bv22, bv23, bv24, bv25, bv26, bv27, bv30, bv31, bv32, bv33, bv34, bv35, bv36, bv37, vec2] <;> ring)

set_option maxHeartbeats 8000000 in
/-- **C69** (halves of the cubed sphere).  The outer trees of the upper and the lower half fit together along their common faces. -/
theorem C69_ball_halves {t : Nat} (ht : t < 4) (R s u : ℝ) :
    ball (4 * t + 1) (ballTree R (4 * t + 1)) ![u, s, 0] = ball (16 + 4 * (3 - t) + 2) (ballTree R (16 + 4 * (3 - t) + 2)) ![s, u, 0] ∧
      ball (4 * t + 2) (ballTree R (4 * t + 2)) ![s, u, 0] = ball (16 + 4 * (3 - t) + 1) (ballTree R (16 + 4 * (3 - t) + 1)) ![u, s, 0] := by
  have key : ∀ {a b : Nat} {q q' : Pt}, a < 4 → b < 4 →
      lerp3 q (ballVertices (3 / 5 / Real.sqrt 3) (1 / Real.sqrt 3) a) 0 = lerp3 q' (ballVertices (3 / 5 / Real.sqrt 3) (1 / Real.sqrt 3) b) 1 →
      lerp3 q (ballVertices (3 / 5 / Real.sqrt 3) (1 / Real.sqrt 3) a) 1 = lerp3 q' (ballVertices (3 / 5 / Real.sqrt 3) (1 / Real.sqrt 3) b) 0 →
      lerp3 q (ballVertices (3 / 5 / Real.sqrt 3) (1 / Real.sqrt 3) a) 2 = 0 → lerp3 q' (ballVertices (3 / 5 / Real.sqrt 3) (1 / Real.sqrt 3) b) 2 = 0 →
      lerp3 q (ballTree R (4 * t + a)) = lerp3 q' (ballTree R (16 + 4 * (3 - t) + b)) := fun {a b q q'} ha hb h0 h1 h2 h2' => by
    rw [ballTree_lerp, ballTree_lerp, show (4 * t + a) / 16 = 0 by omega, show (16 + 4 * (3 - t) + b) / 16 = 1 by omega,
      show (4 * t + a) / 4 % 4 = t by omega, show (16 + 4 * (3 - t) + b) / 4 % 4 = 3 - t by omega,
      show (4 * t + a) % 4 = a by omega, show (16 + 4 * (3 - t) + b) % 4 = b by omega, yturn_step ht h0 h1 h2 h2']
  have m1 : (4 * t + 1) % 4 = 1 := by omega
  have m2 : (4 * t + 2) % 4 = 2 := by omega
  have n1 : (16 + 4 * (3 - t) + 1) % 4 = 1 := by omega
  have n2 : (16 + 4 * (3 - t) + 2) % 4 = 2 := by omega
  have c1 : rCoord (4 * t + 1) = 1 := by simp [rCoord, m1]
  have c2 : rCoord (4 * t + 2) = 0 := by simp [rCoord, m2]
  have d1 : rCoord (16 + 4 * (3 - t) + 1) = 1 := by simp [rCoord, n1]
  have d2 : rCoord (16 + 4 * (3 - t) + 2) = 0 := by simp [rCoord, n2]
  refine ⟨ball_congr (by omega) (by omega) (corr_1 m1 _ _ _) (corr_2 n2 _ _ _) ?_ (key (by decide) (by decide) ?_ ?_ ?_ ?_) (key (by decide) (by decide) ?_ ?_ ?_ ?_) ?_ ?_ ?_ ?_,
    ball_congr (by omega) (by omega) (corr_2 m2 _ _ _) (corr_1 n1 _ _ _) ?_ (key (by decide) (by decide) ?_ ?_ ?_ ?_) (key (by decide) (by decide) ?_ ?_ ?_ ?_) ?_ ?_ ?_ ?_⟩
  all_goals (try simp only [ballTree_lerp_dot, ballTree_dot, m1, m2, n1, n2, c1, c2, d1, d2, ang_zero])
  all_goals (try generalize (3 / 5 / Real.sqrt 3 : ℝ) = a)
  all_goals (try generalize (1 / Real.sqrt 3 : ℝ) = b)
  all_goals first
    | (simp [vec2]; done)
    | (simp only [dot, lerp3, bv10, bv11, bv12, bv13, bv14, bv15, bv16, bv17, bv20, bv21, bv22, bv23, bv24, bv25, bv26, bv27, bv30, bv31, bv32, bv33, bv34, bv35, bv36, bv37, vec2, Matrix.cons_val_zero, Matrix.cons_val_one]; ring; done)
    | (simp only [dot, lerp3, bv10, bv11, bv12, bv13, bv14, bv15, bv16, bv17, bv20, bv21, bv22, bv23, bv24, bv25, bv26, bv27, bv30, bv31, bv32, bv33, bv34, bv35, bv36, bv37, vec2, Matrix.cons_val_zero, Matrix.cons_val_one]; done)
    | (funext j; fin_cases j <;> simp [lerp3, bv10, bv11, bv12, bv13, bv14, bv15, bv16, bv17, bv20, bv21, bv22, bv23, bv24, bv25, bv26, bv27, bv30, bv31, bv32, bv33, bv34, bv35, bv36, bv37, vec2] <;> ring)

/-! ### Examples -/

/-- Tree 3 of the surface of radius 2: the middle of the tree is mapped to the point (0, 0, -2). -/
example : tessellated .quad (surfaceTree 2 3) ![1 / 2, 1 / 2, 0] = ![0, 0, -2] := by
  rw [(C69_surface (by decide) (by norm_num) _).1]
  funext j
  fin_cases j <;> norm_num [onSphere, direction, turn, vec2, Real.tan_zero, Real.tan_neg]

/-- A shell from radius 1 to radius 3 with two layers of 3 x 3 trees per face: the upper layer starts at radius 2. -/
example (x y : ℝ) : OnSphere 2 (shell .quad (shellTree 1 2 3 2 4 0 2 1) ![x, y, 0]) := by
  have h := (C69_shell (irot := 4) (inner := 1) (th := 2) (n := 3) (layers := 2) (by decide) (by norm_num) (by norm_num) (by decide) 0 2 1 ![x, y, 0]).2
  norm_num [vec2] at h
  exact h

/-- The outer edge of tree 5 of the disk and the outer face of tree 23 of the cubed sphere. -/
example (a b : ℝ) : OnSphere 3 (disk 5 (diskTree 3 5) ![1, a, 0]) ∧ OnSphere 3 (ball 23 (ballTree 3 23) ![a, b, 1]) :=
  ⟨(C69_disk_partial (g := 5) (by decide) (by norm_num) _).1 (by simp), C69_ball_partial (g := 23) (by decide) (by norm_num) (by simp [vec2])⟩

end T8.SphereMesh
