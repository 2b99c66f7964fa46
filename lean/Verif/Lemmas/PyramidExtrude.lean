/-
Boundary elements of the refinement of a pyramid and their extrusion (C11).

A triangle at a face of the root comes from a pyramid exactly if all its ancestors have type 0. The code tests this with
bits: the type is 0, and every bit of `y` is a bit of `x`.
-/
import Verif.Lemmas.PyramidBoundary
import Verif.Lemmas.SimplexExtrude
import Verif.Lemmas.StandaloneFaces

namespace T8.Pyramid
open T8.RTree T8.Bits
open T8.Simplex (look Cls)

/-! ### Bits -/

theorem mul_and (k a b : Nat) : 2 ^ k * a &&& 2 ^ k * b = 2 ^ k * (a &&& b) := by
  apply Nat.eq_of_testBit_eq
  intro i
  simp only [Nat.testBit_and, Nat.testBit_two_pow_mul]
  by_cases h : k ≤ i <;> simp [h]

theorem sub_iff (z w : Nat) : z = w &&& z ↔ ∀ i, z.testBit i = true → w.testBit i = true := by
  constructor
  · intro h i hi
    rw [h, Nat.testBit_and] at hi
    exact (Bool.and_eq_true_iff.1 hi).1
  · intro h
    apply Nat.eq_of_testBit_eq
    intro i
    rw [Nat.testBit_and]
    by_cases hz : z.testBit i = true
    · rw [hz, h i hz]; rfl
    · rw [Bool.not_eq_true] at hz
      rw [hz, Bool.and_false]

theorem testBit_step {n z : Nat} (hz : 2 ^ (n + 1) ∣ z) (β : Bool) (i : Nat) :
    (z + if β then 2 ^ n else 0).testBit i = (z.testBit i || (β && decide (i = n))) := by
  obtain ⟨q, rfl⟩ := hz
  have h : 2 ^ (n + 1) * q + (if β then 2 ^ n else 0) = 2 ^ n * (2 * q + if β then 1 else 0) := by
    rw [Nat.pow_succ]; cases β <;> simp <;> ring
  rw [h, Nat.testBit_two_pow_mul, Nat.testBit_two_pow_mul]
  rcases Nat.lt_trichotomy i n with h1 | rfl | h1
  · have : ¬ n ≤ i := by omega
    have h2 : ¬ n + 1 ≤ i := by omega
    have h3 : i ≠ n := by omega
    simp [this, h2, h3]
  · simp only [le_refl, decide_true, Bool.true_and, Nat.sub_self, Nat.testBit_zero]
    have h2 : ¬ i + 1 ≤ i := by omega
    cases β <;> simp [h2] <;> omega
  · have h2 : n ≤ i := by omega
    have h3 : n + 1 ≤ i := by omega
    have h4 : i ≠ n := by omega
    obtain ⟨m, rfl⟩ : ∃ m, i = n + 1 + m := ⟨i - (n + 1), by omega⟩
    have h5 : n + 1 + m - n = m + 1 := by omega
    have h6 : n + 1 + m - (n + 1) = m := by omega
    rw [h5, h6, Nat.testBit_succ]
    have h7 : (2 * q + if β then 1 else 0) / 2 = q := by cases β <;> simp <;> omega
    rw [h7]
    simp [h2, h3, h4]

/-- One more bit. -/
theorem sub_step {n z w : Nat} (hz : 2 ^ (n + 1) ∣ z) (hw : 2 ^ (n + 1) ∣ w) (β γ : Bool) :
    (z + (if β then 2 ^ n else 0)) = ((w + if γ then 2 ^ n else 0) &&& (z + if β then 2 ^ n else 0)) ↔
      z = (w &&& z) ∧ (β = true → γ = true) := by
  rw [sub_iff, sub_iff]
  simp only [testBit_step hz, testBit_step hw, Bool.or_eq_true, Bool.and_eq_true, decide_eq_true_eq]
  have hn : ∀ {x : Nat}, 2 ^ (n + 1) ∣ x → x.testBit n = false := by
    rintro x ⟨q, rfl⟩
    rw [Nat.testBit_two_pow_mul]; simp
  constructor
  · intro h
    refine ⟨fun i hi => ?_, fun hβ => ?_⟩
    · rcases h i (Or.inl hi) with h1 | ⟨_, rfl⟩
      · exact h1
      · rw [hn hz] at hi; simp at hi
    · rcases h n (Or.inr ⟨hβ, rfl⟩) with h1 | h1
      · rw [hn hw] at h1; simp at h1
      · exact h1.1
  · rintro ⟨h1, h2⟩ i (h3 | ⟨h3, rfl⟩)
    · exact Or.inl (h1 i h3)
    · exact Or.inr ⟨h2 h3, rfl⟩

/-! ### Triangles at faces of the root -/

/-- The coordinate that becomes the first coordinate of the triangle. -/
def axis (g : Nat) : Fin 3 := if g = 0 ∨ g = 1 then 1 else 0

/-- The type of the triangle. -/
def triType (b : Nat) : Nat := if b = 0 ∨ b = 3 then 1 else 0

/-- The triangle at the face `g` of the root. -/
def btri (e : Elem) (g : Nat) : Simplex.Elem 2 :=
  ⟨fun i => if i.val = 0 then e.tet.x (axis g) * triRatio else e.tet.x 2 * triRatio, e.level, triType e.type⟩

/-- Types and faces at the triangular faces of the root. -/
def admissible (b k : Nat) : Bool :=
  (b == 0 && (k == 0 || k == 1)) || (b == 1 && (k == 0 || k == 2)) || (b == 2 && (k == 0 || k == 2)) ||
    (b == 3 && (k == 0 || k == 1)) || (b == 6 && decide (k < 4))

theorem admissible_of {e : Elem} (he : Valid e) {f : Nat} (hf : f < nf e.type) (h : AtRoot e f) (hg : rootFaceOf e.type f < 4) :
    admissible e.type f = true := by
  have hz := tet_z_pos he
  rw [AtRoot, tb] at h
  have hb := type_lt he.good
  generalize 2 ^ (21 - e.level) = H at *
  generalize (e.tet.x 0).toNat = X at *
  generalize (e.tet.x 1).toNat = Y at *
  generalize (e.tet.x 2).toNat = Z at *
  generalize e.type = b at *
  clear he
  have hf5 : f < 5 := lt_of_lt_of_le hf (by rw [nf]; split <;> omega)
  interval_cases b <;> interval_cases f <;> first | exact absurd hf (by decide) | skip
  all_goals simp [faceSlot, rootFaceOf, admissible] at hz h hg ⊢
  all_goals omega

theorem boundaryFace_tri {e : Elem} {f : Nat} (h : admissible e.type f = true) :
    boundaryFace e f = .tri (btri e (rootFaceOf e.type f)) := by
  obtain ⟨⟨x, l, b⟩, s⟩ := e
  replace h : admissible b f = true := h
  have hb : b < 8 := by
    by_contra hc
    simp only [admissible, Bool.or_eq_true, Bool.and_eq_true, beq_iff_eq, decide_eq_true_eq] at h
    omega
  have hf5 : f < 4 := by
    by_contra hc
    simp only [admissible, Bool.or_eq_true, Bool.and_eq_true, beq_iff_eq, decide_eq_true_eq] at h
    omega
  interval_cases b <;> interval_cases f <;> first | exact absurd h (by decide) | skip
  all_goals
    simp [boundaryFace, isPyra, Elem.type, btri, rootFaceOf, axis, triType, Elem.level]

theorem ratio_toNat {x : BitVec 32} (hx : x.toNat < 2 ^ 21) : (x * triRatio).toNat = 2 ^ 8 * x.toNat :=
  Simplex.mul_ratio (k := 8) (by omega) (by omega)

/-- Coordinates of children. -/
theorem child_toNat {e : Elem} (he : Good e) (hl : e.level < 21) {i : Nat} (hi : i < numChildren e) (k : Fin 3) :
    ((child e i).tet.x k).toNat = (e.tet.x k).toNat +
      if (look parenttypeIlocToCid e.type i).testBit k.val then 2 ^ (21 - (e.level + 1)) else 0 := by
  have h1 := (child_cube he hl hi).1
  show ((child e i).cube.coords k).toNat = _
  rw [h1]
  exact Standalone.child_toNat (fun _ => by omega) he.cube hl _ k

/-- The children at a face of the root and the children of the triangle. -/
def Match (b g i j : Nat) : Prop :=
  Simplex.typeOf .tri (triType b) j = triType (ctype b i) ∧
  (Simplex.cidOf .tri (triType b) j).testBit 0 = (look parenttypeIlocToCid b i).testBit (axis g).val ∧
  (Simplex.cidOf .tri (triType b) j).testBit 1 = (look parenttypeIlocToCid b i).testBit 2

instance (b g i j : Nat) : Decidable (Match b g i j) := by unfold Match; infer_instance

set_option synthInstance.maxHeartbeats 200000 in
set_option synthInstance.maxSize 2000 in
theorem match_table : ∀ b < 8, ∀ k < nf b, admissible b k = true → triType b < 2 ∧ rootFaceOf b k < 4 ∧
    (∀ i < nch b, ∀ f < nf (ctype b i), AtFace b i f k → ∃ j < 4, Match b (rootFaceOf b k) i j) ∧
    (∀ j < 4, ∃ i < nch b, ∃ f < nf (ctype b i), AtFace b i f k ∧ Match b (rootFaceOf b k) i j) := by decide +kernel

/-- The bits of the children of pyramids and tetrahedra. -/
def BitsOK (b i g : Nat) : Prop :=
  (6 ≤ b → (6 ≤ ctype b i → (look parenttypeIlocToCid b i).testBit 2 = true →
      (look parenttypeIlocToCid b i).testBit (axis g).val = true) ∧
    (¬ 6 ≤ ctype b i → triType (ctype b i) = 1)) ∧
  (¬ 6 ≤ b → ¬ 6 ≤ ctype b i ∧ (triType b = 1 → triType (ctype b i) = 1 ∨
    ((look parenttypeIlocToCid b i).testBit 2 = true ∧ (look parenttypeIlocToCid b i).testBit (axis g).val = false)))

instance (b i g : Nat) : Decidable (BitsOK b i g) := by unfold BitsOK; infer_instance

set_option synthInstance.maxHeartbeats 200000 in
set_option synthInstance.maxSize 2000 in
theorem bits_table : ∀ b < 8, ∀ k < nf b, admissible b k = true → ∀ i < nch b, ∀ f < nf (ctype b i), AtFace b i f k →
    BitsOK b i (rootFaceOf b k) := by decide +kernel

theorem btri_child {e : Elem} (he : Valid e) (hl : e.level < 21) {i : Nat} (hi : i < numChildren e) {g j : Nat}
    (hv : Simplex.Valid .tri (btri e g)) (hj : j < 4) (hm : Match e.type g i j) :
    btri (child e i) g = Simplex.child .tri (btri e g) j := by
  obtain ⟨m1, m2, m3⟩ := hm
  obtain ⟨_, c2, _⟩ := child_cube he.good hl hi
  have hx := x_add_le he.good
  have hp := Nat.two_pow_pos (21 - e.level)
  have hd := half hl
  have hsz : 2 ^ (29 - (e.level + 1)) = 2 ^ 8 * 2 ^ (21 - (e.level + 1)) := by
    rw [← Nat.pow_add]; congr 1; omega
  have hlt : (btri e g).level < Cls.tri.maxLevel := by show e.level < 29; omega
  have hcc := Simplex.child_cube (c := .tri) hv.aligned hlt (I := j) hj
  refine Simplex.Elem.ext' (Standalone.Elem.ext' (fun t => ?_) ?_) ?_
  · apply BitVec.eq_of_toNat_eq
    rw [hcc, Standalone.child_toNat (by decide) hv.aligned.1 hlt]
    show ((btri (child e i) g).x t).toNat = ((btri e g).x t).toNat + if (Simplex.cidOf .tri (triType e.type) j).testBit t.val then
      2 ^ (29 - (e.level + 1)) else 0
    have hck := child_toNat he.good hl hi
    have hb : ∀ k, ((child e i).tet.x k).toNat < 2 ^ 21 := fun k => by
      rw [hck k]; have := hx k; split <;> omega
    have hb' : ∀ k, (e.tet.x k).toNat < 2 ^ 21 := fun k => by have := hx k; omega
    have : t = 0 ∨ t = 1 := by omega
    rcases this with rfl | rfl
    · show ((child e i).tet.x (axis g) * triRatio).toNat = (e.tet.x (axis g) * triRatio).toNat + if (Simplex.cidOf .tri (triType e.type) j).testBit 0 then
        2 ^ (29 - (e.level + 1)) else 0
      rw [ratio_toNat (hb _), ratio_toNat (hb' _), hck, m2, hsz]
      split <;> omega
    · show ((child e i).tet.x 2 * triRatio).toNat = (e.tet.x 2 * triRatio).toNat + if (Simplex.cidOf .tri (triType e.type) j).testBit 1 then
        2 ^ (29 - (e.level + 1)) else 0
      rw [ratio_toNat (hb _), ratio_toNat (hb' _), hck, m3, hsz]
      show 2 ^ 8 * (_ + if (look parenttypeIlocToCid e.type i).testBit 2 then _ else 0) = _
      split <;> omega
  · show (child e i).level = e.level + 1
    exact child_level e i
  · show triType (child e i).type = Simplex.typeOf .tri (triType e.type) j
    rw [c2]; exact m1.symm

/-- Every bit of `z` is a bit of the other coordinate in the face. -/
def Sub (e : Elem) (g : Nat) : Prop := (e.tet.x 2).toNat = ((e.tet.x (axis g)).toNat &&& (e.tet.x 2).toNat)

theorem at_root_cases {e : Elem} (he : Valid e) {f G : Nat} (hf : f < nf e.type) (hG : G < 4) (h : Face e f ⊆ Face root G) :
    AtRoot e f ∧ G = rootFaceOf e.type f ∧ admissible e.type f = true := by
  obtain ⟨h1, h2⟩ := (root_face_iff he hf (by omega)).1 h
  exact ⟨h1, h2, admissible_of he hf h1 (by omega)⟩

theorem tri_of_root {e : Elem} (he : Valid e) {f G : Nat} (hf : f < nf e.type) (hG : G < 4) (h : Face e f ⊆ Face root G) :
    Simplex.Valid .tri (btri e G) ∧ (6 ≤ e.type → Sub e G) ∧ (¬ 6 ≤ e.type → triType e.type = 1 ∨ ¬ Sub e G) := by
  induction hn : e.level generalizing e f with
  | zero =>
    have : e = root := tree.root_unique e he hn
    subst this
    refine ⟨?_, fun _ => by rw [Sub]; show ((0 : BitVec 32)).toNat = ((0 : BitVec 32)).toNat &&& ((0 : BitVec 32)).toNat; rfl, fun h => absurd (by decide) h⟩
    have : btri root G = Simplex.root .tri := by
      refine Simplex.Elem.ext' (Standalone.Elem.ext' (fun t => ?_) rfl) rfl
      show (if t.val = 0 then (0 : BitVec 32) * triRatio else 0 * triRatio) = 0
      simp
    rw [this]; exact Simplex.valid_root
  | succ n ih =>
    obtain ⟨p, i, p1, p2, p3, rfl⟩ := valid_cases he (by omega)
    have hd : tree.Desc p (child p i) := RTree.Desc.step RTree.Desc.refl p2 p3
    obtain ⟨k, k1, k2⟩ := between Valid.root (desc_root (T := tree) p1) hd (g := f) (f := G)
      ⟨hf, by show G < nf root.type; exact Nat.lt_succ_of_lt hG, h⟩
    have hk : k < nf p.type := k1.1
    obtain ⟨a1, a2, a3⟩ := at_root_cases p1 hk hG k1.2.2
    obtain ⟨i1, i2, i3⟩ := ih p1 hk k1.2.2 (by rw [child_level] at hn; omega)
    obtain ⟨b1, _, b3⟩ := (inFace_child p1 p2 p3).1 k2
    have hi : i < nch p.type := by rw [← nch_eq]; exact p3
    obtain ⟨_, _, t3, _⟩ := match_table _ (type_lt p1.good) k hk a3
    have hbits := bits_table _ (type_lt p1.good) k hk a3 i hi f b1 b3
    rw [← a2] at t3 hbits
    obtain ⟨j, j1, j2⟩ := t3 i hi f b1 b3
    have hc := btri_child p1 p2 p3 i1 j1 j2
    have hty := (child_cube p1.good p2 p3).2.1
    have hsub : Sub (child p i) G ↔ Sub p G ∧ ((look parenttypeIlocToCid p.type i).testBit 2 = true →
        (look parenttypeIlocToCid p.type i).testBit (axis G).val = true) := by
      have hpw : 2 ^ (21 - p.level) = 2 ^ (21 - (p.level + 1) + 1) := by congr 1; omega
      rw [Sub, child_toNat p1.good p2 p3, child_toNat p1.good p2 p3]
      exact sub_step (n := 21 - (p.level + 1)) (by rw [← hpw]; exact (p1.good.cube.2 2).2)
        (by rw [← hpw]; exact (p1.good.cube.2 (axis G)).2) _ _
    refine ⟨?_, fun h6 => ?_, fun h6 => ?_⟩
    · rw [hc]
      exact Simplex.valid_child i1 (by show p.level < 29; omega) j1
    · rw [hty] at h6
      have hp6 : 6 ≤ p.type := by
        by_contra hc
        exact (hbits.2 hc).1 h6
      rw [hsub]
      exact ⟨i2 hp6, (hbits.1 hp6).1 h6⟩
    · rw [hty] at h6 ⊢
      by_cases hp6 : 6 ≤ p.type
      · exact Or.inl ((hbits.1 hp6).2 h6)
      · rcases i3 hp6 with h1 | h1
        · rcases (hbits.2 hp6).2 h1 with h2 | ⟨h2, h3⟩
          · exact Or.inl h2
          · right
            rw [hsub]
            rintro ⟨_, h4⟩
            rw [h4 h2] at h3
            exact absurd h3 (by decide)
        · right
          rw [hsub]
          exact fun h2 => h1 h2.1

/-- The points of the triangle. -/
theorem btri_points {e : Elem} (he : Valid e) {f G : Nat} (hf : f < nf e.type) (hG : G < 4) (h : Face e f ⊆ Face root G)
    (p : Fin 3 → Nat) (hp : p ∈ Face root G) : p ∈ Face e f ↔ faceMapTri G p ∈ Simplex.Points .tri (btri e G) := by
  obtain ⟨a1, a2, a3⟩ := at_root_cases he hf hG h
  have hl : e.level ≤ 21 := he.good.cube.1
  have hx : ∀ k, (e.tet.x k).toNat < 2 ^ 21 := fun k => (he.good.cube.2 k).1
  have hr := (face_iff root (by decide) (show G < nf root.type from Nat.lt_succ_of_lt hG) p).1 hp
  have hr2 : (plane 6 G).form (rel root.tet.x p) = (plane 6 G).o * 2 ^ 21 := hr.2
  have hrel : rel root.tet.x p = fun i => (p i : Int) := by
    funext i; show (p i : Int) - (((0 : BitVec 32)).toNat : Int) = _; simp
  rw [hrel] at hr2
  have hsz : 2 ^ (29 - e.level) = 2 ^ 8 * 2 ^ (21 - e.level) := by
    rw [← Nat.pow_add]; congr 1; omega
  have key : faceMapTri G p ∈ Simplex.Points .tri (btri e G) ↔
      ((∀ i : Fin 2, ((btri e G).x i).toNat ≤ faceMapTri G p i ∧ faceMapTri G p i ≤ ((btri e G).x i).toNat + 2 ^ (29 - e.level)) ∧
      ∀ i j : Fin 2, Simplex.rank .tri (triType e.type) i < Simplex.rank .tri (triType e.type) j →
        faceMapTri G p j + ((btri e G).x i).toNat ≤ faceMapTri G p i + ((btri e G).x j).toNat) := Iff.rfl
  have e0 : ((btri e G).x (0 : Fin 2)).toNat = 2 ^ 8 * (e.tet.x (axis G)).toNat := ratio_toNat (hx _)
  have e1 : ((btri e G).x (1 : Fin 2)).toNat = 2 ^ 8 * (e.tet.x 2).toNat := ratio_toNat (hx _)
  rw [key, face_iff e (type_lt he.good) hf, points_iff e (type_lt he.good), hsz]
  have hc : ((2 : Int) ^ (21 - e.level)) = ((2 ^ (21 - e.level) : Nat) : Int) := by push_cast; rfl
  rw [hc]
  rw [AtRoot, tb] at a1
  have hpos := Nat.two_pow_pos (21 - e.level)
  clear key hrel hr hp h hc hsz
  generalize 2 ^ (21 - e.level) = H at *
  simp only [Fin.forall_fin_succ, Plane.form, rel] at *
  have e1' : ((btri e G).x (Fin.succ (0 : Fin 1))).toNat = 2 ^ 8 * (e.tet.x 2).toNat := e1
  rw [show ((0 : Fin 1).succ : Fin 2) = 1 from rfl]
  rw [e0, e1]
  subst a2
  clear e0 e1 e1' he
  generalize e.type = b at *
  generalize e.tet.x = x at *
  have hb : b < 8 := by
    by_contra hc
    simp only [admissible, Bool.or_eq_true, Bool.and_eq_true, beq_iff_eq, decide_eq_true_eq] at a3
    omega
  have hf5 : f < 4 := by
    by_contra hc
    simp only [admissible, Bool.or_eq_true, Bool.and_eq_true, beq_iff_eq, decide_eq_true_eq] at a3
    omega
  interval_cases b <;> interval_cases f <;> first | exact absurd a3 (by decide) | skip
  all_goals
    simp [rootFaceOf, axis, plane, planes, faceSlot, triType, nf, Nat.forall_lt_succ_right, faceMapTri, Simplex.rank,
      Simplex.axes, List.idxOf, List.findIdx, List.findIdx.go] at a1 hr2 ⊢
    omega

theorem rescale_ratio {x : BitVec 32} (hx : x.toNat < 2 ^ 21) : Simplex.rescale maxLevel Cls.tri.maxLevel (x * triRatio) = x := by
  apply BitVec.eq_of_toNat_eq
  have h := ratio_toNat hx
  rw [show Simplex.rescale maxLevel Cls.tri.maxLevel (x * triRatio) = Simplex.rescale 21 29 (x * triRatio) from rfl,
    Simplex.rescale_toNat (by omega) (by omega) (by rw [h]; omega), h]
  omega

theorem touching_eq {e : Elem} (he : Good e) {x : BitVec 32} (hx : x.toNat + 2 ^ (21 - e.level) = 2 ^ 21) :
    rootLen - len e.level = x := by
  apply BitVec.eq_of_toNat_eq
  have h1 : rootLen.toNat = 2 ^ 21 := by decide +kernel
  have h2 := len_toNat e.level
  rw [BitVec.toNat_sub_of_le (by rw [BitVec.le_def, h1, h2]; omega), h1, h2]
  omega

/-- Extruding the triangle gives back the element. -/
theorem extrude_btri {e : Elem} (he : Valid e) {f G : Nat} (hf : f < nf e.type) (hG : G < 4) (h : Face e f ⊆ Face root G) :
    extrudeTri (btri e G) G = some (e, f) := by
  obtain ⟨a1, a2, a3⟩ := at_root_cases he hf hG h
  obtain ⟨_, s1, s2⟩ := tri_of_root he hf hG h
  have hx : ∀ k, (e.tet.x k).toNat < 2 ^ 21 := fun k => (he.good.cube.2 k).1
  have htest : ((btri e G).x 1 = ((btri e G).x 0 &&& (btri e G).x 1) ∧ (btri e G).type = 0) ↔ 6 ≤ e.type := by
    have h1 : (btri e G).x 1 = ((btri e G).x 0 &&& (btri e G).x 1) ↔ Sub e G := by
      rw [← BitVec.toNat_inj, BitVec.toNat_and]
      show (e.tet.x 2 * triRatio).toNat = (e.tet.x (axis G) * triRatio).toNat &&& (e.tet.x 2 * triRatio).toNat ↔ _
      rw [ratio_toNat (hx _), ratio_toNat (hx _), mul_and, Sub]
      constructor
      · intro h; exact Nat.eq_of_mul_eq_mul_left (by omega) h
      · intro h; exact congrArg (2 ^ 8 * ·) h
    rw [h1, show (btri e G).type = triType e.type from rfl]
    constructor
    · rintro ⟨h2, h3⟩
      by_contra h6
      rcases s2 h6 with h4 | h4
      · omega
      · exact h4 h2
    · intro h6
      refine ⟨s1 h6, ?_⟩
      rw [triType, if_neg (by omega)]
  have hxx : ∀ T, (⟨fun i : Fin 3 => if i.val = 2 then Simplex.rescale maxLevel Cls.tri.maxLevel ((btri e G).x 1)
      else if G = 0 then (if i.val = 0 then Simplex.rescale maxLevel Cls.tri.maxLevel ((btri e G).x 1)
        else Simplex.rescale maxLevel Cls.tri.maxLevel ((btri e G).x 0))
      else if G = 1 then (if i.val = 0 then rootLen - len (btri e G).level
        else Simplex.rescale maxLevel Cls.tri.maxLevel ((btri e G).x 0))
      else if G = 2 then (if i.val = 0 then Simplex.rescale maxLevel Cls.tri.maxLevel ((btri e G).x 0)
        else Simplex.rescale maxLevel Cls.tri.maxLevel ((btri e G).x 1))
      else (if i.val = 0 then Simplex.rescale maxLevel Cls.tri.maxLevel ((btri e G).x 0)
        else rootLen - len (btri e G).level), (btri e G).level, T⟩ : Simplex.Elem 3) = ⟨e.tet.x, e.level, T⟩ := by
    intro T
    have r0 : Simplex.rescale maxLevel Cls.tri.maxLevel ((btri e G).x 0) = e.tet.x (axis G) := rescale_ratio (hx _)
    have r1 : Simplex.rescale maxLevel Cls.tri.maxLevel ((btri e G).x 1) = e.tet.x 2 := rescale_ratio (hx _)
    rw [r0, r1]
    have r2 : (btri e G).level = e.level := rfl
    rw [r2]
    congr 1
    have t0 := fun k => touching_eq (x := e.tet.x k) he.good
    have z0 : ∀ k, (e.tet.x k).toNat = (e.tet.x 2).toNat → e.tet.x 2 = e.tet.x k := fun k h => BitVec.eq_of_toNat_eq h.symm
    have q : (G = 0 ∧ (e.tet.x 0).toNat = (e.tet.x 2).toNat) ∨ (G = 1 ∧ (e.tet.x 0).toNat + 2 ^ (21 - e.level) = 2 ^ 21) ∨
        (G = 2 ∧ (e.tet.x 1).toNat = (e.tet.x 2).toNat) ∨ (G = 3 ∧ (e.tet.x 1).toNat + 2 ^ (21 - e.level) = 2 ^ 21) := by
      rw [AtRoot, tb] at a1
      generalize 2 ^ (21 - e.level) = H at *
      generalize (e.tet.x 0).toNat = X at *
      generalize (e.tet.x 1).toNat = Y at *
      generalize (e.tet.x 2).toNat = Z at *
      generalize e.type = b at *
      clear htest r0 r1 r2 t0 z0 s1 s2 hx h he
      subst a2
      have hb : b < 8 := by
        by_contra hc
        simp only [admissible, Bool.or_eq_true, Bool.and_eq_true, beq_iff_eq, decide_eq_true_eq] at a3
        omega
      have hf5 : f < 4 := by
        by_contra hc
        simp only [admissible, Bool.or_eq_true, Bool.and_eq_true, beq_iff_eq, decide_eq_true_eq] at a3
        omega
      interval_cases b <;> interval_cases f <;> first | exact absurd a3 (by decide) | skip
      all_goals
        simp [rootFaceOf, faceSlot] at a1 ⊢
        omega
    funext i
    rcases q with ⟨rfl, q⟩ | ⟨rfl, q⟩ | ⟨rfl, q⟩ | ⟨rfl, q⟩
    · have := z0 0 q
      fin_cases i <;> simp [axis, this]
    · have := t0 0 q
      fin_cases i <;> simp [axis, this]
    · have := z0 1 q
      fin_cases i <;> simp [axis, this]
    · have := t0 1 q
      fin_cases i <;> simp [axis, this]
  rw [extrudeTri]
  by_cases h6 : 6 ≤ e.type
  · rw [if_pos (htest.2 h6), hxx]
    have hb := he.good.pyra h6
    have h6' : e.type = 6 := by
      rcases hb.1 with h | h
      · exact h
      · rw [h] at a3; simp [admissible] at a3
    have hGf : G = f := by rw [a2, rootFaceOf, if_pos h6]
    rw [hGf]
    obtain ⟨⟨x, l, b⟩, s⟩ := e
    have e1 : b = 6 := h6'
    have e2 : s = -1 := hb.2
    subst e1 e2
    rfl
  · rw [if_neg (fun hc => h6 (htest.1 hc)), hxx]
    have htab : look tritypeRootfaceToTettype (btri e G).type G = e.type ∧ look tritypeRootfaceToFace (btri e G).type G = f := by
      rw [show (btri e G).type = triType e.type from rfl, a2]
      have : ∀ b < 6, ∀ f < 4, admissible b f = true → look tritypeRootfaceToTettype (triType b) (rootFaceOf b f) = b ∧
          look tritypeRootfaceToFace (triType b) (rootFaceOf b f) = f := by decide +kernel
      rw [nf, if_neg h6] at hf
      exact this _ (by omega) f hf a3
    rw [htab.1, htab.2, show (⟨e.tet.x, e.level, e.type⟩ : Simplex.Elem 3) = e.tet from rfl, setSwitch_eq he]
    rfl

/-- Every triangle up to the deepest level of pyramids is the face of an element. -/
theorem exists_btri {t : Simplex.Elem 2} (ht : Simplex.Valid .tri t) (hl : t.level ≤ 21) {G : Nat} (hG : G < 4) :
    ∃ e f, Valid e ∧ f < nf e.type ∧ e.level = t.level ∧ Face e f ⊆ Face root G ∧ btri e G = t := by
  induction hn : t.level generalizing t with
  | zero =>
    have : t = Simplex.root .tri := Simplex.root_unique ht hn
    subst this
    refine ⟨root, G, Valid.root, by show G < 5; omega, rfl, Set.Subset.rfl, ?_⟩
    refine Simplex.Elem.ext' (Standalone.Elem.ext' (fun t => ?_) rfl) rfl
    show (if t.val = 0 then (0 : BitVec 32) * triRatio else 0 * triRatio) = 0
    simp
  | succ n ih =>
    have hv := Simplex.valid_parent ht (by omega)
    obtain ⟨p, k, p1, p2, p3, p4, p5⟩ := ih hv (by show t.level - 1 ≤ 21; omega) (by show t.level - 1 = n; omega)
    have hch := Simplex.child_parent ht.aligned (by omega)
    have hj := Simplex.childId_lt ht.aligned
    obtain ⟨a1, a2, a3⟩ := at_root_cases p1 p2 hG p4
    obtain ⟨_, _, _, m4⟩ := match_table _ (type_lt p1.good) k p2 a3
    obtain ⟨i, i1, f, f1, f2, f3⟩ := m4 _ hj
    rw [← a2] at f3
    have hpl : p.level < 21 := by omega
    have hi : i < numChildren p := by rw [nch_eq]; exact i1
    have hin := (inFace_child p1 hpl hi (g := f) (f := k)).2 ⟨f1, p2, f2⟩
    refine ⟨child p i, f, valid_child p1 hpl hi, hin.1, ?_, hin.2.2.trans p4, ?_⟩
    · rw [child_level]; omega
    · rw [btri_child p1 hpl hi (by rw [p5]; exact hv) hj f3, p5, hch]

/-! ### The square face -/

theorem at_quad {e : Elem} (he : Valid e) {f : Nat} (hf : f < nf e.type) (h : Face e f ⊆ Face root 4) :
    f = 4 ∧ e.type = 6 ∧ (e.tet.x 2).toNat = 0 := by
  obtain ⟨h1, h2⟩ := (root_face_iff he hf (by omega)).1 h
  have h6 : 6 ≤ e.type := by
    by_contra hc
    rw [rootFaceOf, if_neg hc] at h2
    revert h2
    split <;> split <;> omega
  rw [rootFaceOf, if_pos h6] at h2
  subst h2
  rw [AtRoot, tb] at h1
  rcases (he.good.pyra h6).1 with hb | hb
  · rw [hb] at h1
    simp [faceSlot] at h1
    exact ⟨rfl, hb, by simpa using h1⟩
  · rw [hb] at h1
    simp [faceSlot] at h1

theorem rescale_down {x : BitVec 32} (hx : x.toNat < 2 ^ 30) :
    (Simplex.rescale maxLevel Prism.quadRootLevel x).toNat = x.toNat / 2 ^ 9 := by
  rw [show Simplex.rescale maxLevel Prism.quadRootLevel x = Simplex.rescale 21 30 x from rfl,
    Simplex.rescale_toNat (by omega) (by omega) (by omega)]

theorem rescale_quad {x : BitVec 32} (hx : x.toNat < 2 ^ 21) :
    (Simplex.rescale Prism.quadRootLevel maxLevel x).toNat = 2 ^ 9 * x.toNat := by
  have h1 : (BitVec.twoPow 64 30).toNat = 2 ^ 30 := by decide
  have h2 : (BitVec.twoPow 64 21).toNat = 2 ^ 21 := by decide
  rw [show Simplex.rescale Prism.quadRootLevel maxLevel x = Simplex.rescale 30 21 x from rfl, Simplex.rescale,
    BitVec.toNat_setWidth, BitVec.toNat_udiv, BitVec.toNat_mul, BitVec.toNat_setWidth, h1, h2,
    Nat.mod_eq_of_lt (by omega : x.toNat < 2 ^ 64)]
  clear * - hx
  omega

/-- The pyramid over a square at the face 4 of the root. -/
theorem exists_quad {x : Fin 3 → BitVec 32} {l : Nat} (hl : l ≤ 21) (hx : ∀ i, (x i).toNat < 2 ^ 21 ∧ 2 ^ (21 - l) ∣ (x i).toNat)
    (hz : (x 2).toNat = 0) : Valid ⟨⟨x, l, 6⟩, -1⟩ := by
  have ha : Al ⟨x, l, 1⟩ := ⟨⟨hl, hx⟩, by show 1 < 6; omega⟩
  obtain ⟨m, m1, m2, m3⟩ := exists_elem ha ((inP_iff ha).2 ⟨by show (x 2).toNat < (x 0).toNat ∨ ((x 0).toNat = (x 2).toNat ∧ _); simp; omega,
    by show (x 2).toNat < (x 1).toNat ∨ ((x 1).toNat = (x 2).toNat ∧ _); simp; omega⟩)
  have hmx : m.tet.x = x := congrArg (fun z : Standalone.Elem 3 => z.coords) m2
  have hml : m.tet.level = l := congrArg (fun z : Standalone.Elem 3 => z.level) m2
  have hmt : m.type = 6 := by
    have h1 := tet_z_pos m1
    rw [hmx] at h1
    have h2 : 1 ∈ slots m.type := m3
    have : ∀ b < 8, 1 ∈ slots b → b = 1 ∨ b = 6 := by decide
    rcases this _ (type_lt m1.good) h2 with h | h
    · have := h1 (Or.inl h); omega
    · exact h
  have hms := (m1.good.pyra (by omega)).2
  obtain ⟨⟨x', l', b⟩, s⟩ := m
  have e1 : b = 6 := hmt
  have e2 : s = -1 := hms
  have e3 : x' = x := hmx
  have e4 : l' = l := hml
  subst e1 e2 e3 e4
  exact m1

end T8.Pyramid
