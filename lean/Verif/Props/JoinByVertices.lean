/-
C60: `t8_cmesh_set_join_by_vertices` finds the face connections of a mesh from the coordinates of the vertices. Specification:
Verif/Spec/JoinByVertices.lean.
-/
import Verif.Lemmas.JoinByVerticesLoop
import Verif.Props.Geometry
import Mathlib.Data.Fintype.Pi

namespace T8.JoinByVertices
open Neighbor Geometry

variable {A : Arith} {I : Input} {dim : Nat}

/-! ### The face connections -/

/-- C60. The array of connections in both directions: each face has an entry if and only if another face has the same vertices; the
entry is this face, with the orientation as defined. -/
theorem C60_connectivity (A : Arith) (I : Input) (dim : Nat) (hP : Proper I dim) (hS : Separated I A) :
    ∃ conn, connectivity A I true = some conn ∧
      (∀ x y, I.IsFace x → I.IsFace y → ((∃ o, conn x = some (y, o)) ↔ x ≠ y ∧ SameFace I x y)) ∧
      ∀ x y o, conn x = some (y, o) → I.IsFace x ∧ I.IsFace y ∧ conn y = some (x, o) ∧ 0 ≤ o ∧ IsOrientation I x y o.toNat := by
  obtain ⟨s, h1, hI⟩ := connectivity_inv hP hS true
  refine ⟨s.conn, h1, fun x y hx hy => ⟨?_, fun h => ?_⟩, fun x y o h => ?_⟩
  · rintro ⟨o, h⟩
    obtain ⟨_, _, a, b, _⟩ := hI.sound x y o h
    exact ⟨a, b⟩
  · obtain ⟨o, h, _⟩ := hI.two rfl x (mem_faces.2 hx) y (mem_faces.2 hy) h.1 h.2
    exact ⟨o, h⟩
  · obtain ⟨a, b, c, d, k, rfl, _, hk⟩ := hI.sound x y o h
    obtain ⟨o', h2, h3⟩ := hI.two rfl x a y b c d
    rw [h] at h2
    cases h2
    exact ⟨mem_faces.1 a, mem_faces.1 b, h3, by omega, by simpa using hk⟩

/-- C60. The calls of `t8_cmesh_set_join`: they give a conforming mesh, two faces are joined if and only if they have the same
vertices, and the orientation is the one that t8_cmesh.h:342 defines. -/
theorem C60_joins (A : Arith) (I : Input) (dim : Nat) (hP : Proper I dim) (hS : Separated I A) :
    ∃ js, joins A I false = some js ∧ Conforming dim I.classes js ∧
      (∀ x y, I.IsFace x → I.IsFace y →
        ((∃ o, Joined js (x.1 : Nat) (x.2 : Nat) (y.1 : Nat) (y.2 : Nat) o) ↔ x ≠ y ∧ SameFace I x y)) ∧
      ∀ t F t' F' o, Joined js t F t' F' o → ∃ x y : Nat × Nat, ∃ k : Nat, t = x.1 ∧ F = x.2 ∧ t' = y.1 ∧ F' = y.2 ∧ o = k ∧
        I.IsFace x ∧ I.IsFace y ∧ IsOrientation I x y k := by
  obtain ⟨s, h1, hI⟩ := connectivity_inv hP hS false
  have key : ∀ t F t' F' o, Joined (I.faces.filterMap fun x => (s.conn x).map fun r =>
      (⟨x.1, r.1.1, x.2, r.1.2, r.2⟩ : Stash.JoinFace)) t F t' F' o → ∃ x y : Nat × Nat, t = x.1 ∧ F = x.2 ∧ t' = y.1 ∧ F' = y.2 ∧
        (s.conn x = some (y, o) ∨ s.conn y = some (x, o)) := by
    rintro t F t' F' o ⟨j, hj, rfl, h⟩
    obtain ⟨x, y, o, hc, rfl⟩ := mem_joins hj
    rcases h with ⟨rfl, rfl, rfl, rfl⟩ | ⟨rfl, rfl, rfl, rfl⟩
    · exact ⟨x, y, rfl, rfl, rfl, rfl, Or.inl hc⟩
    · exact ⟨y, x, rfl, rfl, rfl, rfl, Or.inr hc⟩
  refine ⟨_, by rw [joins, h1]; rfl, joins_conforming hP hI, fun x y hx hy => ⟨?_, fun h => ?_⟩, fun t F t' F' o h => ?_⟩
  · rintro ⟨o, h⟩
    obtain ⟨x', y', e1, e2, e3, e4, h⟩ := key _ _ _ _ _ h
    have ex : x = x' := Prod.ext (by exact_mod_cast e1) (by exact_mod_cast e2)
    have ey : y = y' := Prod.ext (by exact_mod_cast e3) (by exact_mod_cast e4)
    subst ex; subst ey
    rcases h with h | h
    · obtain ⟨_, _, a, b, _⟩ := hI.sound x y o h
      exact ⟨a, b⟩
    · obtain ⟨_, _, a, b, _⟩ := hI.sound y x o h
      exact ⟨a.symm, b.symm⟩
  · rcases hI.one rfl x (mem_faces.2 hx) y (mem_faces.2 hy) h.1 h.2 with ⟨o, h⟩ | ⟨o, h⟩
    · exact ⟨o, _, joins_mem hI h, rfl, Or.inl ⟨rfl, rfl, rfl, rfl⟩⟩
    · exact ⟨o, _, joins_mem hI h, rfl, Or.inr ⟨rfl, rfl, rfl, rfl⟩⟩
  · obtain ⟨x, y, e1, e2, e3, e4, h' | h'⟩ := key _ _ _ _ _ h
    · obtain ⟨a, b, _, _, k, e5, _, hk⟩ := hI.sound x y o h'
      exact ⟨x, y, k, e1, e2, e3, e4, e5, mem_faces.1 a, mem_faces.1 b, hk⟩
    · obtain ⟨a, b, _, _, k, e5, _, hk⟩ := hI.sound y x o h'
      exact ⟨x, y, k, e1, e2, e3, e4, e5, mem_faces.1 b, mem_faces.1 a, hk.symm⟩

/-! ### The vertices fit together -/

theorem corner_coord (S : P4ests) {c b : Eclass} {F i : Nat} (hF : F < c.numFaces) (hb : faceType c F = some b) (hi : i < b.numVertices) :
    (((faceCoord S c F (rootFaceCorner S c F i)).1 : Int), ((faceCoord S c F (rootFaceCorner S c F i)).2 : Int)) = symCorner S b i := by
  rw [(C53_face_corners S c b F i hF hb hi (rootFaceCorner S c F i) (fun _ => rfl)).2]; rfl

theorem symmetry_zero (S : P4ests) {b : Eclass} (hb : b.dim ≤ 2) {o : Nat} (ho : o < b.numVertices) (flip : Bool) :
    symmetry b o flip (symCorner S b 0) = symCorner S b o := by
  have h0 : symCorner S b 0 = (0, 0) := by cases b <;> first | rfl | exact absurd hb (by decide)
  rw [h0]
  exact C53_symmetry_corner S b hb o ho flip

/-- The symmetries that change the sense of rotation are reflections. -/
theorem symmetry_back (S : P4ests) {b : Eclass} (hb : b.dim ≤ 2) {o : Nat} (ho : o < b.numVertices) :
    symmetry b o true (symCorner S b o) = symCorner S b 0 := by
  cases b with
  | vertex => have : o = 0 := by simp [Eclass.numVertices] at ho; omega
              subst this; rfl
  | line =>
    have : o < 2 := ho
    interval_cases o <;> simp only [symCorner, rootLength] <;> decide +kernel
  | quad =>
    have : o < 4 := ho
    interval_cases o <;> simp only [symCorner, rootLength] <;> decide +kernel
  | triangle =>
    have : o < 3 := ho
    interval_cases o <;> simp only [symCorner, rootLength] <;> decide +kernel
  | _ => exact absurd hb (by decide)

/-- The points of two faces in terms of the tables. -/
theorem point_val {x : Nat × Nat} {c : Eclass} (hc : I.classes[x.1]? = some c) (i : Nat) :
    I.V x.1 (((faceVertices c).getD x.2 []).getD i 0) = I.point x i := by
  rw [Input.point, cls_eq hc]; rfl

theorem orientation_unique (hP : Proper I dim) (S : P4ests) {x y : Nat × Nat} (hx : I.IsFace x) (hy : I.IsFace y) {c c' b : Eclass}
    (hc : I.classes[x.1]? = some c) (hc' : I.classes[y.1]? = some c') (hb : faceType c x.2 = some b) (hb' : faceType c' y.2 = some b)
    {o o' : Nat} (ho : IsOrientation I x y o) (ho' : o' < b.numVertices) (hm : Matched S b c x.2 c' y.2 o' (I.V x.1) (I.V y.1)) :
    o = o' := by
  have hF : x.2 < c.numFaces := by obtain ⟨d, h1, h2⟩ := hx; cases hc.symm.trans h1; exact h2
  have hF' : y.2 < c'.numFaces := by obtain ⟨d, h1, h2⟩ := hy; cases hc'.symm.trans h1; exact h2
  have hnx : I.numVerts x = b.numVertices := by rw [Input.numVerts, cls_eq hc, numFaceVertices, hb]
  have hny : I.numVerts y = b.numVertices := by rw [Input.numVerts, cls_eq hc', numFaceVertices, hb']
  have hb2 : b.dim ≤ 2 := by
    have := (faceType_vertices hb).2
    have h3 : c.dim ≤ 3 := by cases c <;> decide
    omega
  have hpos : 0 < b.numVertices := by cases b <;> decide
  have hm' : ∀ i j, i < b.numVertices → j < b.numVertices →
      Glued S b c x.2 c' y.2 o' (rootFaceCorner S c x.2 i) (rootFaceCorner S c' y.2 j) → I.point x i = I.point y j := by
    intro i j hi hj hg
    have := hm i j hi hj hg
    rwa [point_val hc, point_val hc'] at this
  obtain ⟨d, d', e1, e2, h⟩ := ho
  cases hc.symm.trans e1
  cases hc'.symm.trans e2
  have get : ∀ {z : Nat × Nat} (hz : I.IsFace z) {k : Nat} {p : Point}, (I.points z)[k]? = some p → k < I.numVerts z ∧ I.point z k = p := by
    intro z hz k p h
    have hk := (List.getElem?_eq_some_iff.1 h).1
    rw [points_length hz] at hk
    rw [points_get hz hk] at h
    exact ⟨hk, Option.some.inj h⟩
  rcases h with ⟨hM, p, h1, h2⟩ | ⟨hM, p, h1, h2⟩
  · obtain ⟨_, h1⟩ := get hx h1
    obtain ⟨hk, h2⟩ := get hy h2
    have := hm' 0 o' hpos ho' ⟨fun _ => by rw [corner_coord S hF hb hpos, corner_coord S hF' hb' ho', symmetry_zero S hb2 ho'],
      fun h => absurd hM h⟩
    exact point_inj hP hy hk (hny ▸ ho') (by rw [h2, ← h1, this])
  · obtain ⟨_, h1⟩ := get hy h1
    obtain ⟨hk, h2⟩ := get hx h2
    have : I.point x o' = I.point y 0 := by
      refine hm' o' 0 ho' hpos ⟨fun hM' => ?_, fun _ => ?_⟩
      · have hcc : c = c' ∧ x.2 = y.2 := by
          rcases hM with h | ⟨h, h'⟩ <;> rcases hM' with k | ⟨k, k'⟩
          · omega
          · subst k; omega
          · subst h; omega
          · exact ⟨k, le_antisymm k' h'⟩
        obtain ⟨rfl, hxy⟩ := hcc
        have hfl : Neighbor.flip c x.2 c y.2 = true := by rw [Neighbor.flip, hxy]; simp
        rw [corner_coord S hF hb ho', corner_coord S hF' hb' hpos, hfl, symmetry_back S hb2 ho']
      · rw [corner_coord S hF hb ho', corner_coord S hF' hb' hpos, symmetry_zero S hb2 ho']
    exact point_inj hP hx hk (hnx ▸ ho') (by rw [h2, ← h1, this])

/-- C60. If the trees at the faces lie on opposite sides, then the vertices of all joined trees fit together in the sense of C59; so
the corners of the elements at both sides of each face have the same coordinates (`C59_face_corners_meet`). -/
theorem C60_matched (S : P4ests) (A : Arith) (I : Input) (dim : Nat) (hP : Proper I dim) (hS : Separated I A) (hO : Oriented I S) :
    ∃ js, joins A I false = some js ∧ Conforming dim I.classes js ∧ AllMatched S I.classes js fun t => I.V t.toNat := by
  obtain ⟨js, h1, h2, h3, h4⟩ := C60_joins A I dim hP hS
  refine ⟨js, h1, h2, ?_⟩
  intro t t' F F' o c c' b hj hc hc' hb
  obtain ⟨x, y, k, rfl, e1, rfl, e2, e3, hx, hy, hk⟩ := h4 _ _ _ _ _ hj
  have e1 : F = x.2 := by exact_mod_cast e1
  have e2 : F' = y.2 := by exact_mod_cast e2
  have e3 : o = k := by exact_mod_cast e3
  subst e1; subst e2; subst e3
  simp only [Int.toNat_natCast] at hc hc' ⊢
  obtain ⟨hxy, hsame⟩ := (h3 x y hx hy).1 ⟨_, hj⟩
  obtain ⟨c1, c2, b2, a1, a2, a3, a4, a5, a6, a7, a8, a9, a10, a11, a12⟩ := h2.joined hj
  simp only [Int.toNat_natCast] at a2 a4 a9 a10
  cases hc.symm.trans a2
  cases hc'.symm.trans a4
  cases hb.symm.trans a9
  obtain ⟨o', ho', hm⟩ := hO x y c c' b hx hy hxy hsame hc hc' hb
  rw [orientation_unique hP S hx hy hc hc' hb a10 hk ho' hm]
  exact hm

theorem symCorner_line (S : P4ests) : symCorner S .line 0 = (0, 0) ∧ symCorner S .line 1 = (1073741824, 0) := by
  constructor <;> simp only [symCorner, rootLength] <;> decide +kernel

theorem line_corners_iff (S : P4ests) {o i j : Nat} (ho : o < 2) (hi : i < 2) (hj : j < 2) (fl : Bool)
    (h : symCorner S .line j = symmetry .line o fl (symCorner S .line i)) : j = if o = 0 then i else 1 - i := by
  obtain ⟨e0, e1⟩ := symCorner_line S
  have h30 : (2 : Int) ^ 30 = 1073741824 := by norm_num
  interval_cases o <;> interval_cases i <;> interval_cases j <;>
    first | rfl | (exfalso; simp only [e0, e1, symmetry, h30] at h; revert h; simp)

/-- C60. In meshes of dimension one and two the vertices always fit together. -/
theorem C60_oriented (S : P4ests) (I : Input) (dim : Nat) (hP : Proper I dim) (hd : dim ≤ 2) : Oriented I S := by
  intro x y c c' b hx hy hxy hsame hc hc' hb
  have hF : x.2 < c.numFaces := by obtain ⟨d, h1, h2⟩ := hx; cases hc.symm.trans h1; exact h2
  have hF' : y.2 < c'.numFaces := by obtain ⟨d, h1, h2⟩ := hy; cases hc'.symm.trans h1; exact h2
  have hn := numVerts_same hP hx hy hsame
  obtain ⟨_, b', hb', hbn'⟩ := table_length c' y.2 hF'
  have hnx : I.numVerts x = b.numVertices := by rw [Input.numVerts, cls_eq hc, numFaceVertices, hb]
  have hny : I.numVerts y = b'.numVertices := by rw [Input.numVerts, cls_eq hc', hbn']
  have hdc := hP.dim_eq c (List.mem_of_getElem? hc)
  have hdc' := hP.dim_eq c' (List.mem_of_getElem? hc')
  have : b = b' := faceType_of_num (hdc.trans hdc'.symm) hb hb' (by rw [← hnx, ← hny, hn])
  subst this
  have hb1 : b.dim ≤ 1 := by have := (faceType_vertices hb).2; omega
  have hmem : ∀ i < b.numVertices, ∃ j < b.numVertices, I.point y j = I.point x i := fun i hi => by
    obtain ⟨j, h1, h2⟩ := (mem_points hy).1 ((hsame _).1 ((mem_points hx).2 ⟨i, hnx ▸ hi, rfl⟩))
    exact ⟨j, hny ▸ h1, h2⟩
  have hinj : ∀ i < b.numVertices, ∀ j < b.numVertices, I.point x i = I.point x j → i = j := fun i hi j hj h =>
    point_inj hP hx (hnx ▸ hi) (hnx ▸ hj) h
  have main : ∀ o < b.numVertices, (∀ i j, i < b.numVertices → j < b.numVertices → ∀ fl,
      (symCorner S b j = symmetry b o fl (symCorner S b i) ∨ symCorner S b i = symmetry b o fl (symCorner S b j)) →
      I.point x i = I.point y j) → ∃ o < b.numVertices, Matched S b c x.2 c' y.2 o (I.V x.1) (I.V y.1) := by
    intro o ho h
    refine ⟨o, ho, fun i j hi hj hg => ?_⟩
    rw [point_val hc, point_val hc']
    refine h i j hi hj (Neighbor.flip c x.2 c' y.2) ?_
    by_cases hM : Main c x.2 c' y.2
    · have := hg.1 hM
      rw [corner_coord S hF hb hi, corner_coord S hF' hb' hj] at this
      exact Or.inl this
    · have := hg.2 hM
      rw [corner_coord S hF hb hi, corner_coord S hF' hb' hj] at this
      exact Or.inr this
  cases b with
  | vertex =>
    refine main 0 (by decide) fun i j hi hj _ _ => ?_
    obtain ⟨k, hk, h⟩ := hmem i hi
    simp only [Eclass.numVertices] at hi hj hk
    obtain rfl : k = j := by omega
    exact h.symm
  | line =>
    obtain ⟨k, hk, hk2⟩ := hmem 0 (by decide)
    obtain ⟨l, hl, hl2⟩ := hmem 1 (by decide)
    have hkl : k ≠ l := fun h => absurd (hinj 0 (by decide) 1 (by decide) (by rw [← hk2, h, hl2])) (by decide)
    refine main k hk fun i j hi hj fl h => ?_
    have hij : j = if k = 0 then i else 1 - i := by
      rcases h with h | h
      · exact line_corners_iff S hk hi hj fl h
      · have := line_corners_iff S hk hj hi fl h
        simp only [Eclass.numVertices] at hi hj
        split_ifs at this ⊢ <;> omega
    simp only [Eclass.numVertices] at hi hj hk hl
    subst hij
    interval_cases k <;> interval_cases l <;> (try exact absurd rfl hkl) <;> interval_cases i <;>
      first | exact hk2.symm | exact hl2.symm
  | _ => exact absurd hb1 (by decide)

/-! ### The tolerance and the hash -/

/-- C60. Without rounding, the hypothesis on the tolerance holds if different vertices differ by at least ten times the precision,
relative to the size of the mesh, in one of their coordinates. -/
theorem C60_separated (eps : ℚ) (heps : 0 < eps) (I : Input) (hm : I.minCoord < I.maxCoord)
    (h : ∀ x y p q, I.IsFace x → I.IsFace y → p ∈ I.points x → q ∈ I.points y → p ≠ q →
      ∃ k, 10 * eps * (I.maxCoord - I.minCoord) ≤ |p k - q k|) : Separated I (exactArith eps) := by
  have hpos : 0 < I.maxCoord - I.minCoord := sub_pos.2 hm
  intro x y p q hx hy hp hq
  simp only [exactArith, decide_eq_true_eq, abs_of_pos hpos]
  constructor
  · intro hc
    by_contra hne
    obtain ⟨k, hk⟩ := h x y p q hx hy hp hq hne
    exact absurd (hc k) (not_lt.2 hk)
  · rintro rfl k
    simp only [sub_self, abs_zero]
    positivity

theorem foldl_min (l : List ℚ) (a : ℚ) : l.foldl (fun m x => if x < m then x else m) a ≤ a ∧
    ∀ x ∈ l, l.foldl (fun m x => if x < m then x else m) a ≤ x := by
  induction l generalizing a with
  | nil => exact ⟨le_refl _, fun x hx => by cases hx⟩
  | cons b l ih =>
    rw [List.foldl_cons]
    obtain ⟨h1, h2⟩ := ih (if b < a then b else a)
    have h3 : (if b < a then b else a) ≤ a ∧ (if b < a then b else a) ≤ b := by
      split_ifs with h
      · exact ⟨h.le, le_refl _⟩
      · exact ⟨le_refl _, not_lt.1 h⟩
    refine ⟨h1.trans h3.1, fun x hx => ?_⟩
    rcases List.mem_cons.1 hx with rfl | hx
    · exact h1.trans h3.2
    · exact h2 x hx

theorem foldl_max (l : List ℚ) (a : ℚ) : a ≤ l.foldl (fun m x => if m < x then x else m) a ∧
    ∀ x ∈ l, x ≤ l.foldl (fun m x => if m < x then x else m) a := by
  induction l generalizing a with
  | nil => exact ⟨le_refl _, fun x hx => by cases hx⟩
  | cons b l ih =>
    rw [List.foldl_cons]
    obtain ⟨h1, h2⟩ := ih (if a < b then b else a)
    have h3 : a ≤ (if a < b then b else a) ∧ b ≤ (if a < b then b else a) := by
      split_ifs with h
      · exact ⟨h.le, le_refl _⟩
      · exact ⟨le_refl _, not_lt.1 h⟩
    refine ⟨h3.1.trans h1, fun x hx => ?_⟩
    rcases List.mem_cons.1 hx with rfl | hx
    · exact h3.2.trans h1
    · exact h2 x hx

theorem faceVertices_lt : ∀ (c : Eclass) (F : Nat), F < c.numFaces → ∀ v ∈ (faceVertices c).getD F [], v < c.numVertices := by
  intro c F hF
  cases c <;> simp only [Eclass.numFaces] at hF <;> interval_cases F <;> first | omega | decide

/-- C60. In meshes of dimension three, the numbers that the hash function casts to `unsigned long` are in its range. -/
theorem C60_hash_range (I : Input) (h3 : ∀ c ∈ I.classes, c.dim = 3) (hm : I.minCoord < I.maxCoord) (x : Nat × Nat) (hx : I.IsFace x)
    (p : Point) (hp : p ∈ I.points x) (k : Fin 3) :
    0 ≤ (p k - I.minCoord) * (1000000000 / (I.maxCoord - I.minCoord)) + 1 / 2 ∧
      (p k - I.minCoord) * (1000000000 / (I.maxCoord - I.minCoord)) + 1 / 2 < 2 ^ 64 := by
  obtain ⟨c, hc, hF⟩ := id hx
  have hmem : p k ∈ I.coords := by
    rw [Input.points, hc] at hp
    obtain ⟨v, hv, rfl⟩ := List.mem_map.1 hp
    have ht := (List.getElem?_eq_some_iff.1 hc).1
    refine List.mem_flatMap.2 ⟨x.1, List.mem_range.2 ht, List.mem_flatMap.2 ⟨v, ?_, List.mem_map.2 ⟨k.val, ?_, ?_⟩⟩⟩
    · rw [cls_eq hc]; exact List.mem_range.2 (faceVertices_lt c x.2 hF v hv)
    · rw [cls_eq hc, h3 c (List.mem_of_getElem? hc)]; exact List.mem_range.2 k.isLt
    · congr 1
      apply Fin.ext
      simp [Fin.ofNat, Nat.mod_eq_of_lt k.isLt]
  have h1 : I.minCoord ≤ p k := (foldl_min _ _).2 _ hmem
  have h2 : p k ≤ I.maxCoord := (foldl_max _ _).2 _ hmem
  have hpos : 0 < I.maxCoord - I.minCoord := sub_pos.2 hm
  have e : (p k - I.minCoord) * (1000000000 / (I.maxCoord - I.minCoord)) =
      1000000000 * ((p k - I.minCoord) / (I.maxCoord - I.minCoord)) := by ring
  rw [e]
  have h4 : 0 ≤ (p k - I.minCoord) / (I.maxCoord - I.minCoord) := div_nonneg (by linarith) hpos.le
  have h5 : (p k - I.minCoord) / (I.maxCoord - I.minCoord) ≤ 1 := by rw [div_le_iff₀ hpos]; linarith
  constructor
  · linarith
  · norm_num
    linarith

/-- A square in space, two of its vertices have the third coordinate -1. -/
def tilted : Input := ⟨[.quad], fun _ v => ![(unit .quad v 0 : ℚ), unit .quad v 1, -(unit .quad v 0 : ℚ)]⟩

/-- Finding: in meshes of dimension two the loop of lines 50-68 does not read the third coordinate, but the hash does. The function
then casts negative numbers to `unsigned long`. -/
theorem C60_hash_range_false : ∃ I : Input, Proper I 2 ∧ I.minCoord < I.maxCoord ∧ ∃ x p k, I.IsFace x ∧ p ∈ I.points x ∧
    (p k - I.minCoord) * (1000000000 / (I.maxCoord - I.minCoord)) + 1 / 2 ≤ -1 := by
  have hf : ∀ x, tilted.IsFace x → x ∈ tilted.faces := fun x hx => mem_faces.2 hx
  refine ⟨tilted, ⟨by decide, by decide, ?_, ?_⟩, by decide +kernel, (0, 1), ![1, 0, -1], 2, ⟨.quad, rfl, by decide⟩, ?_, ?_⟩
  · intro x hx
    exact (show ∀ x ∈ tilted.faces, (tilted.points x).Nodup by decide +kernel) x (hf x hx)
  · intro x y z hx hy _ hxy _ hs _
    have key : ∀ x ∈ tilted.faces, ∀ y ∈ tilted.faces, x ≠ y → ∃ p ∈ tilted.points x, p ∉ tilted.points y := by decide +kernel
    obtain ⟨p, h1, h2⟩ := key x (hf x hx) y (hf y hy) hxy
    exact absurd ((hs p).1 h1) h2
  · decide +kernel
  · decide +kernel

/-- Two lines, the second starts next to the end of the first. -/
def almost : Input := ⟨[.line, .line], fun t v => if t = 0 then (if v = 0 then ![0, 0, 0] else ![1 / 2000000000, 0, 0])
  else (if v = 0 then ![1 / 2000000000 - 1 / 1000000000000000, 0, 0] else ![1, 0, 0])⟩

/-- Finding: vertices within the tolerance are not always joined, because they can be in different bins of the hash function (`eps` is
the precision of `double` numbers). The hash finds all connections only between faces with exactly the same vertices. -/
theorem C60_tolerance_false : ∃ (I : Input) (x y : Nat × Nat), I.IsFace x ∧ I.IsFace y ∧ x ≠ y ∧
    (∀ p ∈ I.points x, ∀ q ∈ I.points y, ∀ k, (exactArith (1 / 2 ^ 52)).close I.minCoord I.maxCoord (p k) (q k) = true) ∧
    joins (exactArith (1 / 2 ^ 52)) I false = some [] := by
  refine ⟨almost, (0, 1), (1, 0), ⟨.line, rfl, by decide⟩, ⟨.line, rfl, by decide⟩, by decide, ?_, ?_⟩
  · decide +kernel
  · decide +kernel

/-! ### A mesh that meets the hypotheses -/

/-- A square and a triangle. -/
def house : Input := ⟨[.quad, .triangle], fun t v =>
  if t = 0 then ![(unit .quad v 0 : ℚ), unit .quad v 1, 0] else ([![1, 1, 0], ![1 / 2, 2, 0], ![0, 1, 0]] : List Point).getD v 0⟩

theorem house_proper : Proper house 2 := by
  have hf : ∀ x, house.IsFace x → x ∈ house.faces := fun x hx => mem_faces.2 hx
  refine ⟨by decide, by decide, ?_, ?_⟩
  · intro x hx
    exact (show ∀ x ∈ house.faces, (house.points x).Nodup by decide +kernel) x (hf x hx)
  · intro x y z hx hy hz hxy hxz h1 h2
    have key : ∀ x ∈ house.faces, ∀ y ∈ house.faces, x ≠ y → (∀ p ∈ house.points x, p ∈ house.points y) →
        (x = (0, 3) ∧ y = (1, 1)) ∨ (x = (1, 1) ∧ y = (0, 3)) := by decide +kernel
    rcases key x (hf x hx) y (hf y hy) hxy (fun p hp => (h1 p).1 hp) with ⟨a, b⟩ | ⟨a, b⟩ <;>
      rcases key x (hf x hx) z (hf z hz) hxz (fun p hp => (h2 p).1 hp) with ⟨c, d⟩ | ⟨c, d⟩ <;>
      first | exact b.trans d.symm | (rw [a] at c; exact absurd c (by decide))

theorem house_separated : Separated house (exactArith (1 / 2 ^ 52)) := by
  intro x y p q hx hy hp hq
  have key : ∀ x ∈ house.faces, ∀ y ∈ house.faces, ∀ p ∈ house.points x, ∀ q ∈ house.points y,
      ((∀ k, (exactArith (1 / 2 ^ 52)).close house.minCoord house.maxCoord (p k) (q k) = true) ↔ p = q) := by decide +kernel
  exact key x (mem_faces.2 hx) y (mem_faces.2 hy) p hp q hq

/-- The triangle is the main face (t8_cmesh.h:342: triangle < quad); corner 0 of its face 1 is corner 1 of face 3 of the square. -/
example : joins (exactArith (1 / 2 ^ 52)) house false = some [⟨1, 0, 1, 3, 1⟩] := by decide +kernel

example (S : P4ests) : ∃ js, joins (exactArith (1 / 2 ^ 52)) house false = some js ∧ Conforming 2 house.classes js ∧
    AllMatched S house.classes js fun t => house.V t.toNat :=
  C60_matched S _ house 2 house_proper house_separated (C60_oriented S house 2 house_proper (by decide))

/-- Finding: with `do_both_directions` and a coarse mesh, each connection is set twice. -/
theorem C60_both_false : ∃ I, Proper I 2 ∧ Separated I (exactArith (1 / 2 ^ 52)) ∧ ∃ js, joins (exactArith (1 / 2 ^ 52)) I true = some js ∧
    ¬ Conforming 2 I.classes js := by
  refine ⟨house, house_proper, house_separated, [⟨0, 1, 3, 1, 1⟩, ⟨1, 0, 1, 3, 1⟩], by decide +kernel, fun h => ?_⟩
  exact absurd h.once (by decide)

end T8.JoinByVertices
