/-
Lemmas on the face connections found from the coordinates of the vertices.
-/
import Verif.Spec.JoinByVertices
import Verif.Lemmas.CmeshJoin
import Mathlib.Data.List.Perm.Subperm
import Mathlib.Data.List.Nodup
import Mathlib.Tactic.IntervalCases

namespace T8.JoinByVertices
open Neighbor Geometry

variable {A : Arith} {I : Input} {dim : Nat}

/-! ### Faces -/

theorem cls_eq {t : Nat} {c : Eclass} (h : I.classes[t]? = some c) : I.cls t = c := by
  simp [Input.cls, List.getD_eq_getElem?_getD, h]

theorem mem_faces {x : Nat × Nat} : x ∈ I.faces ↔ I.IsFace x := by
  obtain ⟨t, f⟩ := x
  simp only [Input.faces, List.mem_flatMap, List.mem_range, List.mem_map, Input.IsFace, Prod.mk.injEq]
  constructor
  · rintro ⟨t', h1, f', h2, rfl, rfl⟩
    have h : I.classes[t']? = some I.classes[t'] := List.getElem?_eq_getElem h1
    exact ⟨_, h, by rw [← cls_eq h]; exact h2⟩
  · rintro ⟨c, h1, h2⟩
    have := (List.getElem?_eq_some_iff.1 h1).1
    exact ⟨t, this, f, by rw [cls_eq h1]; exact h2, rfl, rfl⟩

theorem faces_nodup : I.faces.Nodup := by
  rw [Input.faces, List.nodup_flatMap]
  refine ⟨fun t _ => (List.nodup_range).map (fun a b h => by simpa using h), ?_⟩
  refine (List.nodup_range (n := I.classes.length)).imp ?_
  intro a b hab y h1 h2
  simp only [List.mem_map, List.mem_range] at h1 h2
  obtain ⟨f, _, rfl⟩ := h1
  obtain ⟨g, _, h⟩ := h2
  exact hab (Prod.mk.inj h).1.symm

theorem table_length : ∀ (c : Eclass) (F : Nat), F < c.numFaces → ((faceVertices c).getD F []).length = numFaceVertices c F ∧
    ∃ b, faceType c F = some b ∧ numFaceVertices c F = b.numVertices := by
  intro c F hF
  have hF6 : F < 6 := by cases c <;> simp only [Eclass.numFaces] at hF <;> omega
  cases c <;> simp only [Eclass.numFaces] at hF <;> interval_cases F <;>
    first | omega | (refine ⟨by decide, ?_⟩; simp [faceType, numFaceVertices])

/-- The points of a face as in the loops of the code. -/
theorem points_eq {x : Nat × Nat} (hx : I.IsFace x) : I.points x = (List.range (I.numVerts x)).map (I.point x) := by
  obtain ⟨c, h1, h2⟩ := hx
  have hl := (table_length c x.2 h2).1
  rw [Input.points, h1, Input.numVerts, cls_eq h1]
  apply List.ext_getElem
  · simp [← hl]
  · intro i h3 h4
    simp only [List.length_map] at h3
    simp only [List.getElem_map, List.getElem_range, Input.point, faceVertex, cls_eq h1]
    rw [List.getD_eq_getElem?_getD (l := (faceVertices c).getD x.2 []), List.getElem?_eq_getElem h3]
    rfl

theorem mem_points {x : Nat × Nat} (hx : I.IsFace x) {p : Point} : p ∈ I.points x ↔ ∃ i < I.numVerts x, I.point x i = p := by
  rw [points_eq hx]; simp

theorem points_get {x : Nat × Nat} (hx : I.IsFace x) {i : Nat} (hi : i < I.numVerts x) : (I.points x)[i]? = some (I.point x i) := by
  rw [points_eq hx]
  simp [hi]

theorem points_length {x : Nat × Nat} (hx : I.IsFace x) : (I.points x).length = I.numVerts x := by
  rw [points_eq hx]; simp

theorem point_inj (hP : Proper I dim) {x : Nat × Nat} (hx : I.IsFace x) {i j : Nat} (hi : i < I.numVerts x) (hj : j < I.numVerts x)
    (h : I.point x i = I.point x j) : i = j := by
  have hn := hP.nodup x hx
  rw [points_eq hx] at hn
  exact List.inj_on_of_nodup_map hn (List.mem_range.2 hi) (List.mem_range.2 hj) h

theorem numVerts_pos {x : Nat × Nat} (hx : I.IsFace x) : 0 < I.numVerts x := by
  obtain ⟨c, h1, h2⟩ := hx
  obtain ⟨_, b, _, hb⟩ := table_length c x.2 h2
  rw [Input.numVerts, cls_eq h1, hb]
  cases b <;> decide

theorem SameFace.symm {x y : Nat × Nat} (h : SameFace I x y) : SameFace I y x := fun p => (h p).symm

theorem SameFace.perm (hP : Proper I dim) {x y : Nat × Nat} (hx : I.IsFace x) (hy : I.IsFace y) (h : SameFace I x y) :
    (I.points x).Perm (I.points y) := (List.perm_ext_iff_of_nodup (hP.nodup x hx) (hP.nodup y hy)).2 h

/-! ### The hash -/

theorem foldl_add {α : Type} (g : α → BitVec 64) (l : List α) (h : BitVec 64) : l.foldl (fun h a => h + g a) h = h + l.foldl (fun h a => h + g a) 0 := by
  induction l generalizing h with
  | nil => simp
  | cons a l ih => rw [List.foldl_cons, List.foldl_cons, ih, ih (0 + g a), show (0 : BitVec 64) + g a = g a from BitVec.zero_add _, BitVec.add_assoc]

theorem hash_eq {x : Nat × Nat} (hx : I.IsFace x) : hash A I x = (I.points x).foldl (fun h p => h +
    (List.range 3).foldl (fun h k => h + (BitVec.ofNat 64 k + A.bin I.minCoord I.maxCoord (p (Fin.ofNat 3 k)))) 0) 0 := by
  rw [points_eq hx, List.foldl_map, hash]
  congr 1
  funext h i
  rw [← foldl_add]
  congr 1
  funext h k
  rw [BitVec.add_assoc]

theorem hash_same (hP : Proper I dim) {x y : Nat × Nat} (hx : I.IsFace x) (hy : I.IsFace y) (h : SameFace I x y) :
    hash A I x = hash A I y := by
  rw [hash_eq hx, hash_eq hy]
  have : RightCommutative fun (h : BitVec 64) (p : Point) => h +
      (List.range 3).foldl (fun h k => h + (BitVec.ofNat 64 k + A.bin I.minCoord I.maxCoord (p (Fin.ofNat 3 k)))) 0 :=
    ⟨fun a b c => by rw [BitVec.add_assoc, BitVec.add_comm _ (List.foldl _ _ _), ← BitVec.add_assoc]⟩
  exact (h.perm hP hx hy).foldl_eq _

/-! ### Matching vertices -/

theorem sameVertex_iff (hS : Separated I A) {x y : Nat × Nat} (hx : I.IsFace x) (hy : I.IsFace y) {p q : Point} (hp : p ∈ I.points x)
    (hq : q ∈ I.points y) : sameVertex A I p q = true ↔ p = q := by
  rw [← hS x y p q hx hy hp hq, sameVertex, beq_iff_eq]
  have e : ∀ k : Fin 3, (Fin.ofNat 3 k.val) = k := fun k => by apply Fin.ext; simp [Fin.ofNat, Nat.mod_eq_of_lt k.isLt]
  simp only [show List.range 3 = [0, 1, 2] from rfl, List.foldl_cons, List.foldl_nil]
  have h0 : Fin.ofNat 3 0 = (0 : Fin 3) := rfl
  have h1 : Fin.ofNat 3 1 = (1 : Fin 3) := rfl
  have h2 : Fin.ofNat 3 2 = (2 : Fin 3) := rfl
  simp only [h0, h1, h2, Fin.forall_fin_succ, Fin.forall_fin_zero_pi]
  by_cases a0 : A.close I.minCoord I.maxCoord (p 0) (q 0) = true <;>
    by_cases a1 : A.close I.minCoord I.maxCoord (p 1) (q 1) = true <;>
      by_cases a2 : A.close I.minCoord I.maxCoord (p 2) (q 2) = true <;>
        simp [a0, a1, a2]

theorem inner {P : Nat → Bool} {l : List Nat} (hl : l.Nodup) (hP : ∀ i ∈ l, ∀ j ∈ l, P i = true → P j = true → i = j) (c : Nat) (o : Int) :
    l.foldl (fun (r : Nat × Int) j => if P j then (r.1 + 1, (j : Int)) else r) (c, o) =
      match l.find? P with
      | some j => (c + 1, (j : Int))
      | none => (c, o) := by
  induction l generalizing c o with
  | nil => rfl
  | cons a l ih =>
    have hl' := List.nodup_cons.1 hl
    rw [List.foldl_cons, ih hl'.2 (fun i hi j hj => hP i (List.mem_cons_of_mem _ hi) j (List.mem_cons_of_mem _ hj))]
    by_cases h : P a = true
    · have hf : l.find? P = none := by
        rw [List.find?_eq_none]
        intro j hj hPj
        have := hP a (List.mem_cons_self) j (List.mem_cons_of_mem _ hj) h hPj
        exact hl'.1 (this ▸ hj)
      rw [hf, List.find?_cons_of_pos h]; simp [h]
    · rw [List.find?_cons_of_neg h]; simp [h]

/-- The corner of face `y` at corner `i` of face `x`. -/
def partnerCorner (A : Arith) (I : Input) (x y : Nat × Nat) (i : Nat) : Option Nat :=
  (List.range (I.numVerts y)).find? fun j => sameVertex A I (I.point x i) (I.point y j)

theorem outer (hP : Proper I dim) (hS : Separated I A) {x y : Nat × Nat} (hx : I.IsFace x) (hy : I.IsFace y) (l : List Nat)
    (hl : ∀ i ∈ l, i < I.numVerts x) (s : Nat × List Int) :
    l.foldl (fun s i =>
      let r := (List.range (I.numVerts y)).foldl (fun (r : Nat × Int) j =>
        if sameVertex A I (I.point x i) (I.point y j) then (r.1 + 1, (j : Int)) else r) (s.1, -1)
      (r.1, s.2 ++ [r.2])) s =
    (s.1 + l.countP (fun i => (partnerCorner A I x y i).isSome),
      s.2 ++ l.map fun i => match partnerCorner A I x y i with | some j => (j : Int) | none => -1) := by
  induction l generalizing s with
  | nil => simp
  | cons i l ih =>
    have hi := hl i (List.mem_cons_self)
    rw [List.foldl_cons, ih (fun k hk => hl k (List.mem_cons_of_mem _ hk))]
    have := inner (P := fun j => sameVertex A I (I.point x i) (I.point y j)) (List.nodup_range (n := I.numVerts y)) (by
      intro j hj k hk h1 h2
      have hj' := List.mem_range.1 hj
      have hk' := List.mem_range.1 hk
      rw [sameVertex_iff hS hx hy ((mem_points hx).2 ⟨i, hi, rfl⟩) ((mem_points hy).2 ⟨_, by assumption, rfl⟩)] at h1 h2
      exact point_inj hP hy hj' hk' (h1.symm.trans h2)) s.1 (-1)
    simp only [this]
    rw [show (List.range (I.numVerts y)).find? (fun j => sameVertex A I (I.point x i) (I.point y j)) = partnerCorner A I x y i from rfl]
    cases h : partnerCorner A I x y i with
    | none => simp [h]
    | some j => simp [h]; omega

theorem matchVertices_eq (hP : Proper I dim) (hS : Separated I A) {x y : Nat × Nat} (hx : I.IsFace x) (hy : I.IsFace y) :
    matchVertices A I x y = ((List.range (I.numVerts x)).countP (fun i => (partnerCorner A I x y i).isSome),
      (List.range (I.numVerts x)).map fun i => match partnerCorner A I x y i with | some j => (j : Int) | none => -1) := by
  rw [matchVertices, outer hP hS hx hy _ (fun i hi => List.mem_range.1 hi)]
  simp

theorem partner_some (hP : Proper I dim) (hS : Separated I A) {x y : Nat × Nat} (hx : I.IsFace x) (hy : I.IsFace y) {i : Nat}
    (hi : i < I.numVerts x) (j : Nat) : partnerCorner A I x y i = some j ↔ j < I.numVerts y ∧ I.point x i = I.point y j := by
  have key : ∀ k < I.numVerts y, (sameVertex A I (I.point x i) (I.point y k) = true ↔ I.point x i = I.point y k) := fun k hk =>
    sameVertex_iff hS hx hy ((mem_points hx).2 ⟨i, hi, rfl⟩) ((mem_points hy).2 ⟨k, hk, rfl⟩)
  constructor
  · intro h
    have h1 := List.mem_range.1 (List.mem_of_find?_eq_some h)
    exact ⟨h1, (key j h1).1 (List.find?_some (p := fun j => sameVertex A I (I.point x i) (I.point y j)) h)⟩
  · rintro ⟨h1, h2⟩
    cases h : partnerCorner A I x y i with
    | none =>
      have := List.find?_eq_none.1 h j (List.mem_range.2 h1)
      exact absurd ((key j h1).2 h2) this
    | some k =>
      have h3 := List.mem_range.1 (List.mem_of_find?_eq_some h)
      have h4 := (key k h3).1 (List.find?_some (p := fun j => sameVertex A I (I.point x i) (I.point y j)) h)
      rw [point_inj hP hy h3 h1 (h4.symm.trans h2)]

theorem isMatch_iff (hP : Proper I dim) (hS : Separated I A) {x y : Nat × Nat} (hx : I.IsFace x) (hy : I.IsFace y) :
    isMatch A I x y = true ↔ SameFace I x y := by
  rw [isMatch, matchVertices_eq hP hS hx hy]
  constructor
  · intro h
    split at h
    · cases h
    rename_i hn
    have hn : I.numVerts x = I.numVerts y := by simpa using hn
    rw [beq_iff_eq] at h
    have h' : (List.range (I.numVerts x)).countP (fun i => (partnerCorner A I x y i).isSome) = (List.range (I.numVerts x)).length := by
      rw [List.length_range]; exact h
    rw [List.countP_eq_length] at h'
    have hsub : I.points x ⊆ I.points y := by
      intro p hp
      obtain ⟨i, hi, rfl⟩ := (mem_points hx).1 hp
      have := h' i (List.mem_range.2 hi)
      obtain ⟨j, hj⟩ := Option.isSome_iff_exists.1 this
      obtain ⟨a, b⟩ := (partner_some hP hS hx hy hi j).1 hj
      exact (mem_points hy).2 ⟨j, a, b.symm⟩
    have hsp := List.subperm_of_subset (hP.nodup x hx) hsub
    have hpm := hsp.perm_of_length_le (by rw [points_length hx, points_length hy, hn])
    exact fun p => hpm.mem_iff
  · intro h
    have hn : I.numVerts x = I.numVerts y := by
      rw [← points_length hx, ← points_length hy]; exact (h.perm hP hx hy).length_eq
    rw [if_neg (by simpa using hn), beq_iff_eq]
    show List.countP _ _ = _
    have : (List.range (I.numVerts x)).countP (fun i => (partnerCorner A I x y i).isSome) = (List.range (I.numVerts x)).length := by
      rw [List.countP_eq_length]
      intro i hi
      have hi' := List.mem_range.1 hi
      obtain ⟨j, hj, hj2⟩ := (mem_points hy).1 ((h _).1 ((mem_points hx).2 ⟨i, hi', rfl⟩))
      rw [(partner_some hP hS hx hy hi' j).2 ⟨hj, hj2.symm⟩]
      rfl
    rw [this, List.length_range]

end T8.JoinByVertices
