/-
Lemmas on the face connections found from the coordinates of the vertices: the orientation and the loop over all faces.
-/
import Verif.Lemmas.JoinByVertices
import Mathlib.Data.List.Induction

namespace T8.JoinByVertices
open Neighbor Geometry

variable {A : Arith} {I : Input} {dim : Nat}

/-! ### The orientation -/

theorem compare_rank (a b : Eclass) (h : a.dim = b.dim) : ∃ r, eclassCompare a b = some r ∧ (r < 0 → rankOf a < rankOf b) ∧
    (r > 0 → rankOf b < rankOf a) ∧ (¬ r < 0 → ¬ r > 0 → a = b) := by
  cases a <;> cases b <;> first | (exfalso; revert h; decide) | exact ⟨_, rfl, by decide, by decide, by decide⟩

theorem IsOrientation.symm {x y : Nat × Nat} {o : Nat} (h : IsOrientation I x y o) : IsOrientation I y x o := by
  obtain ⟨c, c', h1, h2, h3⟩ := h
  exact ⟨c', c, h2, h1, h3.symm⟩

theorem numVerts_same (hP : Proper I dim) {x y : Nat × Nat} (hx : I.IsFace x) (hy : I.IsFace y) (h : SameFace I x y) :
    I.numVerts x = I.numVerts y := by
  rw [← points_length hx, ← points_length hy]; exact (h.perm hP hx hy).length_eq

theorem orientation_spec (hP : Proper I dim) (hS : Separated I A) {x y : Nat × Nat} (hx : I.IsFace x) (hy : I.IsFace y)
    (h : SameFace I x y) : ∃ o : Nat, orientation A I x y = some (o : Int) ∧ o < I.numVerts x ∧ IsOrientation I x y o := by
  have hn := numVerts_same hP hx hy h
  have hpos := numVerts_pos hx
  obtain ⟨c, hc, _⟩ := id hx
  obtain ⟨c', hc', _⟩ := id hy
  have hd : c.dim = c'.dim := (hP.dim_eq c (List.mem_of_getElem? hc)).trans (hP.dim_eq c' (List.mem_of_getElem? hc')).symm
  obtain ⟨r, hr, r1, r2, r3⟩ := compare_rank c c' hd
  have hord : ∀ i < I.numVerts x, ∀ j < I.numVerts y, I.point x i = I.point y j →
      (matchVertices A I x y).2.getD i (-1) = (j : Int) := by
    intro i hi j hj hij
    rw [matchVertices_eq hP hS hx hy]
    simp only [List.getD_eq_getElem?_getD, List.getElem?_map, List.getElem?_range hi, Option.map_some,
      (partner_some hP hS hx hy hi j).2 ⟨hj, hij⟩, Option.getD_some]
  rw [orientation, cls_eq hc, cls_eq hc', hr]
  simp only [Option.bind_eq_bind, Option.bind_some]
  by_cases hm : (if r < 0 then true else if r > 0 then false else decide (x.2 < y.2)) = true
  · rw [if_pos hm]
    obtain ⟨j, hj, hj2⟩ := (mem_points hy).1 ((h _).1 ((mem_points hx).2 ⟨0, hpos, rfl⟩))
    refine ⟨j, ?_, hn ▸ hj, c, c', hc, hc', Or.inl ⟨?_, _, points_get hx hpos, ?_⟩⟩
    · rw [hord 0 hpos j hj hj2.symm]; rfl
    · split at hm
      · exact Or.inl (r1 (by assumption))
      · split at hm
        · cases hm
        · exact Or.inr ⟨r3 (by assumption) (by assumption), (of_decide_eq_true hm).le⟩
    · rw [points_get hy hj, hj2]
  · rw [if_neg hm]
    have hpy : 0 < I.numVerts y := hn ▸ hpos
    obtain ⟨i, hi, hi2⟩ := (mem_points hx).1 ((h _).2 ((mem_points hy).2 ⟨0, hpy, rfl⟩))
    have hf : (List.range (I.numVerts x)).find? (fun i => decide ((matchVertices A I x y).2.getD i (-1) = 0)) = some i := by
      cases hk : (List.range (I.numVerts x)).find? (fun i => decide ((matchVertices A I x y).2.getD i (-1) = 0)) with
      | none =>
        have := List.find?_eq_none.1 hk i (List.mem_range.2 hi)
        rw [hord i hi 0 hpy hi2] at this
        simp at this
      | some k =>
        have hk1 := List.mem_range.1 (List.mem_of_find?_eq_some hk)
        have hk2 := List.find?_some hk
        obtain ⟨j, hj, hj2⟩ := (mem_points hy).1 ((h _).1 ((mem_points hx).2 ⟨k, hk1, rfl⟩))
        rw [hord k hk1 j hj hj2.symm] at hk2
        have : j = 0 := by simpa using hk2
        subst this
        rw [point_inj hP hx hk1 hi (hj2.symm.trans hi2.symm)]
    rw [hf]
    refine ⟨i, rfl, hi, c, c', hc, hc', Or.inr ⟨?_, _, points_get hy hpy, ?_⟩⟩
    · by_cases a : r < 0
      · simp [a] at hm
      · by_cases b : r > 0
        · exact Or.inl (r2 b)
        · simp [a, b] at hm
          exact Or.inr ⟨(r3 a b).symm, hm⟩
    · rw [points_get hx hi, hi2]

/-! ### The loop -/

/-- The invariant of the loop, after the faces of the list `l`. -/
structure Inv (A : Arith) (I : Input) (both : Bool) (l : List (Nat × Nat)) (s : State) : Prop where
  faces : s.faces = l.map fun x => (hash A I x, x)
  sound : ∀ x y o, s.conn x = some (y, o) → x ∈ l ∧ y ∈ l ∧ x ≠ y ∧ SameFace I x y ∧
    ∃ k : Nat, o = k ∧ k < I.numVerts x ∧ IsOrientation I x y k
  one : both = false → ∀ x ∈ l, ∀ y ∈ l, x ≠ y → SameFace I x y → (∃ o, s.conn x = some (y, o)) ∨ ∃ o, s.conn y = some (x, o)
  asymm : both = false → ∀ x y o, s.conn x = some (y, o) → s.conn y = none
  two : both = true → ∀ x ∈ l, ∀ y ∈ l, x ≠ y → SameFace I x y → ∃ o, s.conn x = some (y, o) ∧ s.conn y = some (x, o)

theorem step_inv (hP : Proper I dim) (hS : Separated I A) {both : Bool} {l : List (Nat × Nat)} {s : State} {z : Nat × Nat}
    (hl : ∀ x ∈ l, I.IsFace x) (hz : I.IsFace z) (hn : z ∉ l) (hI : Inv A I both l s) :
    ∃ s', step A I both s z = some s' ∧ Inv A I both (l ++ [z]) s' := by
  have hrange : (s.faces.filter fun e => e.1 = hash A I z).map (·.2) = l.filter fun x => hash A I x = hash A I z := by
    rw [hI.faces, List.filter_map, List.map_map]
    exact List.map_id' _
  have hfaces : s.faces ++ [(hash A I z, z)] = (l ++ [z]).map fun x => (hash A I x, x) := by rw [hI.faces]; simp
  have hzn : s.conn z = none := by
    cases h : s.conn z with
    | none => rfl
    | some r => exact absurd (hI.sound z r.1 r.2 h).1 hn
  rw [step]
  simp only [hrange]
  cases hf : (l.filter fun x => hash A I x = hash A I z).find? (isMatch A I z) with
  | none =>
    have hno : ∀ y ∈ l, ¬ SameFace I z y := by
      intro y hy hsame
      have := List.find?_eq_none.1 hf y (List.mem_filter.2 ⟨hy, by simpa using hash_same hP (hl y hy) hz hsame.symm⟩)
      exact this ((isMatch_iff hP hS hz (hl y hy)).2 hsame)
    refine ⟨_, rfl, hfaces, ?_, ?_, hI.asymm, ?_⟩
    · intro x y o h
      obtain ⟨a, b, c⟩ := hI.sound x y o h
      exact ⟨List.mem_append_left _ a, List.mem_append_left _ b, c⟩
    · intro hb x hx y hy hxy hs
      rcases List.mem_append.1 hx with hx | hx <;> rcases List.mem_append.1 hy with hy | hy
      · exact hI.one hb x hx y hy hxy hs
      · rw [List.mem_singleton.1 hy] at hs; exact absurd hs.symm (hno x hx)
      · rw [List.mem_singleton.1 hx] at hs; exact absurd hs (hno y hy)
      · exact absurd ((List.mem_singleton.1 hx).trans (List.mem_singleton.1 hy).symm) hxy
    · intro hb x hx y hy hxy hs
      rcases List.mem_append.1 hx with hx | hx <;> rcases List.mem_append.1 hy with hy | hy
      · exact hI.two hb x hx y hy hxy hs
      · rw [List.mem_singleton.1 hy] at hs; exact absurd hs.symm (hno x hx)
      · rw [List.mem_singleton.1 hx] at hs; exact absurd hs (hno y hy)
      · exact absurd ((List.mem_singleton.1 hx).trans (List.mem_singleton.1 hy).symm) hxy
  | some y =>
    have hy : y ∈ l := (List.mem_filter.1 (List.mem_of_find?_eq_some hf)).1
    have hyf := hl y hy
    have hzy : z ≠ y := fun h => hn (h ▸ hy)
    have hsame : SameFace I z y := (isMatch_iff hP hS hz hyf).1 (List.find?_some hf)
    obtain ⟨o, ho, hon, hoi⟩ := orientation_spec hP hS hz hyf hsame
    -- no other face has these vertices
    have honly : ∀ w ∈ l, SameFace I z w → w = y := fun w hw hs =>
      hP.manifold z w y hz (hl w hw) hyf (fun h => hn (h ▸ hw)) hzy hs hsame
    have hyonly : ∀ w, I.IsFace w → w ≠ y → SameFace I y w → w = z := fun w hw hwy hs =>
      hP.manifold y w z hyf hw hz hwy.symm hzy.symm hs hsame.symm
    have hyn : s.conn y = none := by
      cases h : s.conn y with
      | none => rfl
      | some r =>
        obtain ⟨_, a, b, c, _⟩ := hI.sound y r.1 r.2 h
        have := hyonly r.1 (hl _ a) (Ne.symm b) c
        exact absurd (this ▸ a) hn
    have hsound : ∀ x w k, s.conn x = some (w, k) → x ∈ l ++ [z] ∧ w ∈ l ++ [z] ∧ x ≠ w ∧ SameFace I x w ∧
        ∃ m : Nat, k = m ∧ m < I.numVerts x ∧ IsOrientation I x w m := by
      intro x w k h
      obtain ⟨a, b, c⟩ := hI.sound x w k h
      exact ⟨List.mem_append_left _ a, List.mem_append_left _ b, c⟩
    have hzl : z ∈ l ++ [z] := by simp
    have hyl : y ∈ l ++ [z] := List.mem_append_left _ hy
    simp only [ho, Option.bind_eq_bind, Option.bind_some]
    refine ⟨_, rfl, hfaces, ?_, ?_, ?_, ?_⟩
    · intro x w k h
      cases both with
      | false =>
        simp only [Bool.false_eq_true, if_false] at h
        by_cases hxz : x = z
        · subst hxz
          rw [Function.update_self] at h
          cases h
          exact ⟨hzl, hyl, hzy, hsame, o, rfl, hon, hoi⟩
        · rw [Function.update_of_ne hxz] at h
          exact hsound x w k h
      | true =>
        simp only [if_true] at h
        by_cases hxy : x = y
        · subst hxy
          rw [Function.update_self] at h
          cases h
          exact ⟨hyl, hzl, hzy.symm, hsame.symm, o, rfl, numVerts_same hP hz hyf hsame ▸ hon, hoi.symm⟩
        · rw [Function.update_of_ne hxy] at h
          by_cases hxz : x = z
          · subst hxz
            rw [Function.update_self] at h
            cases h
            exact ⟨hzl, hyl, hzy, hsame, o, rfl, hon, hoi⟩
          · rw [Function.update_of_ne hxz] at h
            exact hsound x w k h
    · intro hb x hx w hw hxw hs
      subst hb
      simp only [Bool.false_eq_true, if_false]
      rcases List.mem_append.1 hx with hx' | hx' <;> rcases List.mem_append.1 hw with hw' | hw'
      · have a : x ≠ z := fun h => hn (h ▸ hx')
        have b : w ≠ z := fun h => hn (h ▸ hw')
        rw [Function.update_of_ne a, Function.update_of_ne b]
        exact hI.one rfl x hx' w hw' hxw hs
      · obtain rfl := honly x hx' ((List.mem_singleton.1 hw') ▸ hs.symm)
        obtain rfl := List.mem_singleton.1 hw'
        exact Or.inr ⟨o, Function.update_self ..⟩
      · obtain rfl := honly w hw' ((List.mem_singleton.1 hx') ▸ hs)
        obtain rfl := List.mem_singleton.1 hx'
        exact Or.inl ⟨o, Function.update_self ..⟩
      · exact absurd ((List.mem_singleton.1 hx').trans (List.mem_singleton.1 hw').symm) hxw
    · intro hb x w k h
      subst hb
      simp only [Bool.false_eq_true, if_false] at h ⊢
      by_cases hxz : x = z
      · subst hxz
        rw [Function.update_self] at h
        cases h
        rw [Function.update_of_ne hzy.symm, hyn]
      · rw [Function.update_of_ne hxz] at h
        have hw := (hI.sound x w k h).2.1
        have hwz : w ≠ z := fun e => hn (e ▸ hw)
        rw [Function.update_of_ne hwz]
        exact hI.asymm rfl x w k h
    · intro hb x hx w hw hxw hs
      subst hb
      simp only [if_true]
      rcases List.mem_append.1 hx with hx' | hx' <;> rcases List.mem_append.1 hw with hw' | hw'
      · have a : x ≠ z := fun h => hn (h ▸ hx')
        have b : w ≠ z := fun h => hn (h ▸ hw')
        have a' : x ≠ y := fun h => b (hyonly w (hl w hw') (fun e => hxw (h.trans e.symm)) (h ▸ hs))
        have b' : w ≠ y := fun h => a (hyonly x (hl x hx') (fun e => hxw (e.trans h.symm)) (h ▸ hs.symm))
        rw [Function.update_of_ne a', Function.update_of_ne b', Function.update_of_ne a, Function.update_of_ne b]
        exact hI.two rfl x hx' w hw' hxw hs
      · obtain rfl := honly x hx' ((List.mem_singleton.1 hw') ▸ hs.symm)
        obtain rfl := List.mem_singleton.1 hw'
        exact ⟨o, Function.update_self .., by rw [Function.update_of_ne hzy, Function.update_self]⟩
      · obtain rfl := honly w hw' ((List.mem_singleton.1 hx') ▸ hs)
        obtain rfl := List.mem_singleton.1 hx'
        exact ⟨o, by rw [Function.update_of_ne hzy, Function.update_self], Function.update_self ..⟩
      · exact absurd ((List.mem_singleton.1 hx').trans (List.mem_singleton.1 hw').symm) hxw

theorem loop_inv (hP : Proper I dim) (hS : Separated I A) (both : Bool) (l : List (Nat × Nat)) (hl : ∀ x ∈ l, I.IsFace x)
    (hn : l.Nodup) : ∃ s, l.foldlM (step A I both) ⟨[], fun _ => none⟩ = some s ∧ Inv A I both l s := by
  induction l using List.reverseRecOn with
  | nil =>
    refine ⟨_, rfl, rfl, ?_, ?_, ?_, ?_⟩
    · intro x y o h; cases h
    · intro _ x hx; cases hx
    · intro _ x y o h; cases h
    · intro _ x hx; cases hx
  | append_singleton l z ih =>
    rw [List.nodup_append] at hn
    obtain ⟨s, h1, h2⟩ := ih (fun x hx => hl x (List.mem_append_left _ hx)) hn.1
    obtain ⟨s', h3, h4⟩ := step_inv hP hS (fun x hx => hl x (List.mem_append_left _ hx)) (hl z (by simp))
      (fun hz => hn.2.2 z hz z (by simp) rfl) h2
    refine ⟨s', ?_, h4⟩
    rw [List.foldlM_append, h1]
    simp [h3]

/-- The array `conn`. -/
theorem connectivity_inv (hP : Proper I dim) (hS : Separated I A) (both : Bool) :
    ∃ s, connectivity A I both = some s.conn ∧ Inv A I both I.faces s := by
  obtain ⟨s, h1, h2⟩ := loop_inv hP hS both I.faces (fun x hx => mem_faces.1 hx) faces_nodup
  exact ⟨s, by rw [connectivity, h1]; rfl, h2⟩

/-! ### The calls of `t8_cmesh_set_join` -/

theorem mem_joins {s : State} {j : Stash.JoinFace} (h : j ∈ I.faces.filterMap fun x =>
    (s.conn x).map fun r => (⟨x.1, r.1.1, x.2, r.1.2, r.2⟩ : Stash.JoinFace)) :
    ∃ x y o, s.conn x = some (y, o) ∧ j = ⟨(x.1 : Nat), (y.1 : Nat), (x.2 : Nat), (y.2 : Nat), o⟩ := by
  obtain ⟨x, _, hx⟩ := List.mem_filterMap.1 h
  cases hc : s.conn x with
  | none => rw [hc] at hx; cases hx
  | some r =>
    rw [hc] at hx
    cases hx
    exact ⟨x, r.1, r.2, hc, rfl⟩

theorem joins_mem {both : Bool} {s : State} (hI : Inv A I both I.faces s) {x y : Nat × Nat} {o : Int} (h : s.conn x = some (y, o)) :
    (⟨(x.1 : Nat), (y.1 : Nat), (x.2 : Nat), (y.2 : Nat), o⟩ : Stash.JoinFace) ∈ I.faces.filterMap fun x =>
      (s.conn x).map fun r => (⟨x.1, r.1.1, x.2, r.1.2, r.2⟩ : Stash.JoinFace) :=
  List.mem_filterMap.2 ⟨x, (hI.sound x y o h).1, by rw [h]; rfl⟩

/-- In a mesh of one dimension, the number of vertices determines the class of a face. -/
theorem faceType_of_num {c c' : Eclass} {F F' : Nat} {b b' : Eclass} (hd : c.dim = c'.dim) (h : faceType c F = some b)
    (h' : faceType c' F' = some b') (hn : b.numVertices = b'.numVertices) : b = b' := by
  have hb := (faceType_vertices h).2
  have hb' := (faceType_vertices h').2
  have hdd : b.dim = b'.dim := by omega
  revert hdd hn
  have hle : b.dim ≤ 2 := by have : c.dim ≤ 3 := by cases c <;> decide
                             omega
  revert hle
  cases b <;> cases b' <;> decide

theorem joins_conforming (hP : Proper I dim) {s : State} (hI : Inv A I false I.faces s) :
    Conforming dim I.classes (I.faces.filterMap fun x => (s.conn x).map fun r => (⟨x.1, r.1.1, x.2, r.1.2, r.2⟩ : Stash.JoinFace)) := by
  refine ⟨hP.dim_le, hP.dim_eq, ?_, ?_⟩
  · intro j hj
    obtain ⟨x, y, o, hc, rfl⟩ := mem_joins hj
    obtain ⟨hx, hy, hxy, hs, k, rfl, hk, hko⟩ := hI.sound x y o hc
    have hx := mem_faces.1 hx
    have hy := mem_faces.1 hy
    have hn := numVerts_same hP hx hy hs
    obtain ⟨c, hc1, hc2⟩ := hx
    obtain ⟨c', hc1', hc2'⟩ := hy
    obtain ⟨_, b, hb, hbn⟩ := table_length c x.2 hc2
    obtain ⟨_, b', hb', hbn'⟩ := table_length c' y.2 hc2'
    simp only [Input.numVerts, cls_eq hc1, cls_eq hc1', hbn, hbn'] at hn hk
    have : b = b' := faceType_of_num ((hP.dim_eq c (List.mem_of_getElem? hc1)).trans (hP.dim_eq c' (List.mem_of_getElem? hc1')).symm)
      hb hb' hn
    subst this
    refine ⟨c, c', b, ?_, ?_, ?_, ?_, ?_, ?_, ?_, ?_, ?_, ?_, ?_, ?_⟩ <;> simp only [Int.toNat_natCast]
    · omega
    · exact hc1
    · omega
    · exact hc1'
    · omega
    · exact_mod_cast hc2
    · omega
    · exact_mod_cast hc2'
    · exact hb
    · exact hb'
    · omega
    · exact_mod_cast hk
  · rw [List.nodup_flatMap]
    constructor
    · intro j hj
      obtain ⟨x, y, o, hc, rfl⟩ := mem_joins hj
      have := (hI.sound x y o hc).2.2.1
      simp only [sides, List.nodup_cons, List.mem_singleton, Prod.mk.injEq, Int.natCast_inj, List.not_mem_nil, not_false_eq_true,
        List.nodup_nil, and_true]
      exact fun h => this (Prod.ext h.1 h.2)
    · rw [List.pairwise_filterMap]
      refine (faces_nodup (I := I)).imp ?_
      intro x x' hxx j hj j' hj' q hq hq'
      cases hc : s.conn x with
      | none => rw [hc] at hj; cases hj
      | some r =>
        cases hc' : s.conn x' with
        | none => rw [hc'] at hj'; cases hj'
        | some r' =>
          obtain ⟨y, o⟩ := r
          obtain ⟨y', o'⟩ := r'
          rw [hc] at hj; rw [hc'] at hj'
          cases hj; cases hj'
          obtain ⟨hx, hy, hxy, hs, _⟩ := hI.sound x y o hc
          obtain ⟨hx', hy', hxy', hs', _⟩ := hI.sound x' y' o' hc'
          simp only [sides, List.mem_cons, List.not_mem_nil, or_false] at hq hq'
          have conv : ∀ a b : Nat × Nat, ((a.1 : Int), (a.2 : Int)) = ((b.1 : Int), (b.2 : Int)) → a = b := by
            intro a b h
            have h1 := (Prod.mk.inj h).1
            have h2 := (Prod.mk.inj h).2
            exact Prod.ext (by exact_mod_cast h1) (by exact_mod_cast h2)
          rcases hq with hq | hq <;> rcases hq' with hq' | hq'
          · exact hxx (conv _ _ (hq.symm.trans hq'))
          · have := conv x y' (hq.symm.trans hq'); subst this
            rw [hI.asymm rfl x' x o' hc'] at hc; cases hc
          · have := conv y x' (hq.symm.trans hq'); subst this
            rw [hI.asymm rfl x y o hc] at hc'; cases hc'
          · have := conv y y' (hq.symm.trans hq'); subst this
            exact hxx (hP.manifold y x x' (mem_faces.1 hy) (mem_faces.1 hx) (mem_faces.1 hx') hxy.symm hxy'.symm hs.symm hs'.symm)

end T8.JoinByVertices
