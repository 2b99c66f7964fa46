/-
Faces of descendants of the elements of the refinement of a pyramid (C13, C14): children at a face, the face of the parent,
the first and the last descendant at a face.
-/
import Verif.Lemmas.PyramidPlane
import Verif.Lemmas.PyramidLinear
import Verif.Lemmas.StandaloneFaces
import Verif.Lemmas.FaceDescend
import Verif.Model.PyramidFaces

namespace T8.Pyramid
open T8.RTree T8.Bits
open T8.Simplex (look Cls)

/-- The position of a child in its parent, in units of the edge length of the child. -/
def bits (b i : Nat) : Fin 3 → Int := fun k => if (look parenttypeIlocToCid b i).testBit k.val then 1 else 0

/-- The type of a child. -/
abbrev ctype (b i : Nat) : Nat := look parenttypeIlocToType b i

/-- The number of children as a function of the type. -/
def nch (b : Nat) : Nat := if 6 ≤ b then 10 else 8

/-- Face `g` of child `i` lies in face `f` of the parent. -/
def AtFace (b i g f : Nat) : Prop := Par (plane (ctype b i) g) (plane b f) ∧
  (plane (ctype b i) g).form (bits b i) + (plane (ctype b i) g).o = 2 * (plane b f).o

instance (b i g f : Nat) : Decidable (AtFace b i g f) := by unfold AtFace; infer_instance

theorem child_diff {e : Elem} (he : Good e) (hl : e.level < 21) {i : Nat} (hi : i < numChildren e) :
    diff (child e i) e = fun k => bits e.type i k * 2 ^ (21 - (e.level + 1)) := by
  funext k
  have h1 := (child_cube he hl hi).1
  have h2 := Standalone.child_toNat (M := 21) h32 he.cube hl (look parenttypeIlocToCid e.type i) k
  have h3 : ((child e i).tet.x k).toNat = (e.tet.x k).toNat +
      if (look parenttypeIlocToCid e.type i).testBit k.val then 2 ^ (21 - (e.level + 1)) else 0 := by
    have h4 : (child e i).tet.x k = (Standalone.child 21 e.cube (look parenttypeIlocToCid e.type i)).coords k := by
      rw [← h1]; rfl
    rw [h4, h2]; rfl
  rw [diff, h3, bits]
  split <;> push_cast <;> ring

theorem pow_half {l : Nat} (hl : l < 21) : (2 : Int) ^ (21 - l) = 2 * 2 ^ (21 - (l + 1)) := by
  rw [show 21 - l = 21 - (l + 1) + 1 by omega, pow_succ]; ring

theorem inFace_child {e : Elem} (he : Valid e) (hl : e.level < 21) {i : Nat} (hi : i < numChildren e) {g f : Nat} :
    InFace (child e i) g e f ↔ g < nf (ctype e.type i) ∧ f < nf e.type ∧ AtFace e.type i g f := by
  have hty := (child_cube he.good hl hi).2.1
  have hp := two_pow_pos' (21 - (e.level + 1))
  rw [inFace_iff he (Desc.child_self (T := tree) hl hi), hty, child_diff he.good hl hi, form_mul, child_level, pow_half hl, AtFace]
  refine and_congr_right fun _ => and_congr_right fun _ => and_congr_right fun _ => ?_
  rw [← add_mul, mul_left_comm, ← mul_assoc]
  exact ⟨fun h => Int.eq_of_mul_eq_mul_right hp.ne' h, fun h => by rw [h]⟩

theorem InFace.trans {x y e : Elem} {g h f : Nat} (h1 : InFace x g y h) (h2 : InFace y h e f) : InFace x g e f :=
  ⟨h1.1, h2.2.1, h1.2.2.trans h2.2.2⟩

/-- A face of a child is part of a face of the parent, or the parent has corners on both sides of it. -/
def Cuts (b i g : Nat) : Prop := (∃ h < nf b, AtFace b i g h) ∨ ∃ k < nf b, ∃ k' < nf b,
  (plane (ctype b i) g).form (bits b i) + (plane (ctype b i) g).o < 2 * (plane (ctype b i) g).form (uc b k) ∧
  2 * (plane (ctype b i) g).form (uc b k') < (plane (ctype b i) g).form (bits b i) + (plane (ctype b i) g).o

instance (b i g : Nat) : Decidable (Cuts b i g) := by unfold Cuts; infer_instance

theorem cuts_table : ∀ b < 8, ∀ i < nch b, ∀ g < nf (ctype b i), Cuts b i g := by decide +kernel

theorem side_table : ∀ b < 8, ∀ f < nf b, (plane b f).s = 1 ∨ (plane b f).s = -1 := by decide +kernel

/-- If a child has a face in a face of an element, then its parent has, too. -/
theorem between_step {e y : Elem} (he : Valid e) (hy : tree.Desc e y) (hl : y.level < 21) {i : Nat} (hi : i < numChildren y)
    {g f : Nat} (h : InFace (child y i) g e f) : ∃ k, InFace y k e f ∧ InFace (child y i) g y k := by
  have hv : Valid y := hy.valid (T := tree) he
  have hty := (child_cube hv.good hl hi).2.1
  have hp := two_pow_pos' (21 - (y.level + 1))
  have hdc : tree.Desc e (child y i) := hy.step hl hi
  obtain ⟨a1, a2, a3, a4⟩ := (inFace_iff he hdc).1 h
  rw [hty] at a1 a3 a4
  rw [child_level] at a4
  have hd : diff (child y i) e = fun k => bits y.type i k * 2 ^ (21 - (y.level + 1)) + diff y e k := by
    funext k
    have := congrFun (child_diff hv.good hl hi) k
    simp only [diff] at this ⊢
    rw [← this]; ring
  have hd' : (plane (ctype y.type i) g).form (diff (child y i) e) =
      (plane (ctype y.type i) g).form (bits y.type i) * 2 ^ (21 - (y.level + 1)) + (plane (ctype y.type i) g).form (diff y e) := by
    rw [hd, form_add, form_mul]
  rw [hd'] at a4
  have hyt := type_lt hv.good
  have hi' : i < nch y.type := by rw [numChildren_eq] at hi; exact hi
  rcases cuts_table y.type hyt i hi' g a1 with ⟨k, k1, k2⟩ | ⟨k, k1, k', k2, k3, k4⟩
  · refine ⟨k, (inFace_iff he hy).2 ⟨k1, a2, ?_, ?_⟩, (inFace_child hv hl hi).2 ⟨a1, k1, k2⟩⟩
    · exact ⟨k2.1.1.symm.trans a3.1, k2.1.2.1.symm.trans a3.2.1, k2.1.2.2.symm.trans a3.2.2⟩
    · rw [← k2.1.form, ← a4, pow_half hl]
      have := k2.2
      generalize (2 : Int) ^ (21 - (y.level + 1)) = H at *
      generalize (plane (ctype y.type i) g).form (diff y e) = D at *
      generalize (plane (ctype y.type i) g).form (bits y.type i) = B at *
      generalize (plane (ctype y.type i) g).o = o at *
      generalize (plane y.type k).o = o' at *
      have e1 : B = 2 * o' - o := by linarith
      rw [e1]; ring
  · exfalso
    have key : ∀ k < nf y.type, 0 ≤ (plane e.type f).s * (((plane (ctype y.type i) g).form (uc y.type k) * 2 -
        ((plane (ctype y.type i) g).form (bits y.type i) + (plane (ctype y.type i) g).o)) * 2 ^ (21 - (y.level + 1))) := by
      intro k hk
      have h1 := desc_points he hy (corner_mem y hyt hk)
      have h2 := ((points_iff e (type_lt he.good) _).1 h1).2 f a2
      have hr : rel y.tet.x (corner y k) = fun i => uc y.type k i * 2 ^ (21 - y.level) := funext fun i => rel_corner y hyt hk i
      rw [rel_diff y e, form_add, hr, form_mul, ← a3.form, ← a3.form, pow_half hl, ← a4] at h2
      have e1 : (plane (ctype y.type i) g).form (uc y.type k) * (2 * 2 ^ (21 - (y.level + 1))) + (plane (ctype y.type i) g).form (diff y e) -
          ((plane (ctype y.type i) g).form (bits y.type i) * 2 ^ (21 - (y.level + 1)) + (plane (ctype y.type i) g).form (diff y e) +
            (plane (ctype y.type i) g).o * 2 ^ (21 - (y.level + 1))) = ((plane (ctype y.type i) g).form (uc y.type k) * 2 -
        ((plane (ctype y.type i) g).form (bits y.type i) + (plane (ctype y.type i) g).o)) * 2 ^ (21 - (y.level + 1)) := by ring
      rw [e1] at h2
      exact h2
    have b1 := key k k1
    have b2 := key k' k2
    generalize (2 : Int) ^ (21 - (y.level + 1)) = H at *
    rcases side_table e.type (type_lt he.good) f a2 with hs | hs <;> rw [hs] at b1 b2 <;> nlinarith

theorem between {x y e : Elem} {g f : Nat} (he : Valid e) (hy : tree.Desc e y) (hx : tree.Desc y x) (h : InFace x g e f) :
    ∃ k, InFace y k e f ∧ InFace x g y k :=
  between_of_step (T := tree) (In := InFace) (fun _ _ _ _ _ h => ⟨h.1, h.1, Set.Subset.rfl⟩)
    (fun _ _ _ _ _ _ h1 h2 => h1.trans h2) (fun _ _ _ _ _ he hy hl hi h => between_step he hy hl hi h) he hy hx h

/-! ### Children at a face -/

/-- The child ids at a face as a function of the type. -/
def idsOf (b f : Nat) : List Nat :=
  if 6 ≤ b then (typeFaceToChildrenAtFace.getD (b - 6) []).getD f []
  else Simplex.childIdsAtFace .tet ⟨fun _ => 0, 0, b⟩ f

/-- The faces of the children at a face as a function of the type. -/
def childFaceOf (b f k : Nat) : Nat :=
  if 6 ≤ b then ((typeFaceToChildFace.getD (b - 6) []).getD f []).getD k 0
  else Simplex.faceChildFace .tet ⟨fun _ => 0, 0, b⟩ f k

theorem idsOf_eq (e : Elem) (f : Nat) : childIdsAtFace e f = idsOf e.type f := by
  rw [childIdsAtFace, idsOf]; simp only [isPyra_iff]; rfl

theorem childFaceOf_eq (e : Elem) (f k : Nat) : faceChildFace e f k = childFaceOf e.type f k := by
  rw [faceChildFace, childFaceOf]; simp only [isPyra_iff]; rfl

set_option synthInstance.maxHeartbeats 200000 in
theorem ids_table : ∀ b < 8, ∀ f < nf b, (idsOf b f).Pairwise (· < ·) ∧ (idsOf b f).length = 4 ∧
    (∀ i ∈ idsOf b f, i < nch b) ∧ ∀ i < nch b, i ∈ idsOf b f ↔ ∃ g < nf (ctype b i), AtFace b i g f := by
  decide +kernel

set_option synthInstance.maxHeartbeats 200000 in
theorem childFace_table : ∀ b < 8, ∀ f < nf b, ∀ k < 4, childFaceOf b f k < nf (ctype b ((idsOf b f).getD k 0)) ∧
    ∀ g < nf (ctype b ((idsOf b f).getD k 0)), AtFace b ((idsOf b f).getD k 0) g f ↔ g = childFaceOf b f k := by
  decide +kernel

theorem nch_eq (e : Elem) : numChildren e = nch e.type := numChildren_eq e

theorem ids_mem {e : Elem} (he : Valid e) (hl : e.level < 21) {f : Nat} (hf : f < nf e.type) (i : Nat) :
    i ∈ childIdsAtFace e f ↔ i < numChildren e ∧ ∃ g, InFace (child e i) g e f := by
  obtain ⟨_, _, h3, h4⟩ := ids_table _ (type_lt he.good) f hf
  rw [idsOf_eq]
  constructor
  · intro hi
    have hi' := h3 i hi
    obtain ⟨g, hg, ha⟩ := (h4 i hi').1 hi
    rw [← nch_eq] at hi'
    exact ⟨hi', g, (inFace_child he hl hi').2 ⟨hg, hf, ha⟩⟩
  · rintro ⟨hi, g, h5⟩
    obtain ⟨hg, _, ha⟩ := (inFace_child he hl hi).1 h5
    exact (h4 i (by rw [← nch_eq]; exact hi)).2 ⟨g, hg, ha⟩

theorem childFace_iff {e : Elem} (he : Valid e) (hl : e.level < 21) {f : Nat} (hf : f < nf e.type) {k i : Nat}
    (hk : (childIdsAtFace e f)[k]? = some i) (g : Nat) : InFace (child e i) g e f ↔ g = faceChildFace e f k := by
  obtain ⟨_, h2, h3, _⟩ := ids_table _ (type_lt he.good) f hf
  rw [idsOf_eq] at hk
  have hkl : k < 4 := by
    obtain ⟨h, _⟩ := List.getElem?_eq_some_iff.1 hk
    omega
  have hmem := List.mem_of_getElem? hk
  have hi : (idsOf e.type f).getD k 0 = i := by rw [List.getD_eq_getElem?_getD, hk]; rfl
  have hi' : i < numChildren e := by rw [nch_eq]; exact h3 i hmem
  obtain ⟨t1, t2⟩ := childFace_table _ (type_lt he.good) f hf k hkl
  rw [hi] at t1 t2
  rw [inFace_child he hl hi', childFaceOf_eq]
  constructor
  · rintro ⟨a, _, b⟩; exact (t2 g a).1 b
  · rintro rfl; exact ⟨t1, hf, (t2 _ t1).2 rfl⟩

theorem childrenAtFace_eq {e : Elem} (he : Valid e) (hl : e.level < 21) (f : Nat) :
    childrenAtFace e f = (childIdsAtFace e f).map (child e) := by
  rw [childrenAtFace]
  by_cases h : isPyra e = true
  · rw [if_pos h]
  · rw [if_neg h, childIdsAtFace, if_neg h]
    show ((Simplex.childIdsAtFace .tet e.tet f).map (Simplex.child .tet e.tet)).map (fun t => (⟨t, e.switch⟩ : Elem)) = _
    rw [List.map_map]
    refine List.map_congr_left fun i _ => ?_
    rw [child, if_neg h]
    rfl

/-! ### The face of the parent -/

/-- The face of the parent for a tetrahedron with a pyramid as parent, by type, type of the parent and child id. -/
def pfMixed (t tp childId face : Nat) : Option Nat :=
  if t = 0 ∧ tp = 6 then
    if childId = 3 ∧ face = 1 then some 0 else if childId = 5 ∧ face = 0 then some 1 else none
  else if t = 3 ∧ tp = 6 then
    if childId = 1 ∧ face = 1 then some 2 else if childId = 6 ∧ face = 0 then some 3 else none
  else if t = 0 ∧ tp = 7 then
    if childId = 1 ∧ face = 3 then some 1 else if childId = 7 ∧ face = 2 then some 0 else none
  else if t = 3 ∧ tp = 7 then
    if childId = 2 ∧ face = 3 then some 3 else if childId = 5 ∧ face = 2 then some 2 else none
  else none

/-- The face of the parent by the type of the parent and the index of the child. -/
def ppf (b i f : Nat) : Option Nat :=
  if 6 ≤ ctype b i then
    if ((typeFaceToChildrenAtFace.getD (b - 6) []).getD f []).contains i then some f else none
  else if b < 6 then Simplex.parentFaceOf .tet (look parenttypeIlocToCid b i) (ctype b i) f
  else pfMixed (ctype b i) (if (look parenttypeIlocToCid b i).testBit 2 then 7 else 6) i f

theorem faceParentFace_child {e : Elem} (he : Good e) (hl : e.level < 21) {i : Nat} (hi : i < numChildren e) (f : Nat) :
    faceParentFace (child e i) f = ppf e.type i f := by
  have hcid := cubeid_child he hl hi
  have hlv := child_level e i
  have hg := good_child he hl hi
  have hch := childId_child he hl hi
  obtain ⟨h1, h2, _⟩ := child_cube he hl hi
  rw [faceParentFace, if_neg (by omega), ppf]
  by_cases h6 : 6 ≤ ctype e.type i
  · rw [if_pos h6, if_pos ((isPyra_iff _).2 (by rw [h2]; exact h6)), parent_child he hl hi, hch]
  · rw [if_neg h6, if_neg (by rw [isPyra_iff, h2]; exact h6)]
    by_cases hb : 6 ≤ e.type
    · have hs := (child_pyra hb i).2.2
      rw [if_neg h6] at hs
      rw [if_neg (show ¬ e.type < 6 by omega), if_neg (show ¬ ((child e i).level : Int) > (child e i).switch by rw [hs, hlv]; simp),
        tetparentType_eq hg.cube (by omega), hlv, hcid, hch, h2]
      rfl
    · rw [if_pos (show e.type < 6 by omega), if_pos]
      · rw [Simplex.parentFaceOf_eq (c := .tet) (by show 0 < (child e i).level; omega)]
        show Simplex.parentFaceOf .tet (computeCubeid (child e i) (child e i).level) (child e i).type f = _
        rw [hlv, hcid, h2]
      · rw [child_tet hb]
        have := (he.tet hb).2.2
        show ((e.level + 1 : Nat) : Int) > e.switch
        omega

set_option synthInstance.maxHeartbeats 200000 in
theorem ppf_table : ∀ b < 8, ∀ i < nch b, ∀ g < nf (ctype b i), (∀ f < nf b, ppf b i g = some f ↔ AtFace b i g f) ∧
    (ppf b i g).getD 0 < nf b := by decide +kernel

theorem parentFace_iff {e : Elem} (he : Valid e) (hl : 0 < e.level) {g : Nat} (hg : g < nf e.type) (f : Nat) :
    faceParentFace e g = some f ↔ f < nf (parent e).type ∧ Face e g ⊆ Face (parent e) f := by
  obtain ⟨p, i, p1, p2, p3, rfl⟩ := valid_cases he hl
  rw [parent_child p1.good p2 p3, faceParentFace_child p1.good p2 p3]
  rw [(child_cube p1.good p2 p3).2.1] at hg
  obtain ⟨t1, t2⟩ := ppf_table _ (type_lt p1.good) i (by rw [← nch_eq]; exact p3) g hg
  have key : ∀ f, InFace (child p i) g p f ↔ f < nf p.type ∧ Face (child p i) g ⊆ Face p f := by
    intro f
    rw [InFace]
    refine ⟨fun h => h.2, fun h => ⟨?_, h⟩⟩
    show g < nf (child p i).type
    rw [(child_cube p1.good p2 p3).2.1]; exact hg
  rw [← key, inFace_child p1 p2 p3]
  constructor
  · intro h
    rw [h] at t2
    exact ⟨hg, t2, (t1 f t2).1 h⟩
  · rintro ⟨_, h2, h3⟩
    exact (t1 f h2).2 h3

/-! ### The first and the last descendant at a face -/

/-- `n` times the child `i`. -/
def rep (i : Nat) : Nat → Elem → Elem
  | 0, e => e
  | n + 1, e => rep i n (child e i)

theorem rep_succ (i n : Nat) (e : Elem) : rep i (n + 1) e = child (rep i n e) i := by
  induction n generalizing e with
  | zero => rfl
  | succ n ih => rw [rep, ih]; rfl

/-- The first and the last child at a face. -/
def firstId (b f : Nat) : Nat := (idsOf b f).headD 0

def lastId (b f : Nat) : Nat := (idsOf b f).getLastD 0

set_option synthInstance.maxHeartbeats 200000 in
theorem ends_table : ∀ b < 8, ∀ f < nf b,
    (firstId b f < nch b ∧ ctype b (firstId b f) = b ∧ AtFace b (firstId b f) f f ∧ ∀ j ∈ idsOf b f, firstId b f ≤ j) ∧
    (lastId b f < nch b ∧ ctype b (lastId b f) = b ∧ AtFace b (lastId b f) f f ∧ ∀ j ∈ idsOf b f, j ≤ lastId b f) := by
  decide +kernel

theorem rep_spec {e : Elem} (he : Valid e) {f : Nat} (hf : f < nf e.type) {i : Nat} (hi : i < nch e.type)
    (hc : ctype e.type i = e.type) (ha : AtFace e.type i f f) {n : Nat} (hn : e.level + n ≤ 21) :
    tree.Desc e (rep i n e) ∧ (rep i n e).level = e.level + n ∧ (rep i n e).type = e.type ∧ InFace (rep i n e) f e f := by
  induction n with
  | zero => exact ⟨Desc.refl, rfl, rfl, hf, hf, Set.Subset.rfl⟩
  | succ n ih =>
    obtain ⟨h1, h2, h3, h4⟩ := ih (by omega)
    have hv : Valid (rep i n e) := h1.valid (T := tree) he
    have hi' : i < numChildren (rep i n e) := by rw [nch_eq, h3]; exact hi
    have hl : (rep i n e).level < 21 := by omega
    have hty := (child_cube hv.good hl hi').2.1
    rw [h3, show look parenttypeIlocToType e.type i = e.type from hc] at hty
    rw [rep_succ]
    refine ⟨h1.step hl hi', by rw [child_level]; omega, hty, InFace.trans ((inFace_child hv hl hi').2 ?_) h4⟩
    rw [h3, hc]
    exact ⟨hf, hf, ha⟩

theorem mem_ids {y : Elem} (hy : Valid y) (hl : y.level < 21) {e : Elem} {h f i : Nat} (hin : InFace y h e f)
    (hi : i < numChildren y) (hg : ∃ g, InFace (child y i) g y h) : i ∈ childIdsAtFace y h :=
  (ids_mem hy hl hin.1 i).2 ⟨hi, hg⟩

theorem first_spec {e : Elem} (he : Valid e) {f : Nat} (hf : f < nf e.type) {L : Nat} (hl : e.level ≤ L) (hL : L ≤ 21) :
    tree.Desc e (rep (firstId e.type f) (L - e.level) e) ∧ (rep (firstId e.type f) (L - e.level) e).level = L ∧
    (∃ g, InFace (rep (firstId e.type f) (L - e.level) e) g e f) ∧
    ∀ x g, tree.Desc e x → x.level = L → InFace x g e f →
      x = rep (firstId e.type f) (L - e.level) e ∨ tree.Before (rep (firstId e.type f) (L - e.level) e) x := by
  obtain ⟨t1, t2, t3, t4⟩ := (ends_table _ (type_lt he.good) f hf).1
  have hr := fun n (hn : e.level + n ≤ 21) => rep_spec he hf t1 t2 t3 hn
  refine first_of_step (T := tree) (In := InFace) (ids := childIdsAtFace) (e := e) (f := f)
    (fun x g y h1 h2 h3 => between he h1 h2 h3) (fun x g g' h1 h2 h3 => inFace_unique he h1 h2 h3)
    (fun y h i h1 h2 h3 h4 h5 => mem_ids (h1.valid (T := tree) he) h2 h3 h4 h5) he
    (fun L => rep (firstId e.type f) (L - e.level) e) (by show rep _ (e.level - e.level) e = e; rw [Nat.sub_self]; rfl)
    ⟨hf, hf, Set.Subset.rfl⟩ ?_ hl hL
  intro L hl hL g h1 h2 h3
  replace hl : e.level ≤ L := hl
  replace hL : L < 21 := hL
  obtain ⟨r1, r2, r3, r4⟩ := hr (L - e.level) (by omega)
  obtain ⟨s1, s2, s3, s4⟩ := hr (L - e.level + 1) (by omega)
  have : g = f := inFace_unique he h1 h3 r4
  subst this
  have hs : L + 1 - e.level = L - e.level + 1 := by omega
  refine ⟨firstId e.type g, ?_, ?_, ⟨g, ?_⟩, fun j hj => ?_⟩
  · show _ < numChildren _
    rw [nch_eq, r3]; exact t1
  · show rep _ (L + 1 - e.level) e = child _ _
    rw [hs, rep_succ]
  · show InFace (rep _ (L + 1 - e.level) e) _ _ _
    rw [hs]; exact s4
  · have hj' : j ∈ idsOf e.type g := by
      rw [idsOf_eq, r3] at hj; exact hj
    exact t4 j hj'

theorem last_spec {e : Elem} (he : Valid e) {f : Nat} (hf : f < nf e.type) {L : Nat} (hl : e.level ≤ L) (hL : L ≤ 21) :
    tree.Desc e (rep (lastId e.type f) (L - e.level) e) ∧ (rep (lastId e.type f) (L - e.level) e).level = L ∧
    (∃ g, InFace (rep (lastId e.type f) (L - e.level) e) g e f) ∧
    ∀ x g, tree.Desc e x → x.level = L → InFace x g e f →
      x = rep (lastId e.type f) (L - e.level) e ∨ tree.Before x (rep (lastId e.type f) (L - e.level) e) := by
  obtain ⟨t1, t2, t3, t4⟩ := (ends_table _ (type_lt he.good) f hf).2
  have hr := fun n (hn : e.level + n ≤ 21) => rep_spec he hf t1 t2 t3 hn
  refine last_of_step (T := tree) (In := InFace) (ids := childIdsAtFace) (e := e) (f := f)
    (fun x g y h1 h2 h3 => between he h1 h2 h3) (fun x g g' h1 h2 h3 => inFace_unique he h1 h2 h3)
    (fun y h i h1 h2 h3 h4 h5 => mem_ids (h1.valid (T := tree) he) h2 h3 h4 h5) he
    (fun L => rep (lastId e.type f) (L - e.level) e) (by show rep _ (e.level - e.level) e = e; rw [Nat.sub_self]; rfl)
    ⟨hf, hf, Set.Subset.rfl⟩ ?_ hl hL
  intro L hl hL g h1 h2 h3
  replace hl : e.level ≤ L := hl
  replace hL : L < 21 := hL
  obtain ⟨r1, r2, r3, r4⟩ := hr (L - e.level) (by omega)
  obtain ⟨s1, s2, s3, s4⟩ := hr (L - e.level + 1) (by omega)
  have : g = f := inFace_unique he h1 h3 r4
  subst this
  have hs : L + 1 - e.level = L - e.level + 1 := by omega
  refine ⟨lastId e.type g, ?_, ?_, ⟨g, ?_⟩, fun j hj => ?_⟩
  · show _ < numChildren _
    rw [nch_eq, r3]; exact t1
  · show rep _ (L + 1 - e.level) e = child _ _
    rw [hs, rep_succ]
  · show InFace (rep _ (L + 1 - e.level) e) _ _ _
    rw [hs]; exact s4
  · have hj' : j ∈ idsOf e.type g := by
      rw [idsOf_eq, r3] at hj; exact hj
    exact t4 j hj'

theorem rep_zero_eq (e : Elem) (n : Nat) : tree.firstDesc e n = rep 0 n e := by
  induction n generalizing e with
  | zero => rfl
  | succ n ih => exact ih (child e 0)

theorem rep_last_eq {e : Elem} (he : Valid e) {n : Nat} (hn : e.level + n ≤ 21) :
    tree.lastDesc e n = rep (nch e.type - 1) n e := by
  induction n generalizing e with
  | zero => rfl
  | succ n ih =>
    have h0 : numChildren e - 1 < numChildren e := by rw [numChildren_eq]; split <;> omega
    have h := ih (valid_child he (by omega) h0) (by rw [child_level]; omega)
    rw [(child_last he.good (by omega)).2.1, nch_eq] at h
    show tree.lastDesc (child e (numChildren e - 1)) n = rep (nch e.type - 1) n (child e (nch e.type - 1))
    rw [nch_eq]
    exact h

theorem cornerLoop_eq (i n : Nat) (d : Option Elem) (e : Elem) :
    cornerLoop i n d e = if n = 0 then d else some (rep i n e) := by
  induction n generalizing d e with
  | zero => rfl
  | succ n ih =>
    rw [cornerLoop, ih, if_neg (Nat.succ_ne_zero n)]
    split
    · next h => subst h; rfl
    · rfl

set_option synthInstance.maxHeartbeats 200000 in
set_option synthInstance.maxSize 1000 in
theorem corner_id_table : ∀ b < 6, ∀ f < 4,
    (Simplex.firstFaceCorner .tet f = 0 → firstId b f = 0) ∧
    (¬ Simplex.firstFaceCorner .tet f = 0 → f = 0 ∧ (Simplex.firstFaceCorner .tet f = 1 ∨ Simplex.firstFaceCorner .tet f = 2) ∧
      look (Simplex.parenttypeBeyidToIloc .tet) b (Simplex.firstFaceCorner .tet f) = firstId b f) ∧
    Simplex.lastFaceCorner .tet f ≠ 0 ∧
    (Simplex.lastFaceCorner .tet f = 1 ∨ Simplex.lastFaceCorner .tet f = 2 → f = 3 ∧
      look (Simplex.parenttypeBeyidToIloc .tet) b (Simplex.lastFaceCorner .tet f) = lastId b f) ∧
    (¬ (Simplex.lastFaceCorner .tet f = 1 ∨ Simplex.lastFaceCorner .tet f = 2) → lastId b f = 8 - 1) := by decide +kernel

theorem first_tet {e : Elem} (he : Valid e) (h : ¬ 6 ≤ e.type) {f : Nat} (hf : f < 4) {L : Nat} (hl : e.level ≤ L) (hL : L ≤ 21)
    (hx : L = e.level → f ≠ 0) : firstDescendantFace e f L = some (rep (firstId e.type f) (L - e.level) e) := by
  obtain ⟨t1, t2, _⟩ := corner_id_table e.type (by omega) f hf
  rw [firstDescendantFace, if_pos (by rw [Bool.not_eq_true', Bool.eq_false_iff, ne_eq, isPyra_iff]; exact h), cornerDescendant]
  by_cases h0 : Simplex.firstFaceCorner .tet f = 0
  · rw [if_pos h0, t1 h0, firstDescendant_eq he hl hL, rep_zero_eq]
  · obtain ⟨a1, a2, a3⟩ := t2 h0
    rw [if_neg h0, if_pos a2, cornerLoop_eq, a3, if_neg]
    intro h1
    exact hx (by omega) a1

theorem last_tet {e : Elem} (he : Valid e) (h : ¬ 6 ≤ e.type) {f : Nat} (hf : f < 4) {L : Nat} (hl : e.level ≤ L) (hL : L ≤ 21)
    (hx : L = e.level → f ≠ 3) : lastDescendantFace e f L = some (rep (lastId e.type f) (L - e.level) e) := by
  obtain ⟨_, _, t0, t1, t2⟩ := corner_id_table e.type (by omega) f hf
  rw [lastDescendantFace, if_pos (by rw [Bool.not_eq_true', Bool.eq_false_iff, ne_eq, isPyra_iff]; exact h), cornerDescendant,
    if_neg t0]
  by_cases h0 : Simplex.lastFaceCorner .tet f = 1 ∨ Simplex.lastFaceCorner .tet f = 2
  · obtain ⟨a1, a2⟩ := t1 h0
    rw [if_pos h0, cornerLoop_eq, a2, if_neg]
    intro h1
    exact hx (by omega) a1
  · rw [if_neg h0, t2 h0, lastDescendant_eq he hl hL, rep_last_eq he (by omega), nch, if_neg h]

/-- The coordinates of the descendants of pyramids that lie in the same corner on every level. -/
theorem rep_pyra {e : Elem} (he : Valid e) (h : 6 ≤ e.type) {i : Nat} (hi : i < 10) (hc : ctype e.type i = e.type) {n : Nat}
    (hn : e.level + n ≤ 21) : (∀ k, ((rep i n e).tet.x k).toNat = (e.tet.x k).toNat +
        if (look parenttypeIlocToCid e.type i).testBit k.val then 2 ^ (21 - e.level) - 2 ^ (21 - (e.level + n)) else 0) ∧
      (rep i n e).level = e.level + n ∧ (rep i n e).type = e.type ∧ (rep i n e).switch = e.switch ∧ Valid (rep i n e) := by
  induction n with
  | zero => exact ⟨fun k => by simp [rep], rfl, rfl, rfl, he⟩
  | succ n ih =>
    obtain ⟨h1, h2, h3, h4, h5⟩ := ih (by omega)
    have hl : (rep i n e).level < 21 := by omega
    have h6 : 6 ≤ (rep i n e).type := by omega
    have hx := child_x h5.good h6 hl i
    obtain ⟨c1, c2, c3⟩ := child_pyra h6 i
    have hi' : i < numChildren (rep i n e) := by rw [numChildren_eq, if_pos h6]; exact hi
    rw [h3] at c2 c3 hx
    rw [h2] at hx
    rw [rep_succ]
    refine ⟨fun k => ?_, by rw [child_level]; omega, c2.trans hc, ?_, valid_child h5 hl hi'⟩
    · rw [hx k, h1 k]
      have hd : 2 ^ (21 - (e.level + n)) = 2 * 2 ^ (21 - (e.level + n + 1)) := half (by omega)
      have hle : 2 ^ (21 - (e.level + n)) ≤ 2 ^ (21 - e.level) := Nat.pow_le_pow_right (by omega) (by omega)
      rw [← Nat.add_assoc e.level n 1]
      split <;> omega
    · rw [c3, if_pos (by show 6 ≤ ctype e.type i; rw [hc]; exact h)]
      exact (he.good.pyra h).2.symm

theorem or_offset {e : Elem} (he : Good e) {L : Nat} (hl : e.level ≤ L) (k : Fin 3) :
    (e.tet.x k ||| (len e.level - len L)).toNat = (e.tet.x k).toNat + (2 ^ (21 - e.level) - 2 ^ (21 - L)) := by
  have hle : 2 ^ (21 - L) ≤ 2 ^ (21 - e.level) := Nat.pow_le_pow_right (by omega) (by omega)
  have hpos : 0 < 2 ^ (21 - L) := Nat.two_pow_pos _
  rw [BitVec.toNat_or, BitVec.toNat_sub_of_le (by rw [BitVec.le_def, len_toNat, len_toNat]; exact hle), len_toNat, len_toNat]
  exact or_eq_add (he.cube.2 k).2 (b := 2 ^ (21 - e.level) - 2 ^ (21 - L)) (by show _ < 2 ^ (21 - e.level); omega)

/-- A pyramid with the given coordinates is the descendant in the corner. -/
theorem eq_rep {e : Elem} (he : Valid e) (h : 6 ≤ e.type) {i : Nat} (hi : i < 10) (hc : ctype e.type i = e.type) {L : Nat}
    (hl : e.level ≤ L) (hL : L ≤ 21) {y : Fin 3 → BitVec 32}
    (hy : ∀ k, y k = if (look parenttypeIlocToCid e.type i).testBit k.val then e.tet.x k ||| (len e.level - len L) else e.tet.x k) :
    (⟨⟨y, L, e.type⟩, e.switch⟩ : Elem) = rep i (L - e.level) e := by
  obtain ⟨h1, h2, h3, h4, _⟩ := rep_pyra he h hi hc (n := L - e.level) (by omega)
  rw [show e.level + (L - e.level) = L by omega] at h1 h2
  refine Elem.ext' (Standalone.Elem.ext' (fun k => ?_) h2.symm) h3.symm h4.symm
  show y k = (rep i (L - e.level) e).tet.x k
  apply BitVec.eq_of_toNat_eq
  rw [h1 k, hy k]
  split
  · rw [or_offset he.good hl]
  · rfl

set_option synthInstance.maxHeartbeats 200000 in
set_option synthInstance.maxSize 1000 in
theorem first_cid_table : ∀ b, b = 6 ∨ b = 7 → ∀ f < 5, ∀ k < 3,
    ((look parenttypeIlocToCid b (firstId b f)).testBit k = true ↔ (b = 6 ∧ f = 1 ∧ k = 0) ∨ (b = 6 ∧ f = 3 ∧ k = 1) ∨
      (b = 7 ∧ f = 4 ∧ k = 2)) ∧
    ((look parenttypeIlocToCid b (lastId b f)).testBit k = true ↔ ((b = 6 ∧ f ≠ 4) ∨ (b = 7 ∧ (f = 0 ∨ f = 2 ∨ f = 4))) ∨
      (b = 7 ∧ f = 1 ∧ (k = 0 ∨ k = 2)) ∨ (b = 7 ∧ f = 3 ∧ (k = 1 ∨ k = 2)) ∨ (b = 6 ∧ f = 4 ∧ (k = 0 ∨ k = 1))) := by
  have : ∀ b ∈ [6, 7], ∀ f < 5, ∀ k < 3,
    ((look parenttypeIlocToCid b (firstId b f)).testBit k = true ↔ (b = 6 ∧ f = 1 ∧ k = 0) ∨ (b = 6 ∧ f = 3 ∧ k = 1) ∨
      (b = 7 ∧ f = 4 ∧ k = 2)) ∧
    ((look parenttypeIlocToCid b (lastId b f)).testBit k = true ↔ ((b = 6 ∧ f ≠ 4) ∨ (b = 7 ∧ (f = 0 ∨ f = 2 ∨ f = 4))) ∨
      (b = 7 ∧ f = 1 ∧ (k = 0 ∨ k = 2)) ∨ (b = 7 ∧ f = 3 ∧ (k = 1 ∨ k = 2)) ∨ (b = 6 ∧ f = 4 ∧ (k = 0 ∨ k = 1))) := by
    decide +kernel
  intro b hb
  exact this b (by simpa using hb)

theorem first_pyra {e : Elem} (he : Valid e) (h : 6 ≤ e.type) {f : Nat} (hf : f < 5) {L : Nat} (hl : e.level ≤ L) (hL : L ≤ 21) :
    firstDescendantFace e f L = some (rep (firstId e.type f) (L - e.level) e) := by
  have hb := (he.good.pyra h).1
  have hfn : f < nf e.type := by rw [nf, if_pos h]; exact hf
  obtain ⟨t1, t2, _, _⟩ := (ends_table _ (type_lt he.good) f hfn).1
  rw [nch, if_pos h] at t1
  have tb := fun k hk => (first_cid_table e.type hb f hf k hk).1
  rw [firstDescendantFace, if_neg (by rw [Bool.not_eq_true', Bool.eq_false_iff, ne_eq, isPyra_iff, not_not]; exact h)]
  by_cases h21 : e.level = 21
  · rw [if_pos (show e.level = maxLevel from h21), show L - e.level = 0 by omega]; rfl
  rw [if_neg (show ¬ e.level = maxLevel from h21)]
  split
  · next hc =>
    obtain ⟨c1, c2, c3⟩ := child_pyra h 0
    have hx := child_x he.good h (by omega) 0
    have hz : look parenttypeIlocToCid e.type 0 = 0 ∧ ctype e.type 0 = e.type := by rcases hb with hb | hb <;> rw [hb] <;> decide
    rw [hz.1] at hx
    have e1 : (child e 0).tet.x = e.tet.x := by
      funext k
      apply BitVec.eq_of_toNat_eq
      rw [hx k]; simp
    have e2 : (child e 0).tet.type = e.type := c2.trans hz.2
    have e3 : (child e 0).switch = e.switch := by
      rw [c3, if_pos (by show 6 ≤ ctype e.type 0; rw [hz.2]; exact h)]; exact (he.good.pyra h).2.symm
    show some (⟨⟨(child e 0).tet.x, L, (child e 0).tet.type⟩, (child e 0).switch⟩ : Elem) = _
    rw [e1, e2, e3]
    congr 1
    refine eq_rep he h t1 t2 hl hL fun k => ?_
    rw [if_neg]
    rw [tb k.val k.isLt]
    omega
  · next hc =>
    simp only []
    congr 1
    refine eq_rep he h t1 t2 hl hL fun k => ?_
    have := tb k.val k.isLt
    by_cases hk : (look parenttypeIlocToCid e.type (firstId e.type f)).testBit k.val = true
    · rw [if_pos hk]
      rcases this.1 hk with ⟨a1, a2, a3⟩ | ⟨a1, a2, a3⟩ | ⟨a1, a2, a3⟩
      · rw [if_pos ⟨a1, a2⟩, orAt, if_pos a3]
      · rw [if_neg (by omega), if_pos ⟨a1, a2⟩, orAt, if_pos a3]
      · rw [if_neg (by omega), if_neg (by omega), if_pos ⟨a1, a2⟩, orAt, if_pos a3]
    · rw [if_neg hk]
      rw [this] at hk
      split
      · rw [orAt, if_neg (by omega)]
      · split
        · rw [orAt, if_neg (by omega)]
        · split
          · rw [orAt, if_neg (by omega)]
          · rfl

theorem last_ends_table : ∀ b, b = 6 ∨ b = 7 → ∀ f < 5, ((b = 6 ∧ f ≠ 4) ∨ (b = 7 ∧ (f = 0 ∨ f = 2 ∨ f = 4))) → lastId b f = 9 := by
  have : ∀ b ∈ [6, 7], ∀ f < 5, ((b = 6 ∧ f ≠ 4) ∨ (b = 7 ∧ (f = 0 ∨ f = 2 ∨ f = 4))) → lastId b f = 9 := by decide +kernel
  intro b hb
  exact this b (by simpa using hb)

theorem last_pyra {e : Elem} (he : Valid e) (h : 6 ≤ e.type) {f : Nat} (hf : f < 5) {L : Nat} (hl : e.level ≤ L) (hL : L ≤ 21) :
    lastDescendantFace e f L = some (rep (lastId e.type f) (L - e.level) e) := by
  have hb := (he.good.pyra h).1
  have hfn : f < nf e.type := by rw [nf, if_pos h]; exact hf
  obtain ⟨t1, t2, _, _⟩ := (ends_table _ (type_lt he.good) f hfn).2
  rw [nch, if_pos h] at t1
  have tb := fun k hk => (first_cid_table e.type hb f hf k hk).2
  rw [lastDescendantFace, if_neg (by rw [Bool.not_eq_true', Bool.eq_false_iff, ne_eq, isPyra_iff, not_not]; exact h)]
  simp only []
  by_cases hc : (e.type = 6 ∧ f ≠ 4) ∨ (e.type = 7 ∧ (f = 0 ∨ f = 2 ∨ f = 4))
  · rw [if_pos hc, last_ends_table e.type hb f hf hc, lastDescendant_eq he hl hL, rep_last_eq he (by omega), nch, if_pos h]
  · rw [if_neg hc]
    congr 1
    refine eq_rep he h t1 t2 hl hL fun k => ?_
    have := tb k.val k.isLt
    by_cases hk : (look parenttypeIlocToCid e.type (lastId e.type f)).testBit k.val = true
    · rw [if_pos hk]
      rcases (this.1 hk).resolve_left hc with ⟨a1, a2, a3⟩ | ⟨a1, a2, a3⟩ | ⟨a1, a2, a3⟩
      · rw [if_pos ⟨a1, a2⟩, orAt, orAt]
        split
        · rw [if_neg (by omega)]
        · rw [if_pos (by omega)]
      · rw [if_neg (by omega), if_pos ⟨a1, a2⟩, orAt, orAt]
        split
        · rw [if_neg (by omega)]
        · rw [if_pos (by omega)]
      · rw [if_neg (by omega), if_neg (by omega), if_pos ⟨a1, a2⟩, orAt, orAt]
        split
        · rw [if_neg (by omega)]
        · rw [if_pos (by omega)]
    · rw [if_neg hk]
      rw [this] at hk
      split
      · rw [orAt, if_neg (by omega), orAt, if_neg (by omega)]
      · split
        · rw [orAt, if_neg (by omega), orAt, if_neg (by omega)]
        · split
          · rw [orAt, if_neg (by omega), orAt, if_neg (by omega)]
          · rfl

end T8.Pyramid
