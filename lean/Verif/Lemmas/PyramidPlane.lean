/-
Faces of the elements of the refinement of a pyramid as intersections with planes (C10, C11, C13, C14).

Every face lies in a plane `F q = o h`, where `q` are the coordinates relative to the anchor, `h` is the edge length, `o` is 0
or 1, and `F` is a coordinate or a difference of two coordinates. Questions about faces of an element and of its descendants
become questions about tables of these forms.
-/
import Verif.Spec.PyramidFaces
import Verif.Lemmas.PyramidInside
import Verif.Lemmas.PyramidPoints
import Verif.Lemmas.SimplexUnique

namespace T8.Pyramid
open T8.RTree T8.Bits
open T8.Simplex (look Cls)

/-- Coefficients of the form, and the side of the plane on which the element lies: `s (F q - o h) ≥ 0`. -/
structure Plane where
  a : Int
  b : Int
  c : Int
  o : Int
  s : Int
deriving DecidableEq

def Plane.form (F : Plane) (q : Fin 3 → Int) : Int := F.a * q 0 + F.b * q 1 + F.c * q 2

/-- The planes of the faces of the elements, by type and face. -/
def planes : List (List Plane) :=
  [[⟨1, 0, 0, 1, -1⟩, ⟨1, 0, -1, 0, 1⟩, ⟨0, 1, -1, 0, -1⟩, ⟨0, 1, 0, 0, 1⟩],
   [⟨1, 0, 0, 1, -1⟩, ⟨1, -1, 0, 0, 1⟩, ⟨0, 1, -1, 0, 1⟩, ⟨0, 0, 1, 0, 1⟩],
   [⟨0, 1, 0, 1, -1⟩, ⟨1, -1, 0, 0, -1⟩, ⟨1, 0, -1, 0, 1⟩, ⟨0, 0, 1, 0, 1⟩],
   [⟨0, 1, 0, 1, -1⟩, ⟨0, 1, -1, 0, 1⟩, ⟨1, 0, -1, 0, -1⟩, ⟨1, 0, 0, 0, 1⟩],
   [⟨0, 0, 1, 1, -1⟩, ⟨0, 1, -1, 0, -1⟩, ⟨1, -1, 0, 0, -1⟩, ⟨1, 0, 0, 0, 1⟩],
   [⟨0, 0, 1, 1, -1⟩, ⟨1, 0, -1, 0, -1⟩, ⟨1, -1, 0, 0, 1⟩, ⟨0, 1, 0, 0, 1⟩],
   [⟨1, 0, -1, 0, 1⟩, ⟨1, 0, 0, 1, -1⟩, ⟨0, 1, -1, 0, 1⟩, ⟨0, 1, 0, 1, -1⟩, ⟨0, 0, 1, 0, 1⟩],
   [⟨0, 1, -1, 0, -1⟩, ⟨0, 1, 0, 0, 1⟩, ⟨1, 0, -1, 0, -1⟩, ⟨1, 0, 0, 0, 1⟩, ⟨0, 0, 1, 1, -1⟩]]

def plane (b f : Nat) : Plane := (planes.getD b []).getD f ⟨0, 0, 0, 0, 0⟩

/-- The coordinates of the corners in units of the edge length. -/
def unitCorners : List (List (List Int)) :=
  [[[0, 0, 0], [1, 0, 0], [1, 0, 1], [1, 1, 1]], [[0, 0, 0], [1, 0, 0], [1, 1, 0], [1, 1, 1]],
   [[0, 0, 0], [0, 1, 0], [1, 1, 0], [1, 1, 1]], [[0, 0, 0], [0, 1, 0], [0, 1, 1], [1, 1, 1]],
   [[0, 0, 0], [0, 0, 1], [0, 1, 1], [1, 1, 1]], [[0, 0, 0], [0, 0, 1], [1, 0, 1], [1, 1, 1]],
   [[0, 0, 0], [1, 0, 0], [0, 1, 0], [1, 1, 0], [1, 1, 1]], [[0, 0, 1], [1, 0, 1], [0, 1, 1], [1, 1, 1], [0, 0, 0]]]

def uc (b k : Nat) : Fin 3 → Int := fun i => ((unitCorners.getD b []).getD k []).getD i.val 0

/-- The coordinates relative to the anchor of a cube. -/
def rel (x : Fin 3 → BitVec 32) (p : Fin 3 → Nat) : Fin 3 → Int := fun i => (p i : Int) - ((x i).toNat : Int)

/-- The points of an element, by the planes of its faces and the cube. -/
theorem points_iff (e : Elem) (ht : e.type < 8) (p : Fin 3 → Nat) : p ∈ Points e ↔
    (∀ i, 0 ≤ rel e.tet.x p i ∧ rel e.tet.x p i ≤ 2 ^ (21 - e.level)) ∧ ∀ f < nf e.type,
      0 ≤ (plane e.type f).s * ((plane e.type f).form (rel e.tet.x p) - (plane e.type f).o * 2 ^ (21 - e.level)) := by
  obtain ⟨⟨x, l, t⟩, s⟩ := e
  replace ht : t < 8 := ht
  show _ ↔ (∀ i, 0 ≤ rel x p i ∧ rel x p i ≤ 2 ^ (21 - l)) ∧ ∀ f < nf t, _
  show _ ↔ _ ∧ ∀ f < nf t, 0 ≤ (plane t f).s * ((plane t f).form (rel x p) - (plane t f).o * 2 ^ (21 - l))
  have hc : ((2 : Int) ^ (21 - l)) = ((2 ^ (21 - l) : Nat) : Int) := by push_cast; rfl
  rw [hc]
  by_cases h : 6 ≤ t
  · rw [mem_pyra (e := ⟨⟨x, l, t⟩, s⟩) h]
    show ((∀ i, (x i).toNat ≤ p i ∧ p i ≤ (x i).toNat + 2 ^ (21 - l)) ∧ (t = 6 → _) ∧ (t ≠ 6 → _)) ↔ _
    generalize 2 ^ (21 - l) = H at *
    simp only [rel, Fin.forall_fin_succ, Elem.type]
    have : t = 6 ∨ t = 7 := by omega
    rcases this with rfl | rfl <;> simp [nf, plane, planes, Nat.forall_lt_succ_right, Plane.form, rel] <;> omega
  · rw [Points, if_neg h]
    show ((∀ i : Fin 3, (x i).toNat ≤ p i ∧ p i ≤ (x i).toNat + 2 ^ (21 - l)) ∧ ∀ i j : Fin 3, Simplex.rank .tet t i < Simplex.rank .tet t j → p j + (x i).toNat ≤ p i + (x j).toNat) ↔ _
    generalize 2 ^ (21 - l) = H at *
    simp only [rel, Fin.forall_fin_succ, Elem.type]
    interval_cases t <;> simp [nf, plane, planes, Nat.forall_lt_succ_right, Plane.form, rel, Simplex.rank, Simplex.axes, List.idxOf, List.findIdx, List.findIdx.go] <;> omega

/-- The faces are the intersections with their planes. -/
theorem face_iff (e : Elem) (ht : e.type < 8) {f : Nat} (hf : f < nf e.type) (p : Fin 3 → Nat) : p ∈ Face e f ↔
    p ∈ Points e ∧ (plane e.type f).form (rel e.tet.x p) = (plane e.type f).o * 2 ^ (21 - e.level) := by
  obtain ⟨⟨x, l, t⟩, s⟩ := e
  replace ht : t < 8 := ht
  replace hf : f < nf t := hf
  show _ ↔ _ ∧ (plane t f).form (rel x p) = (plane t f).o * 2 ^ (21 - l)
  have hc : ((2 : Int) ^ (21 - l)) = ((2 ^ (21 - l) : Nat) : Int) := by push_cast; rfl
  rw [Face]
  by_cases h : 6 ≤ t
  · rw [if_pos (show 6 ≤ Elem.type ⟨⟨x, l, t⟩, s⟩ from h)]
    show p ∈ Points ⟨⟨x, l, t⟩, s⟩ ∧ OnPlane t f (2 ^ (21 - l)) (rel x p) ↔ _
    refine and_congr_right fun _ => ?_
    rw [hc]
    generalize 2 ^ (21 - l) = H at *
    have : t = 6 ∨ t = 7 := by omega
    have hf' : f < 5 := lt_of_lt_of_le hf (by rw [nf]; split <;> omega)
    rcases this with rfl | rfl <;> interval_cases f <;> simp [OnPlane, plane, planes, Plane.form] <;> omega
  · rw [if_neg (show ¬ 6 ≤ Elem.type ⟨⟨x, l, t⟩, s⟩ from h), Points, if_neg (show ¬ 6 ≤ Elem.type ⟨⟨x, l, t⟩, s⟩ from h)]
    show p ∈ Simplex.Points .tet ⟨x, l, t⟩ ∧ (f = 0 → ∀ i : Fin 3, Simplex.rank .tet t i = 1 → p i = (x i).toNat + 2 ^ (21 - l)) ∧
      (f = 3 → ∀ i : Fin 3, Simplex.rank .tet t i = 3 → p i = (x i).toNat) ∧
      (∀ i j : Fin 3, Simplex.rank .tet t i = f → Simplex.rank .tet t j = f + 1 → p i + (x j).toNat = p j + (x i).toNat) ↔ _
    refine and_congr_right fun _ => ?_
    rw [hc]
    generalize 2 ^ (21 - l) = H at *
    rw [nf, if_neg h] at hf
    simp only [Fin.forall_fin_succ]
    interval_cases t <;> interval_cases f <;> simp [plane, planes, Plane.form, rel, Simplex.rank, Simplex.axes, List.idxOf, List.findIdx, List.findIdx.go] <;> omega

theorem rel_corner (e : Elem) (ht : e.type < 8) {k : Nat} (hk : k < nf e.type) (i : Fin 3) :
    rel e.tet.x (corner e k) i = uc e.type k i * 2 ^ (21 - e.level) := by
  obtain ⟨⟨x, l, t⟩, s⟩ := e
  replace ht : t < 8 := ht
  replace hk : k < nf t := hk
  have hc : ((2 : Int) ^ (21 - l)) = ((2 ^ (21 - l) : Nat) : Int) := by push_cast; rfl
  rw [corner]
  by_cases h : 6 ≤ t
  · rw [if_pos (show 6 ≤ Elem.type ⟨⟨x, l, t⟩, s⟩ from h), rel]
    show ((((x i).toNat + 2 ^ (21 - l) *
      (if k < 4 then (if i.val < 2 then k / 2 ^ i.val % 2 else if t = 6 then 0 else 1) else if t = 6 then 1 else 0) : Nat) : Int)) - (x i).toNat
      = uc t k i * 2 ^ (21 - l)
    rw [hc]
    generalize 2 ^ (21 - l) = H at *
    have : t = 6 ∨ t = 7 := by omega
    have hk' : k < 5 := lt_of_lt_of_le hk (by rw [nf]; split <;> omega)
    rcases this with rfl | rfl <;> interval_cases k <;> fin_cases i <;> simp [uc, unitCorners]
  · rw [if_neg (show ¬ 6 ≤ Elem.type ⟨⟨x, l, t⟩, s⟩ from h), rel]
    show ((((x i).toNat + if Simplex.rank .tet t i ≤ k then 2 ^ (21 - l) else 0 : Nat) : Int)) - (x i).toNat = uc t k i * 2 ^ (21 - l)
    rw [hc]
    generalize 2 ^ (21 - l) = H at *
    rw [nf, if_neg h] at hk
    interval_cases t <;> interval_cases k <;> fin_cases i <;> simp [uc, unitCorners, Simplex.rank, Simplex.axes, List.idxOf, List.findIdx, List.findIdx.go]

/-- Corners of the faces. -/
theorem corner_table : ∀ b < 8, (∀ k < nf b, ∀ i : Fin 3, 0 ≤ uc b k i ∧ uc b k i ≤ 1) ∧
    ∀ f < nf b, ∀ k < nf b, 0 ≤ (plane b f).s * ((plane b f).form (uc b k) - (plane b f).o) := by decide +kernel

theorem form_mul (F : Plane) (q : Fin 3 → Int) (h : Int) : F.form (fun i => q i * h) = F.form q * h := by
  simp only [Plane.form]; ring

theorem form_add (F : Plane) (q r : Fin 3 → Int) : F.form (fun i => q i + r i) = F.form q + F.form r := by
  simp only [Plane.form]; ring

theorem two_pow_pos' (n : Nat) : (0 : Int) < 2 ^ n := by positivity

theorem corner_mem (e : Elem) (ht : e.type < 8) {k : Nat} (hk : k < nf e.type) : corner e k ∈ Points e := by
  rw [points_iff e ht]
  have hr : rel e.tet.x (corner e k) = fun i => uc e.type k i * 2 ^ (21 - e.level) := funext fun i => rel_corner e ht hk i
  obtain ⟨c1, c2⟩ := corner_table _ ht
  have hp := two_pow_pos' (21 - e.level)
  refine ⟨fun i => ?_, fun f hf => ?_⟩
  · obtain ⟨a, b⟩ := c1 k hk i
    rw [rel_corner e ht hk i]
    generalize ((2 : Int) ^ (21 - e.level)) = h at *
    exact ⟨mul_nonneg a hp.le, by nlinarith⟩
  · rw [hr, form_mul, ← sub_mul, ← mul_assoc]
    exact mul_nonneg (c2 f hf k hk) hp.le

theorem corner_face (e : Elem) (ht : e.type < 8) {k f : Nat} (hk : k < nf e.type) (hf : f < nf e.type) :
    corner e k ∈ Face e f ↔ (plane e.type f).form (uc e.type k) = (plane e.type f).o := by
  have hr : rel e.tet.x (corner e k) = fun i => uc e.type k i * 2 ^ (21 - e.level) := funext fun i => rel_corner e ht hk i
  rw [face_iff e ht hf, hr, form_mul]
  have hp := two_pow_pos' (21 - e.level)
  exact ⟨fun h => Int.eq_of_mul_eq_mul_right hp.ne' h.2, fun h => ⟨corner_mem e ht hk, by rw [h]⟩⟩

/-! ### Faces in faces -/

/-- Two planes have the same form. -/
def Par (F G : Plane) : Prop := F.a = G.a ∧ F.b = G.b ∧ F.c = G.c

instance (F G : Plane) : Decidable (Par F G) := by unfold Par; infer_instance

theorem Par.form {F G : Plane} (h : Par F G) (q : Fin 3 → Int) : F.form q = G.form q := by
  obtain ⟨h1, h2, h3⟩ := h
  rw [Plane.form, Plane.form, h1, h2, h3]

/-- The difference of two anchors. -/
def diff (x y : Elem) : Fin 3 → Int := fun i => ((x.tet.x i).toNat : Int) - ((y.tet.x i).toNat : Int)

theorem rel_diff (x e : Elem) (p : Fin 3 → Nat) : rel e.tet.x p = fun i => rel x.tet.x p i + diff x e i := by
  funext i
  simp only [rel, diff]
  ring

/-- A face has three corners that are not on a line. -/
def Spans (b g b' f : Nat) : Prop := ∃ k < nf b, ∃ k' < nf b, ∃ k'' < nf b,
  (plane b g).form (uc b k) = (plane b g).o ∧ (plane b g).form (uc b k') = (plane b g).o ∧
  (plane b g).form (uc b k'') = (plane b g).o ∧
  ((plane b' f).form (uc b k) = (plane b' f).form (uc b k') → (plane b' f).form (uc b k) = (plane b' f).form (uc b k'') →
    Par (plane b g) (plane b' f))

instance (b g b' f : Nat) : Decidable (Spans b g b' f) := by unfold Spans; infer_instance

theorem spans_table : ∀ b < 8, ∀ g < nf b, ∀ b' < 8, ∀ f < nf b', Spans b g b' f := by decide +kernel

/-- The relation of Spec/PyramidFaces.lean for a descendant, by the planes. -/
theorem face_sub {x e : Elem} (hx : x.type < 8) (he : e.type < 8) (hs : Points x ⊆ Points e) {g f : Nat} (hg : g < nf x.type)
    (hf : f < nf e.type) : Face x g ⊆ Face e f ↔ Par (plane x.type g) (plane e.type f) ∧
      (plane x.type g).form (diff x e) + (plane x.type g).o * 2 ^ (21 - x.level) = (plane e.type f).o * 2 ^ (21 - e.level) := by
  have hp := two_pow_pos' (21 - x.level)
  constructor
  · intro h
    obtain ⟨k, k1, k', k2, k'', k3, e1, e2, e3, e4⟩ := spans_table _ hx g hg _ he f hf
    have key : ∀ k < nf x.type, (plane x.type g).form (uc x.type k) = (plane x.type g).o →
        (plane e.type f).form (uc x.type k) * 2 ^ (21 - x.level) + (plane e.type f).form (diff x e) =
          (plane e.type f).o * 2 ^ (21 - e.level) := by
      intro k hk h1
      have h2 := ((face_iff e he hf _).1 (h ((corner_face x hx hk hg).2 h1))).2
      have hr : rel x.tet.x (corner x k) = fun i => uc x.type k i * 2 ^ (21 - x.level) := funext fun i => rel_corner x hx hk i
      rw [rel_diff x e, form_add, hr, form_mul] at h2
      exact h2
    have a1 := key k k1 e1
    have a2 := key k' k2 e2
    have a3 := key k'' k3 e3
    have hpar := e4 (Int.eq_of_mul_eq_mul_right hp.ne' (by linarith)) (Int.eq_of_mul_eq_mul_right hp.ne' (by linarith))
    refine ⟨hpar, ?_⟩
    rw [← hpar.form, ← hpar.form, e1] at a1
    linarith
  · rintro ⟨h1, h2⟩ p hq
    rw [face_iff x hx hg] at hq
    rw [face_iff e he hf, rel_diff x e, form_add, ← h1.form, ← h1.form, hq.2]
    exact ⟨hs hq.1, by linarith⟩

theorem plane_inj : ∀ b < 8, ∀ g < nf b, ∀ g' < nf b, Par (plane b g) (plane b g') → (plane b g).o = (plane b g').o → g = g' := by
  decide +kernel

theorem desc_points {e x : Elem} (he : Valid e) (h : tree.Desc e x) : Points x ⊆ Points e := by
  refine Desc.ind (T := tree) (P := fun x => Points x ⊆ Points e) h Set.Subset.rfl fun x i hd hl hi ih => ?_
  exact (child_subset (hd.valid (T := tree) he).good hl hi).trans ih

theorem inFace_iff {x e : Elem} (he : Valid e) (hd : tree.Desc e x) {g f : Nat} : InFace x g e f ↔
    g < nf x.type ∧ f < nf e.type ∧ Par (plane x.type g) (plane e.type f) ∧
      (plane x.type g).form (diff x e) + (plane x.type g).o * 2 ^ (21 - x.level) = (plane e.type f).o * 2 ^ (21 - e.level) := by
  have hx : Valid x := hd.valid (T := tree) he
  rw [InFace]
  exact ⟨fun ⟨h1, h2, h3⟩ => ⟨h1, h2, (face_sub (type_lt hx.good) (type_lt he.good) (desc_points he hd) h1 h2).1 h3⟩,
    fun ⟨h1, h2, h3⟩ => ⟨h1, h2, (face_sub (type_lt hx.good) (type_lt he.good) (desc_points he hd) h1 h2).2 h3⟩⟩

/-- A descendant has at most one face in a face. -/
theorem inFace_unique {x e : Elem} (he : Valid e) (hd : tree.Desc e x) {g g' f : Nat} (h : InFace x g e f)
    (h' : InFace x g' e f) : g = g' := by
  obtain ⟨a1, _, a3, a4⟩ := (inFace_iff he hd).1 h
  obtain ⟨b1, _, b3, b4⟩ := (inFace_iff he hd).1 h'
  have hp := two_pow_pos' (21 - x.level)
  rw [a3.form] at a4
  rw [b3.form] at b4
  refine plane_inj _ (type_lt (hd.valid (T := tree) he).good) g a1 g' b1
    ⟨a3.1.trans b3.1.symm, a3.2.1.trans b3.2.1.symm, a3.2.2.trans b3.2.2.symm⟩ (Int.eq_of_mul_eq_mul_right hp.ne' (by linarith))

end T8.Pyramid
