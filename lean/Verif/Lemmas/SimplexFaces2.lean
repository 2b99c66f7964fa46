/-
Faces of descendants of triangles and tetrahedra: between, children at a face, the face of the parent, the first and the
last descendant at a face.
-/
import Verif.Lemmas.SimplexFaces
import Verif.Lemmas.FaceDescend

namespace T8.Simplex
open T8.RTree T8.Bits

variable {c : Cls}

theorem desc_points {e x : Elem c.dim} (he : Valid c e) (h : (tree c).Desc e x) : Points c x ⊆ Points c e := by
  refine Desc.ind (T := tree c) (P := fun x => Points c x ⊆ Points c e) h Set.Subset.rfl fun x i hd hl hi ih => ?_
  exact (points_child (hd.valid (T := tree c) he).aligned hl hi).trans ih

/-- If a child has a face in a face of an element, then its parent has, too. -/
theorem between_step {e y : Elem c.dim} (he : Valid c e) (hy : (tree c).Desc e y) (hl : y.level < c.maxLevel) {I : Nat}
    (hI : I < c.numChildren) {g f : Nat} (hg : g ≤ c.dim) (hf : f ≤ c.dim) (h : Face c (child c y I) g ⊆ Face c e f) :
    ∃ k, k ≤ c.dim ∧ Face c y k ⊆ Face c e f ∧ Face c (child c y I) g ⊆ Face c y k := by
  have hv : Valid c y := hy.valid (T := tree c) he
  have hal := hv.aligned
  have hsub := desc_points he hy
  rw [face_sub_iff (aligned_child hal hl hI).2 hg] at h
  have tight : ∀ m ≤ c.dim, (∃ k, k ≤ c.dim ∧ k ≠ g ∧ (m = midHi c y.type I k ∨ m = midLo c y.type I k)) →
      corner c y m ∈ Face c e f := by
    rintro m _ ⟨k, hk, hne, hm⟩
    have := (mid_mem_face (hsub (corner_mem y _)) (hsub (corner_mem y _)) (corner_child hal hl hI hk)).1 (h k hk hne)
    rcases hm with rfl | rfl
    · exact this.1
    · exact this.2
  rcases between_table c y.type hal.2 I hI g hg with h1 | ⟨k, hk, h1, h2⟩
  · exact absurd (fun m hm => tight m hm (h1 m hm)) (not_all_corners hal.2 he.aligned.2 hf)
  · refine ⟨k, hk, (face_sub_iff hal.2 hk e f).2 fun m hm hne => tight m hm (h2 m hm hne), ?_⟩
    exact (face_child_iff hal hl hI hg hk).2 h1

/-- An element has at most one face in a face of an element. -/
theorem face_unique {x e : Elem c.dim} (hx : x.type < c.numTypes) (he : e.type < c.numTypes) {g g' f : Nat} (hg : g ≤ c.dim)
    (hg' : g' ≤ c.dim) (hf : f ≤ c.dim) (h : Face c x g ⊆ Face c e f) (h' : Face c x g' ⊆ Face c e f) : g = g' := by
  by_contra hne
  rw [face_sub_iff hx hg] at h
  rw [face_sub_iff hx hg'] at h'
  refine not_all_corners hx he hf fun k hk => ?_
  by_cases hk1 : k = g
  · exact h' k hk (by omega)
  · exact h k hk hk1

/-- Face `g` of the element `x` lies in face `f` of the element `e`. -/
def InFace (c : Cls) (x : Elem c.dim) (g : Nat) (e : Elem c.dim) (f : Nat) : Prop :=
  g < c.numFaces ∧ f < c.numFaces ∧ Face c x g ⊆ Face c e f

theorem InFace.trans {x y e : Elem c.dim} {g h f : Nat} (h1 : InFace c x g y h) (h2 : InFace c y h e f) :
    InFace c x g e f := ⟨h1.1, h2.2.1, h1.2.2.trans h2.2.2⟩

theorem between {x y e : Elem c.dim} {g f : Nat} (he : Valid c e) (hy : (tree c).Desc e y) (hx : (tree c).Desc y x)
    (h : InFace c x g e f) : ∃ k, InFace c y k e f ∧ InFace c x g y k := by
  refine between_of_step (T := tree c) (In := InFace c) (fun x g e f _ h => ⟨h.1, h.1, Set.Subset.rfl⟩)
    (fun x g y h e f h1 h2 => h1.trans h2) (fun e y i g f he hy hl hi h => ?_) he hy hx h
  obtain ⟨h1, h2, h3⟩ := h
  rw [numFaces_eq] at h1 h2
  obtain ⟨k, a, b, d⟩ := between_step he hy hl hi (by omega) (by omega) h3
  exact ⟨k, ⟨by rw [numFaces_eq]; omega, by rw [numFaces_eq]; omega, b⟩, ⟨by rw [numFaces_eq]; omega,
    by rw [numFaces_eq]; omega, d⟩⟩

theorem InFace.unique {x e : Elem c.dim} {g g' f : Nat} (he : Valid c e) (hx : (tree c).Desc e x) (h : InFace c x g e f)
    (h' : InFace c x g' e f) : g = g' := by
  obtain ⟨a1, a2, a3⟩ := h
  obtain ⟨b1, b2, b3⟩ := h'
  rw [numFaces_eq] at *
  exact face_unique (hx.valid (T := tree c) he).aligned.2 he.aligned.2 (by omega) (by omega) (by omega) a3 b3

/-! ### Children at a face -/

theorem ids_mem {e : Elem c.dim} (he : Valid c e) (hl : e.level < c.maxLevel) {f : Nat} (hf : f < c.numFaces) (i : Nat) :
    i ∈ childIdsAtFace c e f ↔ i < c.numChildren ∧ ∃ g, InFace c (child c e i) g e f := by
  have hn := numFaces_eq c
  obtain ⟨_, _, h3, h4⟩ := ids_table c e.type he.aligned.2 f (by omega)
  rw [idsOf_eq]
  constructor
  · intro hi
    have hi' := h3 i hi
    obtain ⟨g, hg, ha⟩ := (h4 i hi').1 hi
    exact ⟨hi', g, by omega, hf, (face_child_iff he.aligned hl hi' hg (by omega)).2 ha⟩
  · rintro ⟨hi, g, h1, h2, h5⟩
    exact (h4 i hi).2 ⟨g, by omega, (face_child_iff he.aligned hl hi (by omega) (by omega)).1 h5⟩

theorem childFace_iff {e : Elem c.dim} (he : Valid c e) (hl : e.level < c.maxLevel) {f : Nat} (hf : f < c.numFaces)
    {k i : Nat} (hk : (childIdsAtFace c e f)[k]? = some i) {g : Nat} (hg : g < c.numFaces) :
    Face c (child c e i) g ⊆ Face c e f ↔ g = faceChildFace c e f k := by
  have hn := numFaces_eq c
  obtain ⟨_, h2, h3, _⟩ := ids_table c e.type he.aligned.2 f (by omega)
  rw [idsOf_eq] at hk
  have hkl : k < c.numFaceChildren := by
    obtain ⟨h, _⟩ := List.getElem?_eq_some_iff.1 hk
    omega
  have hmem := List.mem_of_getElem? hk
  have hi : (idsOf c e.type f).getD k 0 = i := by rw [List.getD_eq_getElem?_getD, hk]; rfl
  have := childFace_table c e.type he.aligned.2 f (by omega) k hkl g (by omega)
  rw [hi] at this
  rw [face_child_iff he.aligned hl (h3 i hmem) (by omega) (by omega), this, childFaceOf_eq]

theorem childFace_lt (c : Cls) : ∀ b < c.numTypes, ∀ f ≤ c.dim, ∀ k < c.numFaceChildren, childFaceOf c b f k ≤ c.dim := by
  cases c <;> decide +kernel

/-! ### The face of the parent -/

/-- The face of the parent as a function of the cube id and the type. -/
def parentFaceOf (c : Cls) (cid t f : Nat) : Option Nat :=
  match c with
  | .tri =>
    if look (cidTypeToParenttype .tri) cid t ≠ t then none
    else if f ≠ look (typeCidToBeyid .tri) t cid then some f else none
  | .tet =>
    if look (cidTypeToParenttype .tet) cid t = t ∧ f ≠ look (typeCidToBeyid .tet) t cid then some f
    else if (parentTypeTypeToFace.getD (look (cidTypeToParenttype .tet) cid t) []).getD t none = some f then
      some (if f = 1 ∨ f = 2 then f ^^^ 3 else f)
    else none

theorem parentFaceOf_eq {e : Elem c.dim} (hl : 0 < e.level) (f : Nat) :
    faceParentFace c e f = parentFaceOf c (computeCubeid c e e.level) e.type f := by
  cases c
  · simp only [faceParentFace, parentFaceOf]
    rw [if_neg (by omega)]
  · simp only [faceParentFace, parentFaceOf]
    rw [if_neg (by omega)]

set_option synthInstance.maxHeartbeats 200000 in
theorem parentFace_table (c : Cls) : ∀ b < c.numTypes, ∀ I < c.numChildren, ∀ g ≤ c.dim,
    (∀ f ≤ c.dim, parentFaceOf c (cidOf c b I) (typeOf c b I) g = some f ↔ AtFace c b I g f) ∧
    (parentFaceOf c (cidOf c b I) (typeOf c b I) g).getD 0 ≤ c.dim := by
  cases c <;> decide +kernel

theorem parentFace_iff {e : Elem c.dim} (he : Valid c e) (hl : 0 < e.level) {g : Nat} (hg : g < c.numFaces) (f : Nat) :
    faceParentFace c e g = some f ↔ f < c.numFaces ∧ Face c e g ⊆ Face c (parent c e) f := by
  have hn := numFaces_eq c
  have hp := valid_parent he hl
  have hpl : (parent c e).level < c.maxLevel := by have : e.level ≤ c.maxLevel := he.1.1; show e.level - 1 < _; omega
  have hI := childId_lt he.aligned
  obtain ⟨t1, t2⟩ := parentFace_table c (parent c e).type hp.aligned.2 (childId c e) hI g (by omega)
  have e1 : computeCubeid c e e.level = cidOf c (parent c e).type (childId c e) := by
    have := cubeid_child hp.aligned hpl hI
    rw [child_parent he.aligned hl] at this
    rw [← this]
    congr 1
    show e.level = e.level - 1 + 1
    omega
  have e2 : e.type = typeOf c (parent c e).type (childId c e) := by
    have := child_type (parent c e) (childId c e)
    rwa [child_parent he.aligned hl] at this
  rw [parentFaceOf_eq hl, e1, e2]
  have key : ∀ f ≤ c.dim, Face c e g ⊆ Face c (parent c e) f ↔ AtFace c (parent c e).type (childId c e) g f := by
    intro f hf
    rw [← face_child_iff hp.aligned hpl hI (by omega) hf, child_parent he.aligned hl]
  constructor
  · intro h
    have hf : f ≤ c.dim := by rw [h] at t2; exact t2
    exact ⟨by omega, (key f hf).2 ((t1 f hf).1 h)⟩
  · rintro ⟨hf, h⟩
    exact (t1 f (by omega)).2 ((key f (by omega)).1 h)

/-! ### Descendants at a corner and at a face -/

/-- The index of the child at a corner. -/
def iloc (c : Cls) (b m : Nat) : Nat := look (parenttypeBeyidToIloc c) b m

theorem iloc_table (c : Cls) : ∀ b < c.numTypes, ∀ m ≤ c.dim,
    iloc c b m < c.numChildren ∧ typeOf c b (iloc c b m) = b ∧ (∀ f ≤ c.dim, f ≠ m → AtFace c b (iloc c b m) f f) ∧
    midHi c b (iloc c b m) m = m ∧ midLo c b (iloc c b m) m = m := by
  cases c <;> decide +kernel

theorem iloc_ends (c : Cls) : ∀ b < c.numTypes, iloc c b 0 = 0 ∧ iloc c b c.dim = c.numChildren - 1 := by
  cases c <;> decide +kernel

theorem faceCorner_table (c : Cls) : ∀ f ≤ c.dim,
    (firstFaceCorner c f ≤ c.dim ∧ firstFaceCorner c f ≠ f ∧ lastFaceCorner c f ≤ c.dim ∧ lastFaceCorner c f ≠ f) ∧
    ∀ b < c.numTypes, ∀ j ∈ idsOf c b f, iloc c b (firstFaceCorner c f) ≤ j ∧ j ≤ iloc c b (lastFaceCorner c f) := by
  cases c <;> decide +kernel

/-- `1 + N + … + N ^ (n - 1)`. -/
def rep (N : Nat) : Nat → Nat
  | 0 => 0
  | n + 1 => N * rep N n + 1

theorem rep_succ (N n : Nat) : rep N (n + 1) = rep N n + N ^ n := by
  induction n with
  | zero => simp [rep]
  | succ n ih =>
    rw [rep, ih, Nat.mul_add, Nat.pow_succ]
    have : rep N (n + 1) = N * rep N n + 1 := rfl
    rw [ih] at this
    rw [Nat.mul_comm (N ^ n)]
    omega

theorem rep_last {N : Nat} (hN : 0 < N) (n : Nat) : (N - 1) * rep N n + 1 = N ^ n := by
  induction n with
  | zero => simp [rep]
  | succ n ih =>
    rw [rep, Nat.pow_succ, ← ih, Nat.mul_add, Nat.add_mul]
    have : (N - 1) * (N * rep N n) = (N - 1) * rep N n * N := by rw [Nat.mul_comm N, Nat.mul_assoc]
    rw [this]
    omega

theorem rep_lt {N : Nat} (hN : 0 < N) {v : Nat} (hv : v < N) (n : Nat) : v * rep N n < N ^ n := by
  have := rep_last hN n
  have : v * rep N n ≤ (N - 1) * rep N n := Nat.mul_le_mul_right _ (by omega)
  omega

theorem cornerLoop_eq {v : Nat} (hv : v < 2 ^ c.dim) {n : Nat} (hn : n ≤ c.maxLevel) :
    (cornerLoop c (BitVec.ofNat 64 v) n).toNat = v * rep (2 ^ c.dim) n := by
  induction n with
  | zero => simp [cornerLoop, rep]
  | succ n ih =>
    have ih' := ih (by omega)
    have hN : 0 < 2 ^ c.dim := Nat.two_pow_pos _
    have hlt := rep_lt hN hv n
    rw [pow_dim] at hlt
    have h64 : 2 ^ (c.dim * (n + 1)) ≤ 2 ^ 64 := Nat.pow_le_pow_right (by omega) (le_of_lt (dim_mul_lt hn))
    have hd : 2 ^ c.dim ≤ 2 ^ 64 := Nat.pow_le_pow_right (by omega) (by cases c <;> decide)
    have hvm : (BitVec.ofNat 64 v).toNat = v := by
      rw [BitVec.toNat_ofNat]; exact Nat.mod_eq_of_lt (by omega)
    have hmul : v * 2 ^ (c.dim * n) < 2 ^ 64 := by
      have : v * 2 ^ (c.dim * n) < 2 ^ c.dim * 2 ^ (c.dim * n) :=
        Nat.mul_lt_mul_of_pos_right hv (Nat.two_pow_pos _)
      rw [← Nat.pow_add] at this
      have e : c.dim + c.dim * n = c.dim * (n + 1) := by ring
      rw [e] at this
      omega
    have h1 : cornerLoop c (BitVec.ofNat 64 v) (n + 1) =
        cornerLoop c (BitVec.ofNat 64 v) n ||| (BitVec.ofNat 64 v <<< (c.dim * n)) := by
      simp only [cornerLoop, List.range_succ, List.foldl_append, List.foldl_cons, List.foldl_nil]
    rw [h1, or_shift (n := c.dim * n) (by rw [ih']; exact hlt) (by rw [hvm]; exact hmul), ih', hvm, rep_succ, pow_dim,
      Nat.mul_add]

theorem cornerDescendant_spec {e : Elem c.dim} (he : Valid c e) {m : Nat} (hm : m ≤ c.dim) {L : Nat} (hl : e.level ≤ L)
    (hL : L ≤ c.maxLevel) : ∃ a, cornerDescendant c e m L = some a ∧ Valid c a ∧ a.level = L ∧
      pos (T := tree c) a = pos (T := tree c) e * (2 ^ c.dim) ^ (L - e.level) +
        iloc c e.type m * rep (2 ^ c.dim) (L - e.level) := by
  have hN : 0 < 2 ^ c.dim := Nat.two_pow_pos _
  have hi := iloc_table c e.type he.aligned.2 m hm
  have hends := iloc_ends c e.type he.aligned.2
  rw [cornerDescendant]
  by_cases h0 : m = 0
  · rw [if_pos h0]
    obtain ⟨a, h1, h2, h3, h4⟩ := firstDescendant_spec he hl hL
    refine ⟨a, h1, h2, h3, ?_⟩
    rw [h4, h0, hends.1, Nat.zero_mul, pow_dim]; rfl
  · rw [if_neg h0]
    by_cases hd : m = c.dim
    · rw [if_pos hd]
      obtain ⟨a, h1, h2, h3, h4⟩ := lastDescendant_spec he hl hL
      refine ⟨a, h1, h2, h3, ?_⟩
      have := rep_last hN (L - e.level)
      rw [hd, hends.2, numChildren_eq]
      rw [Nat.add_mul, ← pow_dim] at h4
      omega
    · rw [if_neg hd, linearIdCornerDesc, if_neg h0, if_neg hd]
      have hv : iloc c e.type m < 2 ^ c.dim := by rw [← numChildren_eq]; exact hi.1
      have h1 := cornerLoop_eq hv (n := L - e.level) (by omega)
      have h2 := rep_lt hN hv (L - e.level)
      rw [pow_dim] at h2
      have h3 := append_digits he hl hL (v := cornerLoop c (BitVec.ofNat 64 (iloc c e.type m)) (L - e.level))
        (by rw [h1]; exact h2)
      have h4 := pos_mul_lt he hl
      rw [Nat.add_mul] at h4
      obtain ⟨a, q1, q2, q3, q4⟩ := initLinearId_spec (c := c) hL (by rw [h3, h1]; omega)
      refine ⟨a, q1, q2, q3, ?_⟩
      rw [q4, h3, h1, pow_dim]

/-- The descendants at a corner: each is the child at this corner of the one before, and has the type of the
element. -/
theorem corner_step {e : Elem c.dim} (he : Valid c e) {m : Nat} (hm : m ≤ c.dim) :
    cornerDescendant c e m e.level = some e ∧
    ∀ L, e.level ≤ L → L ≤ c.maxLevel → ∃ a, cornerDescendant c e m L = some a ∧ Valid c a ∧ a.level = L ∧ a.type = e.type ∧
      (L < c.maxLevel → cornerDescendant c e m (L + 1) = some (child c a (iloc c e.type m))) := by
  have hN : 0 < 2 ^ c.dim := Nat.two_pow_pos _
  have hi := iloc_table c e.type he.aligned.2 m hm
  have hv : iloc c e.type m < 2 ^ c.dim := by rw [← numChildren_eq]; exact hi.1
  have h0 : cornerDescendant c e m e.level = some e := by
    obtain ⟨a, h1, h2, h3, h4⟩ := cornerDescendant_spec he hm (le_refl _) he.1.1
    rw [h1]
    congr 1
    rw [Nat.sub_self, Nat.pow_zero, rep, Nat.mul_one, Nat.mul_zero, Nat.add_zero] at h4
    exact (regular c).pos_inj h2 he h3 h4
  have step : ∀ L, e.level ≤ L → L < c.maxLevel → ∀ a, cornerDescendant c e m L = some a →
      cornerDescendant c e m (L + 1) = some (child c a (iloc c e.type m)) := by
    intro L hl hL a ha
    obtain ⟨a', h1, h2, h3, h4⟩ := cornerDescendant_spec he hm hl hL.le
    rw [ha] at h1
    cases h1
    obtain ⟨b, k1, k2, k3, k4⟩ := cornerDescendant_spec he hm (Nat.le_succ_of_le hl) hL
    rw [k1]
    congr 1
    have hal : a.level < c.maxLevel := by omega
    refine (regular c).pos_inj k2 (valid_child h2 hal hi.1) ?_ ?_
    · show b.level = a.level + 1; omega
    · have := (regular c).pos_child (e := a) h2 hal hv
      rw [this, h4, k4, show L + 1 - e.level = L - e.level + 1 by omega, rep, Nat.pow_succ]
      ring
  refine ⟨h0, fun L hl => ?_⟩
  induction L, hl using Nat.le_induction with
  | base => exact fun hL => ⟨e, h0, he, rfl, rfl, fun h => step _ le_rfl h _ h0⟩
  | succ L hl ih =>
    intro hL
    obtain ⟨a, a1, a2, a3, a4, a5⟩ := ih (by omega)
    have h1 := a5 (by omega)
    refine ⟨_, h1, valid_child a2 (by omega) hi.1, ?_, ?_, fun h => step _ (by omega) h _ h1⟩
    · show a.level + 1 = _; omega
    · rw [child_type, a4, hi.2.1]

/-- The descendant at a corner keeps the faces at the corner. -/
theorem corner_face {e : Elem c.dim} (he : Valid c e) {m f : Nat} (hm : m ≤ c.dim) (hf : f ≤ c.dim) (hne : f ≠ m) {L : Nat}
    (hl : e.level ≤ L) (hL : L ≤ c.maxLevel) {a : Elem c.dim} (ha : cornerDescendant c e m L = some a) :
    Face c a f ⊆ Face c e f := by
  have hi := iloc_table c e.type he.aligned.2 m hm
  obtain ⟨s0, s1⟩ := corner_step he hm
  induction L, hl using Nat.le_induction generalizing a with
  | base => rw [s0] at ha; cases ha; exact Set.Subset.rfl
  | succ L hl ih =>
    obtain ⟨b, b1, b2, b3, b4, b5⟩ := s1 L hl (by omega)
    rw [b5 (by omega)] at ha
    cases ha
    refine Set.Subset.trans ?_ (ih (by omega) b1)
    refine (face_child_iff b2.aligned (by omega) hi.1 hf hf).2 ?_
    rw [b4]
    exact hi.2.2.1 f hf hne

theorem firstDescendantFace_spec {e : Elem c.dim} (he : Valid c e) {f : Nat} (hf : f < c.numFaces) {L : Nat}
    (hl : e.level ≤ L) (hL : L ≤ c.maxLevel) : ∃ a, firstDescendantFace c e f L = some a ∧
    (tree c).Desc e a ∧ a.level = L ∧ (∃ g, InFace c a g e f) ∧
    ∀ x g, (tree c).Desc e x → x.level = L → InFace c x g e f → x = a ∨ (tree c).Before a x := by
  have hn := numFaces_eq c
  obtain ⟨⟨c1, c2, _, _⟩, c3⟩ := faceCorner_table c f (by omega)
  obtain ⟨s0, s1⟩ := corner_step he c1
  have hi := iloc_table c e.type he.aligned.2 _ c1
  obtain ⟨a, a1, _⟩ := s1 L hl hL
  refine ⟨a, a1, ?_⟩
  have := first_of_step (T := tree c) (In := InFace c) (ids := childIdsAtFace c) (e := e) (f := f)
    (fun x g y hy hx h => between he hy hx h) (fun x g g' hx h h' => h.unique he hx h')
    (fun y h i hy hyl hin hi hg => (ids_mem (hy.valid (T := tree c) he) hyl hin.1 i).2 ⟨hi, hg⟩)
    he (fun L => (firstDescendantFace c e f L).getD e) (by show (cornerDescendant c e _ e.level).getD e = e; rw [s0]; rfl)
    ⟨hf, hf, Set.Subset.rfl⟩ (fun L hl hL g hd hlev hin => ?_) hl hL
  · have e1 : (firstDescendantFace c e f L).getD e = a := by rw [firstDescendantFace, a1]; rfl
    simp only [e1] at this
    exact this
  · obtain ⟨b, b1, b2, b3, b4, b5⟩ := s1 L hl hL.le
    have e1 : (firstDescendantFace c e f L).getD e = b := by rw [firstDescendantFace, b1]; rfl
    have e2 : (firstDescendantFace c e f (L + 1)).getD e = child c b (iloc c e.type (firstFaceCorner c f)) := by
      rw [firstDescendantFace, b5 hL]; rfl
    simp only [e1, e2] at *
    refine ⟨iloc c e.type (firstFaceCorner c f), hi.1, rfl, ⟨f, hf, hf, ?_⟩, fun j hj => ?_⟩
    · exact corner_face he c1 (by omega) (Ne.symm c2) (by omega) hL (b5 hL)
    · have hgf : g = f := hin.unique he hd ⟨hf, hf, corner_face he c1 (by omega) (Ne.symm c2) hl hL.le b1⟩
      rw [idsOf_eq, b4, hgf] at hj
      exact (c3 e.type he.aligned.2 j hj).1

theorem lastDescendantFace_spec {e : Elem c.dim} (he : Valid c e) {f : Nat} (hf : f < c.numFaces) {L : Nat}
    (hl : e.level ≤ L) (hL : L ≤ c.maxLevel) : ∃ a, lastDescendantFace c e f L = some a ∧
    (tree c).Desc e a ∧ a.level = L ∧ (∃ g, InFace c a g e f) ∧
    ∀ x g, (tree c).Desc e x → x.level = L → InFace c x g e f → x = a ∨ (tree c).Before x a := by
  have hn := numFaces_eq c
  obtain ⟨⟨_, _, c1, c2⟩, c3⟩ := faceCorner_table c f (by omega)
  obtain ⟨s0, s1⟩ := corner_step he c1
  have hi := iloc_table c e.type he.aligned.2 _ c1
  obtain ⟨a, a1, _⟩ := s1 L hl hL
  refine ⟨a, a1, ?_⟩
  have := last_of_step (T := tree c) (In := InFace c) (ids := childIdsAtFace c) (e := e) (f := f)
    (fun x g y hy hx h => between he hy hx h) (fun x g g' hx h h' => h.unique he hx h')
    (fun y h i hy hyl hin hi hg => (ids_mem (hy.valid (T := tree c) he) hyl hin.1 i).2 ⟨hi, hg⟩)
    he (fun L => (lastDescendantFace c e f L).getD e) (by show (cornerDescendant c e _ e.level).getD e = e; rw [s0]; rfl)
    ⟨hf, hf, Set.Subset.rfl⟩ (fun L hl hL g hd hlev hin => ?_) hl hL
  · have e1 : (lastDescendantFace c e f L).getD e = a := by rw [lastDescendantFace, a1]; rfl
    simp only [e1] at this
    exact this
  · obtain ⟨b, b1, b2, b3, b4, b5⟩ := s1 L hl hL.le
    have e1 : (lastDescendantFace c e f L).getD e = b := by rw [lastDescendantFace, b1]; rfl
    have e2 : (lastDescendantFace c e f (L + 1)).getD e = child c b (iloc c e.type (lastFaceCorner c f)) := by
      rw [lastDescendantFace, b5 hL]; rfl
    simp only [e1, e2] at *
    refine ⟨iloc c e.type (lastFaceCorner c f), hi.1, rfl, ⟨f, hf, hf, ?_⟩, fun j hj => ?_⟩
    · exact corner_face he c1 (by omega) (Ne.symm c2) (by omega) hL (b5 hL)
    · have hgf : g = f := hin.unique he hd ⟨hf, hf, corner_face he c1 (by omega) (Ne.symm c2) hl hL.le b1⟩
      rw [idsOf_eq, b4, hgf] at hj
      exact (c3 e.type he.aligned.2 j hj).2

end T8.Simplex
