/-
Lemmas about the faces of triangles and tetrahedra. The corners of a child are midpoints of two corners of the element,
and a face of an element contains a midpoint iff it contains both corners; so questions about faces of descendants
become questions about corners.
-/
import Verif.Model.SimplexFaces
import Verif.Lemmas.SimplexFamily

namespace T8.Simplex
open T8.RTree T8.Bits

variable {c : Cls}

theorem dim_ge (c : Cls) : 2 ≤ c.dim := by cases c <;> decide

theorem numFaces_eq (c : Cls) : c.numFaces = c.dim + 1 := by cases c <;> rfl

theorem rank_surj (c : Cls) : ∀ t < c.numTypes, ∀ r < c.dim, ∃ i : Fin c.dim, rank c t i = r + 1 := by
  cases c <;> decide +kernel

theorem face_sub_points (e : Elem c.dim) (f : Nat) : Face c e f ⊆ Points c e := fun _ h => h.1

/-- The face number `f` contains all corners except for number `f`. -/
theorem corner_mem_face {e : Elem c.dim} (ht : e.type < c.numTypes) {k f : Nat} (hk : k ≤ c.dim) (hf : f ≤ c.dim) :
    corner c e k ∈ Face c e f ↔ k ≠ f := by
  have hp := size_pos c e.level
  have hd := dim_ge c
  constructor
  · rintro ⟨_, h1, h2, h3⟩ rfl
    rcases Nat.eq_zero_or_pos k with h0 | h0
    · obtain ⟨i, hi⟩ := rank_surj c e.type ht 0 (by omega)
      have := h1 h0 i hi
      simp only [corner] at this
      rw [if_neg (by omega)] at this
      omega
    · rcases Nat.lt_or_ge k c.dim with h4 | h4
      · obtain ⟨i, hi⟩ := rank_surj c e.type ht (k - 1) (by omega)
        obtain ⟨j, hj⟩ := rank_surj c e.type ht k (by omega)
        have := h3 i j (by omega) (by omega)
        simp only [corner] at this
        rw [if_pos (by omega), if_neg (by omega)] at this
        omega
      · obtain ⟨i, hi⟩ := rank_surj c e.type ht (c.dim - 1) (by omega)
        have := h2 (by omega) i (by omega)
        simp only [corner] at this
        rw [if_pos (by omega)] at this
        omega
  · intro hne
    refine ⟨corner_mem e k, fun h i hi => ?_, fun h i hi => ?_, fun i j hi hj => ?_⟩
    · simp only [corner]; rw [if_pos (by omega)]
    · simp only [corner]; rw [if_neg (by omega)]; omega
    · simp only [corner]
      split <;> split <;> omega

/-! ### Sets that are described by inequalities -/

/-- The lower bound of a coordinate on a face is attained at a corner. -/
theorem face_lower {x : Elem c.dim} (ht : x.type < c.numTypes) {g : Nat} {p : Fin c.dim → Nat} (hp : p ∈ Face c x g)
    {A : Nat} (i : Fin c.dim) (h : ∀ k ≤ c.dim, k ≠ g → A ≤ corner c x k i) : A ≤ p i := by
  have hd := dim_ge c
  have ri := rank_le c x.type ht i
  by_cases hg : g = 0
  · have h1 := h 1 (by omega) (by omega)
    simp only [corner] at h1
    by_cases hr : rank c x.type i = 1
    · rw [if_pos (by omega)] at h1
      have := hp.2.1 hg i hr
      omega
    · rw [if_neg (by omega)] at h1
      have := (hp.1.1 i).1
      omega
  · have h1 := h 0 (by omega) (by omega)
    simp only [corner] at h1
    rw [if_neg (by omega)] at h1
    have := (hp.1.1 i).1
    omega

theorem face_upper {x : Elem c.dim} (ht : x.type < c.numTypes) {g : Nat} {p : Fin c.dim → Nat} (hp : p ∈ Face c x g)
    {A : Nat} (i : Fin c.dim) (h : ∀ k ≤ c.dim, k ≠ g → corner c x k i ≤ A) : p i ≤ A := by
  have hd := dim_ge c
  have ri := rank_le c x.type ht i
  have := (hp.1.1 i).2
  by_cases hg : g = c.dim
  · have h1 := h (c.dim - 1) (by omega) (by omega)
    simp only [corner] at h1
    by_cases hr : rank c x.type i = c.dim
    · rw [if_neg (by omega)] at h1
      have := hp.2.2.1 hg i hr
      omega
    · rw [if_pos (by omega)] at h1
      omega
  · have h1 := h c.dim (by omega) (by omega)
    simp only [corner] at h1
    rw [if_pos (by omega)] at h1
    omega

theorem face_diff {x : Elem c.dim} (ht : x.type < c.numTypes) {g : Nat} {p : Fin c.dim → Nat} (hp : p ∈ Face c x g)
    {A B : Nat} (i j : Fin c.dim) (h : ∀ k ≤ c.dim, k ≠ g → corner c x k i + A ≤ corner c x k j + B) :
    p i + A ≤ p j + B := by
  have hd := dim_ge c
  have ri := rank_le c x.type ht i
  have rj := rank_le c x.type ht j
  have bi := hp.1.1 i
  have bj := hp.1.1 j
  rcases Nat.lt_trichotomy (rank c x.type i) (rank c x.type j) with hr | hr | hr
  · by_cases hg : g = rank c x.type i
    · by_cases hs : rank c x.type j = rank c x.type i + 1
      · have e1 := hp.2.2.2 i j hg.symm (by omega)
        have h1 := h 0 (by omega) (by omega)
        simp only [corner] at h1
        rw [if_neg (by omega), if_neg (by omega)] at h1
        omega
      · have h1 := h (rank c x.type i + 1) (by omega) (by omega)
        simp only [corner] at h1
        rw [if_pos (by omega), if_neg (by omega)] at h1
        omega
    · have h1 := h (rank c x.type i) (by omega) (by omega)
      simp only [corner] at h1
      rw [if_pos (by omega), if_neg (by omega)] at h1
      omega
  · have := rank_inj c x.type ht i j hr
    subst this
    by_cases hg : g = 0
    · have h1 := h 1 (by omega) (by omega)
      omega
    · have h1 := h 0 (by omega) (by omega)
      omega
  · have e1 := hp.1.2 j i hr
    by_cases hg : g = 0
    · have h1 := h c.dim (by omega) (by omega)
      simp only [corner] at h1
      rw [if_pos (by omega), if_pos (by omega)] at h1
      omega
    · have h1 := h 0 (by omega) (by omega)
      simp only [corner] at h1
      rw [if_neg (by omega), if_neg (by omega)] at h1
      omega

theorem face_sub_points_iff {x : Elem c.dim} (ht : x.type < c.numTypes) {g : Nat} (hg : g ≤ c.dim) (e : Elem c.dim) :
    Face c x g ⊆ Points c e ↔ ∀ k ≤ c.dim, k ≠ g → corner c x k ∈ Points c e := by
  constructor
  · intro h k hk hne
    exact h ((corner_mem_face ht hk hg).2 hne)
  · intro h p hp
    refine ⟨fun i => ⟨?_, ?_⟩, fun i j hij => ?_⟩
    · exact face_lower ht hp i fun k hk hne => ((h k hk hne).1 i).1
    · exact face_upper ht hp i fun k hk hne => ((h k hk hne).1 i).2
    · exact face_diff ht hp j i fun k hk hne => (h k hk hne).2 i j hij

/-- A face lies in another face iff its corners do. -/
theorem face_sub_iff {x : Elem c.dim} (ht : x.type < c.numTypes) {g : Nat} (hg : g ≤ c.dim) (e : Elem c.dim) (f : Nat) :
    Face c x g ⊆ Face c e f ↔ ∀ k ≤ c.dim, k ≠ g → corner c x k ∈ Face c e f := by
  constructor
  · intro h k hk hne
    exact h ((corner_mem_face ht hk hg).2 hne)
  · intro h p hp
    refine ⟨(face_sub_points_iff ht hg e).2 (fun k hk hne => (h k hk hne).1) hp, fun hf i hi => ?_, fun hf i hi => ?_,
      fun i j hi hj => ?_⟩
    · apply le_antisymm
      · exact face_upper ht hp i fun k hk hne => le_of_eq ((h k hk hne).2.1 hf i hi)
      · exact face_lower ht hp i fun k hk hne => le_of_eq ((h k hk hne).2.1 hf i hi).symm
    · apply le_antisymm
      · exact face_upper ht hp i fun k hk hne => le_of_eq ((h k hk hne).2.2.1 hf i hi)
      · exact face_lower ht hp i fun k hk hne => le_of_eq ((h k hk hne).2.2.1 hf i hi).symm
    · apply le_antisymm
      · exact face_diff ht hp i j fun k hk hne => le_of_eq ((h k hk hne).2.2.2 i j hi hj)
      · exact face_diff ht hp j i fun k hk hne => le_of_eq ((h k hk hne).2.2.2 i j hi hj).symm

/-- An element lies in another one iff its corners do. -/
theorem points_sub_iff {x : Elem c.dim} (ht : x.type < c.numTypes) (e : Elem c.dim) :
    Points c x ⊆ Points c e ↔ ∀ k ≤ c.dim, corner c x k ∈ Points c e := by
  constructor
  · intro h k _
    exact h (corner_mem x k)
  · rintro h p ⟨h1, h2⟩
    have hd := dim_ge c
    refine ⟨fun i => ⟨?_, ?_⟩, fun i j hij => ?_⟩
    · have := ((h 0 (by omega)).1 i).1
      have ri := rank_le c x.type ht i
      simp only [corner] at this
      rw [if_neg (by omega)] at this
      have := h1 i
      omega
    · have := ((h c.dim (by omega)).1 i).2
      have ri := rank_le c x.type ht i
      simp only [corner] at this
      rw [if_pos (by omega)] at this
      have := h1 i
      omega
    · have ri := rank_le c x.type ht i
      have rj := rank_le c x.type ht j
      have bi := h1 i
      have bj := h1 j
      rcases Nat.lt_trichotomy (rank c x.type i) (rank c x.type j) with hr | hr | hr
      · have := (h 0 (by omega)).2 i j hij
        have := h2 i j hr
        simp only [corner] at *
        split at * <;> split at * <;> omega
      · have := rank_inj c x.type ht i j hr
        subst this; omega
      · have := (h (rank c x.type j) (by omega)).2 i j hij
        simp only [corner] at this
        rw [if_pos (by omega), if_neg (by omega)] at this
        omega

/-- A face does not contain all corners of an element. -/
theorem not_all_corners {x : Elem c.dim} (ht : x.type < c.numTypes) {e : Elem c.dim} (he : e.type < c.numTypes) {f : Nat}
    (hf : f ≤ c.dim) : ¬ ∀ k ≤ c.dim, corner c x k ∈ Face c e f := by
  intro h
  have hp := size_pos c x.level
  have hd := dim_ge c
  have const : ∀ i A, (∀ k ≤ c.dim, corner c x k i = A) → False := by
    intro i A hA
    have ri := rank_le c x.type ht i
    have h1 := hA 0 (by omega)
    have h2 := hA c.dim (by omega)
    simp only [corner] at h1 h2
    rw [if_neg (by omega)] at h1
    rw [if_pos (by omega)] at h2
    omega
  rcases Nat.eq_zero_or_pos f with h0 | h0
  · obtain ⟨i, hi⟩ := rank_surj c e.type he 0 (by omega)
    exact const i _ fun k hk => (h k hk).2.1 h0 i hi
  · rcases Nat.lt_or_ge f c.dim with h4 | h4
    · obtain ⟨i, hi⟩ := rank_surj c e.type he (f - 1) (by omega)
      obtain ⟨j, hj⟩ := rank_surj c e.type he f (by omega)
      have hij : rank c x.type i ≠ rank c x.type j := by
        intro hr
        have := rank_inj c x.type ht i j hr
        subst this; omega
      have ri := rank_le c x.type ht i
      have rj := rank_le c x.type ht j
      have a := (h 0 (by omega)).2.2.2 i j (by omega) (by omega)
      have b := (h (min (rank c x.type i) (rank c x.type j)) (by omega)).2.2.2 i j (by omega) (by omega)
      simp only [corner] at a b
      rw [if_neg (by omega), if_neg (by omega)] at a
      rcases Nat.lt_or_ge (rank c x.type i) (rank c x.type j) with hr | hr
      · rw [if_pos (by omega), if_neg (by omega)] at b; omega
      · rw [if_neg (by omega), if_pos (by omega)] at b; omega
    · obtain ⟨i, hi⟩ := rank_surj c e.type he (c.dim - 1) (by omega)
      exact const i _ fun k hk => (h k hk).2.2.1 (by omega) i (by omega)

/-- A face of an element that contains `p` and `q` contains the midpoint; if `p` and `q` are points of the element and
the face contains the midpoint, then it contains both. -/
theorem mid_mem_face {e : Elem c.dim} {f : Nat} {p q m : Fin c.dim → Nat} (hp : p ∈ Points c e) (hq : q ∈ Points c e)
    (hm : ∀ i, 2 * m i = p i + q i) : m ∈ Face c e f ↔ p ∈ Face c e f ∧ q ∈ Face c e f := by
  constructor
  · rintro ⟨_, h1, h2, h3⟩
    refine ⟨⟨hp, fun hf i hi => ?_, fun hf i hi => ?_, fun i j hi hj => ?_⟩,
      ⟨hq, fun hf i hi => ?_, fun hf i hi => ?_, fun i j hi hj => ?_⟩⟩
    · have := h1 hf i hi; have := hm i; have := hp.1 i; have := hq.1 i; omega
    · have := h2 hf i hi; have := hm i; have := hp.1 i; have := hq.1 i; omega
    · have := h3 i j hi hj; have := hm i; have := hm j
      have := hp.2 i j (by omega); have := hq.2 i j (by omega); omega
    · have := h1 hf i hi; have := hm i; have := hp.1 i; have := hq.1 i; omega
    · have := h2 hf i hi; have := hm i; have := hp.1 i; have := hq.1 i; omega
    · have := h3 i j hi hj; have := hm i; have := hm j
      have := hp.2 i j (by omega); have := hq.2 i j (by omega); omega
  · rintro ⟨⟨_, a1, a2, a3⟩, ⟨_, b1, b2, b3⟩⟩
    refine ⟨⟨fun i => ?_, fun i j hij => ?_⟩, fun hf i hi => ?_, fun hf i hi => ?_, fun i j hi hj => ?_⟩
    · have := hm i; have := hp.1 i; have := hq.1 i; omega
    · have := hm i; have := hm j; have := hp.2 i j hij; have := hq.2 i j hij; omega
    · have := a1 hf i hi; have := b1 hf i hi; have := hm i; omega
    · have := a2 hf i hi; have := b2 hf i hi; have := hm i; omega
    · have := a3 i j hi hj; have := b3 i j hi hj; have := hm i; have := hm j; omega

/-! ### The corners of the children -/

/-- The number of axes along which corner `k` of child `I` is not at the lower side of an element of type `b`. -/
def midHi (c : Cls) (b I k : Nat) : Nat :=
  (List.finRange c.dim).countP fun i => decide (rank c b i ≤ vertexOf c b I) || decide (rank c (typeOf c b I) i ≤ k)

/-- The number of axes along which it is at the upper side. -/
def midLo (c : Cls) (b I k : Nat) : Nat :=
  (List.finRange c.dim).countP fun i => decide (rank c b i ≤ vertexOf c b I) && decide (rank c (typeOf c b I) i ≤ k)

set_option synthInstance.maxHeartbeats 200000 in
set_option synthInstance.maxSize 1000 in
theorem mid_table (c : Cls) : ∀ b < c.numTypes, ∀ I < c.numChildren, ∀ k ≤ c.dim,
    midHi c b I k ≤ c.dim ∧ midLo c b I k ≤ c.dim ∧ ∀ i : Fin c.dim,
      (rank c b i ≤ midHi c b I k ↔ rank c b i ≤ vertexOf c b I ∨ rank c (typeOf c b I) i ≤ k) ∧
      (rank c b i ≤ midLo c b I k ↔ rank c b i ≤ vertexOf c b I ∧ rank c (typeOf c b I) i ≤ k) := by
  cases c <;> decide +kernel

/-- The corner `k` of child `I` is the midpoint of two corners. -/
theorem corner_child {e : Elem c.dim} (he : Aligned c e) (hl : e.level < c.maxLevel) {I : Nat} (hI : I < c.numChildren)
    {k : Nat} (hk : k ≤ c.dim) (i : Fin c.dim) :
    2 * corner c (child c e I) k i = corner c e (midHi c e.type I k) i + corner c e (midLo c e.type I k) i := by
  have ht := mid_table c e.type he.2 I hI k hk
  have h1 := x_eq_parent (aligned_child he hl hI) (Nat.succ_pos _) i
  rw [parent_child he hl hI] at h1
  have h2 : computeCubeid c (child c e I) (child c e I).level = cidOf c e.type I := cubeid_child he hl hI
  rw [h2, (child_table c e.type he.2 I hI).2.2.2.2.2.2.2 i] at h1
  have h3 := size_succ hl
  have h4 : (child c e I).level = e.level + 1 := rfl
  rw [h4] at h1
  simp only [corner, child_type, h4, h1, h3, decide_eq_true_eq, (ht.2.2 i).1, (ht.2.2 i).2]
  by_cases ha : rank c e.type i ≤ vertexOf c e.type I <;> by_cases hb : rank c (typeOf c e.type I) i ≤ k <;>
    simp [ha, hb] <;> omega

/-- Face `g` of child `I` of an element of type `b` lies in face `f` of the element. -/
def AtFace (c : Cls) (b I g f : Nat) : Prop := ∀ k ≤ c.dim, k ≠ g → midHi c b I k ≠ f ∧ midLo c b I k ≠ f

instance (b I g f : Nat) : Decidable (AtFace c b I g f) := by unfold AtFace; infer_instance

theorem face_child_iff {e : Elem c.dim} (he : Aligned c e) (hl : e.level < c.maxLevel) {I : Nat} (hI : I < c.numChildren)
    {g f : Nat} (hg : g ≤ c.dim) (hf : f ≤ c.dim) : Face c (child c e I) g ⊆ Face c e f ↔ AtFace c e.type I g f := by
  rw [face_sub_iff (aligned_child he hl hI).2 hg]
  refine forall_congr' fun k => forall_congr' fun hk => forall_congr' fun _ => ?_
  have ht := mid_table c e.type he.2 I hI k hk
  rw [mid_mem_face (corner_mem e _) (corner_mem e _) (corner_child he hl hI hk), corner_mem_face he.2 ht.1 hf,
    corner_mem_face he.2 ht.2.1 hf]

theorem points_child {e : Elem c.dim} (he : Aligned c e) (hl : e.level < c.maxLevel) {I : Nat} (hI : I < c.numChildren) :
    Points c (child c e I) ⊆ Points c e := by
  rw [points_sub_iff (aligned_child he hl hI).2]
  intro k hk
  refine ⟨fun i => ?_, fun i j hij => ?_⟩
  · have := corner_child he hl hI hk i
    have := (corner_mem e (midHi c e.type I k)).1 i
    have := (corner_mem e (midLo c e.type I k)).1 i
    omega
  · have := corner_child he hl hI hk i
    have := corner_child he hl hI hk j
    have := (corner_mem e (midHi c e.type I k)).2 i j hij
    have := (corner_mem e (midLo c e.type I k)).2 i j hij
    omega

/-! ### Tables -/

set_option synthInstance.maxHeartbeats 200000 in
set_option synthInstance.maxSize 1000 in
/-- The corners of all but one corner of a child are midpoints of all corners, or of all corners of a face. -/
theorem between_table (c : Cls) : ∀ b < c.numTypes, ∀ I < c.numChildren, ∀ g ≤ c.dim,
    (∀ m ≤ c.dim, ∃ k, k ≤ c.dim ∧ k ≠ g ∧ (m = midHi c b I k ∨ m = midLo c b I k)) ∨
    ∃ h, h ≤ c.dim ∧ AtFace c b I g h ∧
      ∀ m ≤ c.dim, m ≠ h → ∃ k, k ≤ c.dim ∧ k ≠ g ∧ (m = midHi c b I k ∨ m = midLo c b I k) := by
  cases c <;> decide +kernel

/-- The child ids at a face as a function of the type. -/
def idsOf (c : Cls) (b f : Nat) : List Nat := childIdsAtFace c ⟨fun _ => 0, 0, b⟩ f

/-- The number of the face of a child as a function of the type. -/
def childFaceOf (c : Cls) (b f k : Nat) : Nat := faceChildFace c ⟨fun _ => 0, 0, b⟩ f k

theorem idsOf_eq (e : Elem c.dim) (f : Nat) : childIdsAtFace c e f = idsOf c e.type f := by cases c <;> rfl

theorem childFaceOf_eq (e : Elem c.dim) (f k : Nat) : faceChildFace c e f k = childFaceOf c e.type f k := by
  cases c <;> rfl

theorem ids_table (c : Cls) : ∀ b < c.numTypes, ∀ f ≤ c.dim,
    (idsOf c b f).Pairwise (· < ·) ∧ (idsOf c b f).length = c.numFaceChildren ∧ (∀ i ∈ idsOf c b f, i < c.numChildren) ∧
    ∀ i < c.numChildren, (i ∈ idsOf c b f ↔ ∃ g, g ≤ c.dim ∧ AtFace c b i g f) := by
  cases c <;> decide +kernel

theorem childFace_table (c : Cls) : ∀ b < c.numTypes, ∀ f ≤ c.dim, ∀ k < c.numFaceChildren, ∀ g ≤ c.dim,
    AtFace c b ((idsOf c b f).getD k 0) g f ↔ g = childFaceOf c b f k := by
  cases c <;> decide +kernel

end T8.Simplex
