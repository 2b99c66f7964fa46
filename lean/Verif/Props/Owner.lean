/-
C27 and C49: the process that owns an element, and the processes that own descendants at a face.
-/
import Verif.Lemmas.OwnerFace
import Verif.Lemmas.RunLoop
import Verif.Lemmas.Sample
import Verif.Props.StandaloneFaceScheme

namespace T8.Owner
open T8.Spec RTree

variable {T : Nat → RTree} {P K L : Nat} {D : DistForest T P K L} {A : Tables} {g : Nat} {S : Scheme (T g)}

/-- **C27**: an element of level at most `L` has at most one owner. -/
theorem C27_unique {p q : Nat} {e : (T g).E} (hg : g < K) (he : (T g).Valid e) (hl : (T g).level e ≤ L) (hp : D.Owns p g e)
    (hq : D.Owns q g e) : p = q := by
  have hL := D.maxLevel g hg
  obtain ⟨_, h2, _⟩ := firstDesc_spec he (n := L - (T g).level e) (by omega)
  exact owner_unique (by omega) hp hq

/-- **C27**: if the leaves cover the trees, every element of level at most `L` has an owner. -/
theorem C27_exists (hc : D.Complete) {e : (T g).E} (hg : g < K) (he : (T g).Valid e) (hl : (T g).level e ≤ L) : ∃ q, D.Owns q g e := by
  have hL := D.maxLevel g hg
  obtain ⟨h1, h2, _⟩ := firstDesc_spec he (n := L - (T g).level e) (by omega)
  obtain ⟨y, hy, hyd⟩ := (hc g hg).covers (T g).valid_root (desc_root (h1.valid he))
  have hyv := (D.ordered g hg).1 y hy
  have hyl := D.level_le g hg y hy
  refine covers_of_mem hg hy ?_
  rcases hyd with h | h
  · exact h
  · rw [h.eq_of_level (h1.valid he) (by omega)]
    exact Desc.refl

/-- **C27**: `t8_forest_element_check_owner` says whether a process is the owner of an element, and reads only existing entries. -/
theorem C27_check (hA : Matches D A) (hS : S.Lawful) {q : Nat} {e : (T g).E} (he : (T g).Valid e) {isDesc : Bool}
    (hl : if isDesc then (T g).level e = L else (T g).level e ≤ L) (hq : D.Owns q g e) {p : Nat} (hp : p < P) :
    ∃ b, checkOwner S A e g p isDesc = some b ∧ (b = true ↔ D.Owns p g e) := by
  have hg : g < K := by
    obtain ⟨hqP, x, hx, _⟩ := hq
    obtain ⟨j, _, _, j3⟩ := (mem_local hqP).1 hx
    exact (leaf_props j3).1
  refine ⟨_, checkOwner_eq hA hS he hl hq hp, ?_⟩
  rw [decide_eq_true_eq]
  constructor
  · rintro rfl
    exact hq
  · intro h
    exact C27_unique hg he (by cases isDesc <;> simp at hl <;> omega) h hq

/-- **C27**: `t8_forest_element_find_owner_ext` returns the owner of the element for all bounds that contain it and all start guesses
between the bounds, if the array of first descendants has more than `P` entries or a process after the owner has elements.

What is missing: without this condition the search may read behind the end of the array, see `C27_out_of_bounds`. The array
that the library creates has `P` entries. -/
theorem C27_find_ext_partial (hA : Matches D A) (hS : S.Lawful) {q : Nat} {e : (T g).E} (he : (T g).Valid e) {isDesc : Bool}
    (hl : if isDesc then (T g).level e = L else (T g).level e ≤ L) (hq : D.Owns q g e)
    (hr : P < A.firstDescs.length ∨ ∃ r, q < r ∧ r < P ∧ D.part.Nonempty r) {lower upper guess : Int} (h0 : 0 ≤ lower)
    (hlo : lower ≤ q) (hup : q ≤ upper) (hP : upper < P) (hg : lower ≤ guess) (hg' : guess ≤ upper) :
    findOwnerExt S A g e lower upper guess isDesc = some (q : Int) :=
  findOwnerExt_eq hA hS he hl hq hr h0 hlo hup hP ⟨hg, hg'⟩

/-- **C27**: `t8_forest_element_find_owner`, under the same condition. -/
theorem C27_find_partial (hA : Matches D A) (hS : S.Lawful) {q : Nat} {e : (T g).E} (he : (T g).Valid e) (hl : (T g).level e ≤ L)
    (hq : D.Owns q g e) (hr : P < A.firstDescs.length ∨ ∃ r, q < r ∧ r < P ∧ D.part.Nonempty r) :
    findOwner S A g e = some (q : Int) := by
  have hqP := hq.1
  have hP : A.mpisize = P := hA.size
  unfold findOwner
  have := Int.tdiv_eq_ediv_of_nonneg (a := A.mpisize - 1) (b := 2) (by omega)
  refine C27_find_ext_partial hA hS he (isDesc := false) (by simpa using hl) hq hr ?_ ?_ ?_ ?_ ?_ ?_ <;> omega

/-- Finding: with `P` entries in the array of first descendants, as the library creates it, the search reads behind the end of the
array whenever the start guess is the owner and no later process has elements. -/
theorem C27_out_of_bounds (hA : Matches D A) (hS : S.Lawful) {q : Nat} {e : (T g).E} (he : (T g).Valid e) {isDesc : Bool}
    (hl : if isDesc then (T g).level e = L else (T g).level e ≤ L) (hq : D.Owns q g e) (hlen : A.firstDescs.length = P)
    (hlast : ∀ r, q < r → r < P → ¬ D.part.Nonempty r) {lower upper : Int} (hlt : lower < upper) :
    findOwnerExt S A g e lower upper q isDesc = none :=
  findOwnerExt_none hA hS he hl hq hlen hlast hlt

/-- Finding: the same for the search without bounds, for example on two processes of which only the first has elements. -/
theorem C27_find_out_of_bounds (hA : Matches D A) (hS : S.Lawful) {e : (T g).E} (he : (T g).Valid e) (hl : (T g).level e ≤ L)
    (hP : 1 < P) (hq : D.Owns ((P - 1) / 2) g e) (hlen : A.firstDescs.length = P)
    (hlast : ∀ r, (P - 1) / 2 < r → r < P → ¬ D.part.Nonempty r) : findOwner S A g e = none := by
  have h := C27_out_of_bounds hA hS he (isDesc := false) (by simpa using hl) hq hlen hlast (lower := 0) (upper := A.mpisize - 1)
    (by rw [hA.size]; omega)
  rw [findOwner, Int.tdiv_eq_ediv_of_nonneg (by rw [hA.size]; omega)]
  rw [show (A.mpisize - 1) / 2 = (((P - 1) / 2 : Nat) : Int) by rw [hA.size]; omega]
  exact h

variable {F : FaceScheme (T g)} {In : (T g).E → Nat → (T g).E → Nat → Prop}

/-- The bounds that a caller gives to `t8_forest_element_owners_at_face`: none, or a pair of processes. -/
def Bounds (P : Nat) (owners : List Int) (lower upper : Nat) : Prop :=
  upper < P ∧ ((owners = [] ∧ lower = 0 ∧ upper = P - 1) ∨ (∃ rest, owners = (lower : Int) :: (upper : Int) :: rest))

theorem ownerBounds_eq {owners : List Int} {lower upper : Nat} (hP : A.mpisize = P) (h : Bounds P owners lower upper) :
    ownerBounds A owners = some ((lower : Int), (upper : Int)) := by
  obtain ⟨h1, ⟨rfl, rfl, rfl⟩ | ⟨rest, rfl⟩⟩ := h
  · simp [ownerBounds, hP]; omega
  · simp [ownerBounds, rd]

/-- **C49**: `t8_forest_element_owners_at_face` returns, in ascending order, exactly the processes that own a descendant of the finest
level at the face, if the bounds given to it contain them, under the condition of C27 on the array of first descendants.

What is missing: as for `C27_find_ext_partial`. -/
theorem C49_owners_partial (hA : Matches D A) (hS : S.Lawful) (hF : F.Lawful In) (hg : g < K) {e : (T g).E} {f : Nat}
    (he : (T g).Valid e) (hl : (T g).level e ≤ L) (hf : f < F.numFaces e)
    (hcov : ∀ d h, (T g).Desc e d → (T g).level d = L → In d h e f → ∃ q, D.Covers q g d)
    {owners : List Int} {lower upper : Nat} (hb : Bounds P owners lower upper)
    (hown : ∀ q, D.OwnsAtFace In q e f → lower ≤ q ∧ q ≤ upper)
    (hr : P < A.firstDescs.length ∨ ∃ r, r < P ∧ D.part.Nonempty r ∧ ∀ q, D.OwnsAtFace In q e f → q < r) :
    ∃ l, ownersAtFace S A F g e f owners = some l ∧ l.Pairwise (· < ·) ∧ ∀ x, x ∈ l ↔ ∃ q : Nat, D.OwnsAtFace In q e f ∧ x = q := by
  have hup := hb.1
  have hL := D.maxLevel g hg
  obtain ⟨a1, a2, ⟨ag, a3⟩, _⟩ := hF.firstDescendantFace e f L he hf hl hL
  obtain ⟨qa, hqa⟩ := hcov _ ag a1 a2 a3
  have hqaf : D.OwnsAtFace In qa e f := ⟨_, ag, a1, a2, a3, hqa⟩
  have hqa' := hown qa hqaf
  unfold ownersAtFace
  rw [ownerBounds_eq hA.size hb]
  simp only [Option.bind_eq_bind, Option.bind_some, Option.pure_def]
  rw [assertO_true (by rw [hA.size]; omega)]
  simp only [Option.bind_some]
  by_cases heq : (lower : Int) = upper
  · rw [if_pos heq]
    refine ⟨_, rfl, by simp, ?_⟩
    intro x
    rw [List.mem_singleton]
    constructor
    · rintro rfl
      exact ⟨qa, hqaf, by omega⟩
    · rintro ⟨q, hq, rfl⟩
      have := hown q hq
      omega
  · rw [if_neg heq, if_neg (by omega)]
    obtain ⟨o', h1, h2, h3⟩ := ownersRec_spec hA hS hF hg hup (L - (T g).level e) e f he hf (by omega) hcov
      (by
        intro q hq
        refine ⟨(hown q hq).1, (hown q hq).2, ?_⟩
        rcases hr with h | ⟨r, r1, r2, r3⟩
        · exact Or.inl h
        · exact Or.inr ⟨r, r3 q hq, r1, r2⟩)
      none none (by simp) (by simp) [] (by simp) (by simp) (by simp)
    exact ⟨o', h1, h2, by intro x; rw [h3]; simp⟩

/-- **C49**: `t8_forest_element_owners_at_face_bounds` makes the bounds tight: they become the least and the greatest owner at the face. -/
theorem C49_face_bounds_partial (hA : Matches D A) (hS : S.Lawful) (hF : F.Lawful In) (hg : g < K) {e : (T g).E} {f : Nat}
    (he : (T g).Valid e) (hl : (T g).level e ≤ L) (hf : f < F.numFaces e)
    (hcov : ∀ d h, (T g).Desc e d → (T g).level d = L → In d h e f → ∃ q, D.Covers q g d)
    {lower upper : Nat} (hup : upper < P) (hown : ∀ q, D.OwnsAtFace In q e f → lower ≤ q ∧ q ≤ upper)
    (hr : P < A.firstDescs.length ∨ ∃ r, r < P ∧ D.part.Nonempty r ∧ ∀ q, D.OwnsAtFace In q e f → q < r) :
    ∃ a b : Nat, ownersAtFaceBounds S A F g e f lower upper = some ((a : Int), (b : Int)) ∧ D.OwnsAtFace In a e f ∧
      D.OwnsAtFace In b e f ∧ ∀ q, D.OwnsAtFace In q e f → a ≤ q ∧ q ≤ b := by
  have hL := D.maxLevel g hg
  have hread : ∀ q, D.OwnsAtFace In q e f → Readable D A q := by
    intro q hq
    rcases hr with h | ⟨r, r1, r2, r3⟩
    · exact Or.inl h
    · exact Or.inr ⟨r, r3 q hq, r1, r2⟩
  obtain ⟨a1, a2, ⟨ag, a3⟩, a4⟩ := hF.firstDescendantFace e f L he hf hl hL
  obtain ⟨b1, b2, ⟨bg, b3⟩, b4⟩ := hF.lastDescendantFace e f L he hf hl hL
  obtain ⟨qa, hqa⟩ := hcov _ ag a1 a2 a3
  obtain ⟨qb, hqb⟩ := hcov _ bg b1 b2 b3
  have hqaf : D.OwnsAtFace In qa e f := ⟨_, ag, a1, a2, a3, hqa⟩
  have hqbf : D.OwnsAtFace In qb e f := ⟨_, bg, b1, b2, b3, hqb⟩
  have ha := hown qa hqaf
  have hb := hown qb hqbf
  have hmin : ∀ q, D.OwnsAtFace In q e f → qa ≤ q ∧ q ≤ qb := by
    rintro q ⟨d, h, c1, c2, c3, c4⟩
    refine ⟨owner_mono a2 c2 hqa c4 (lid_le_of a2 c2 hL (a4 _ h c1 c2 c3)), owner_mono c2 b2 c4 hqb (lid_le_of c2 b2 hL ?_)⟩
    rcases b4 _ h c1 c2 c3 with h | h
    · exact Or.inl h.symm
    · exact Or.inr h
  have hab := hmin qb hqbf
  unfold ownersAtFaceBounds
  by_cases hge : (lower : Int) ≥ upper
  · rw [if_pos hge]
    have e1 : lower = qa := by omega
    have e2 : upper = qb := by omega
    exact ⟨qa, qb, by rw [e1, e2], hqaf, hqbf, hmin⟩
  · rw [if_neg hge, hA.level]
    rw [findOwnerExt_eq hA hS (a1.valid he) (b := true) (by simpa using a2) ((owns_of_level a2).2 hqa) (hread _ hqaf) (by omega) (by omega)
      (by omega) (by omega) (by omega)]
    simp only [Option.bind_eq_bind, Option.bind_some]
    rw [findOwnerExt_eq hA hS (b1.valid he) (b := true) (by simpa using b2) ((owns_of_level b2).2 hqb) (hread _ hqbf) (by omega) (by omega)
      (by omega) (by omega) (by omega)]
    exact ⟨qa, qb, rfl, hqaf, hqbf, hmin⟩

/-- **C49**: `t8_forest_element_owners_bounds` makes the bounds tight: they become the least and the greatest owner of descendants of the
element. -/
theorem C49_bounds_partial (hA : Matches D A) (hS : S.Lawful) (hg : g < K) {e : (T g).E} (he : (T g).Valid e) (hl : (T g).level e ≤ L)
    (hcov : ∀ d, (T g).Desc e d → (T g).level d = L → ∃ q, D.Covers q g d)
    {lower upper : Nat} (hup : upper < P) (hown : ∀ q, D.OwnsDescendant q g e → lower ≤ q ∧ q ≤ upper)
    (hr : P < A.firstDescs.length ∨ ∃ r, r < P ∧ D.part.Nonempty r ∧ ∀ q, D.OwnsDescendant q g e → q < r) :
    ∃ a b : Nat, ownersBounds S A g e lower upper = some ((a : Int), (b : Int)) ∧ D.OwnsDescendant a g e ∧
      D.OwnsDescendant b g e ∧ ∀ q, D.OwnsDescendant q g e → a ≤ q ∧ q ≤ b := by
  have hL := D.maxLevel g hg
  have hread : ∀ q, D.OwnsDescendant q g e → Readable D A q := by
    intro q hq
    rcases hr with h | ⟨r, r1, r2, r3⟩
    · exact Or.inl h
    · exact Or.inr ⟨r, r3 q hq, r1, r2⟩
  obtain ⟨a1, a2, a3⟩ := firstDesc_spec he (n := L - (T g).level e) (by omega)
  obtain ⟨b1, b2, b3⟩ := lastDesc_spec he (n := L - (T g).level e) (by omega)
  replace a2 : (T g).level ((T g).firstDesc e (L - (T g).level e)) = L := by omega
  replace b2 : (T g).level ((T g).lastDesc e (L - (T g).level e)) = L := by omega
  obtain ⟨qa, hqa⟩ := hcov _ a1 a2
  obtain ⟨qb, hqb⟩ := hcov _ b1 b2
  have hqaf : D.OwnsDescendant qa g e := ⟨_, a1, a2, hqa⟩
  have hqbf : D.OwnsDescendant qb g e := ⟨_, b1, b2, hqb⟩
  have ha := hown qa hqaf
  have hb := hown qb hqbf
  have hmin : ∀ q, D.OwnsDescendant q g e → qa ≤ q ∧ q ≤ qb := by
    rintro q ⟨d, c1, c2, c4⟩
    have hd := c1.lid_bounds he (L := L) c2.le hL
    have h3 := a3 L
    have h4 := b3 L (by omega) hL
    rw [count_self' b2] at h4
    rw [count_self' c2] at hd
    exact ⟨owner_mono a2 c2 hqa c4 (by omega), owner_mono c2 b2 c4 hqb (by omega)⟩
  have hab := hmin qb hqbf
  unfold ownersBounds
  by_cases hge : (lower : Int) ≥ upper
  · rw [if_pos hge]
    have e1 : lower = qa := by omega
    have e2 : upper = qb := by omega
    exact ⟨qa, qb, by rw [e1, e2], hqaf, hqbf, hmin⟩
  · rw [if_neg hge, hA.level, (hS.descendants.eq he hl hL).1, (hS.descendants.eq he hl hL).2]
    rw [findOwnerExt_eq hA hS (a1.valid he) (b := true) (by simpa using a2) ((owns_of_level a2).2 hqa) (hread _ hqaf) (by omega) (by omega)
      (by omega) (by omega) (by omega)]
    simp only [Option.bind_eq_bind, Option.bind_some]
    rw [findOwnerExt_eq hA hS (b1.valid he) (b := true) (by simpa using b2) ((owns_of_level b2).2 hqb) (hread _ hqbf) (by omega) (by omega)
      (by omega) (by omega) (by omega)]
    exact ⟨qa, qb, rfl, hqaf, hqbf, hmin⟩

end T8.Owner

/-! ### A forest of two trees -/

namespace T8.Owner.Example
open T8.Spec RTree T8.Sample T8.Standalone

abbrev TQ : Nat → RTree := fun _ => Q

def leafN (n : Nat) : Q.E := Sample.leaves.getD n Q.root

/-- Two quadrilaterals with seven leaves each on four processes; process 1 has no leaves. -/
def D : DistForest TQ 4 2 2 where
  leaves := fun _ => Sample.leaves
  ordered := fun _ _ => Sample.ordered
  nonempty := fun _ _ => by simp [Sample.leaves]
  level_le := fun _ _ => (show ∀ x ∈ Sample.leaves, Q.level x ≤ 2 by decide +kernel)
  maxLevel := fun _ _ => (show 2 ≤ Q.maxLevel by decide)
  part := ⟨fun p => [0, 3, 3, 10, 14].getD p 14, by decide, rfl, by decide +kernel, by decide⟩

def R : TreePartition ((4 : Nat) : Int) ((2 : Nat) : Int) where
  first := fun p => if p ≤ 0 then 0 else if p = 1 then 1 else if p = 2 then 0 else 1
  last := fun p => if p ≤ 0 then 0 else if p = 1 then 0 else 1
  pos := by decide
  first_zero := by decide
  last_top := by decide
  nonneg := by intro p h0 h1; split_ifs <;> omega
  len := by intro p h0 h1; split_ifs <;> omega
  next := by intro p h0 h1; split_ifs <;> omega

/-- The arrays of this forest. The array of first descendants has four entries. -/
def A : Tables := ⟨4, 2, 2, [0, 1, -1, -2, 2], [0, 3, 3, 10, 14], [0, 0, 6, 6]⟩

theorem R_encodes : R.Encodes A.treeOffsets := by
  have hs : ∀ p : Int, 0 ≤ p → p < 4 → (R.SharesFirst p ↔ p = 2 ∨ p = 3) := by
    intro p h0 h1
    rw [R.sharesFirst_iff h0 h1]
    simp only [R]
    split_ifs <;> omega
  refine ⟨by decide, ?_, by decide⟩
  intro p h0 h1
  have h1' : p < 4 := h1
  have := hs p h0 h1'
  obtain rfl | rfl | rfl | rfl : p = 0 ∨ p = 1 ∨ p = 2 ∨ p = 3 := by omega
  all_goals simp [this]; decide

theorem local0 : D.localLeaves 0 = [⟨0, leafN 0⟩, ⟨0, leafN 1⟩, ⟨0, leafN 2⟩] := rfl
theorem local1 : D.localLeaves 1 = [] := rfl
theorem local2 : D.localLeaves 2 = [⟨0, leafN 3⟩, ⟨0, leafN 4⟩, ⟨0, leafN 5⟩, ⟨0, leafN 6⟩, ⟨1, leafN 0⟩, ⟨1, leafN 1⟩, ⟨1, leafN 2⟩] := rfl
theorem local3 : D.localLeaves 3 = [⟨1, leafN 3⟩, ⟨1, leafN 4⟩, ⟨1, leafN 5⟩, ⟨1, leafN 6⟩] := rfl

theorem mem_tree {g : Nat} {l : List (Σ g, (TQ g).E)} : (∃ x, ⟨g, x⟩ ∈ l) ↔ g ∈ l.map Sigma.fst := by
  rw [List.mem_map]
  constructor
  · rintro ⟨x, hx⟩; exact ⟨_, hx, rfl⟩
  · rintro ⟨⟨_, x⟩, hx, rfl⟩; exact ⟨x, hx⟩

theorem arrays : D.Arrays A.treeOffsets A.elementOffsets A.firstDescs := by
  refine ⟨⟨R, R_encodes, ?_⟩, by decide +kernel, ?_⟩
  · intro p g
    by_cases hp : p < 4
    · obtain rfl | rfl | rfl | rfl : p = 0 ∨ p = 1 ∨ p = 2 ∨ p = 3 := by omega
      · rw [mem_tree, local0]; simp [TreePartition.Owns, R]
      · rw [mem_tree, local1]; simp [TreePartition.Owns, R]; omega
      · rw [mem_tree, local2]; simp [TreePartition.Owns, R]; omega
      · rw [mem_tree, local3]; simp [TreePartition.Owns, R]; omega
    · constructor
      · intro h; have := h.2.1; omega
      · rintro ⟨h, _⟩; omega
  · intro p hp
    obtain rfl | rfl | rfl | rfl : p = 0 ∨ p = 1 ∨ p = 2 ∨ p = 3 := by omega
    · refine ⟨0, rfl, ?_⟩
      rw [local0]
      rintro y ⟨⟩
      decide +kernel
    · exact ⟨0, rfl, by rw [local1]; simp⟩
    · refine ⟨6, rfl, ?_⟩
      rw [local2]
      rintro y ⟨⟩
      decide +kernel
    · refine ⟨6, rfl, ?_⟩
      rw [local3]
      rintro y ⟨⟩
      decide +kernel

theorem hA : Matches D A := ⟨rfl, rfl, rfl, arrays⟩

/-- The forest and its arrays meet the hypotheses: process 2 owns the last child of the root of tree 0, and process 3, which comes
after it, has leaves. -/
theorem find_example : findOwner (Cls.scheme .quad) A 0 (c 3) = some 2 :=
  C27_find_partial (T := TQ) (g := 0) (q := 2) hA (Cls.scheme_lawful .quad) (valid_c (by decide)) (by rw [level_c (by decide)]; decide)
    ⟨by decide, leafN 6, by rw [local2]; simp, firstDesc_spec (valid_c (by decide)) (by decide +kernel) |>.1⟩
    (Or.inr ⟨3, by decide, by decide, (show 10 < 14 by decide)⟩)

/-- In tree 1, process 3 is the owner of this element. Started with process 3, the search reads behind the end of the array. -/
theorem out_of_bounds_example : findOwnerExt (Cls.scheme .quad) A 1 (c 3) 0 3 3 false = none :=
  C27_out_of_bounds (T := TQ) (g := 1) (q := 3) hA (Cls.scheme_lawful .quad) (valid_c (by decide))
    (by rw [level_c (by decide)]; decide)
    ⟨by decide, leafN 6, by rw [local3]; simp, firstDesc_spec (valid_c (by decide)) (by decide +kernel) |>.1⟩
    rfl (by intro r h1 h2; omega) (by decide)

/-- The hypotheses of C49 are met for face 1 of the root of tree 0, whose descendants belong to the processes 0 and 2. -/
theorem owners_example : ∃ l, ownersAtFace (Cls.scheme .quad) A (Cls.faceScheme .quad) 0 Q.root 1 [0, 3] = some l ∧
    l.Pairwise (· < ·) ∧ ∀ x, x ∈ l ↔ ∃ q : Nat, D.OwnsAtFace (g := 0) (Cls.InFace .quad) q Q.root 1 ∧ x = q := by
  have hcov : ∀ d : Q.E, Q.Desc Q.root d → Q.level d = 2 → ∃ q, D.Covers q 0 d := by
    intro d hd hl
    obtain ⟨q, hq⟩ := C27_exists (D := D) (g := 0) (fun _ _ => Sample.tiles) (by decide) (hd.valid Q.valid_root) hl.le
    exact ⟨q, (owns_of_level (D := D) hl).1 hq⟩
  have hown : ∀ q, D.OwnsAtFace (g := 0) (Cls.InFace .quad) q Q.root 1 → q < 3 := by
    rintro q ⟨d, h, _, _, _, hq, x, hx, _⟩
    by_contra hc
    obtain rfl : q = 3 := by omega
    rw [local3] at hx
    simp at hx
  exact C49_owners_partial (T := TQ) (g := 0) (lower := 0) (upper := 3) hA (Cls.scheme_lawful .quad) (Cls.faceScheme_lawful .quad)
    (by decide) Q.valid_root (by decide) (by decide) (fun d _ h1 h2 _ => hcov d h1 h2) ⟨by decide, Or.inr ⟨[], rfl⟩⟩
    (fun q hq => ⟨by omega, by have := hown q hq; omega⟩) (Or.inr ⟨3, by decide, (show 10 < 14 by decide), hown⟩)

end T8.Owner.Example
