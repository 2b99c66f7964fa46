/-
C54: the leaves at a face of a leaf.
-/
import Verif.Lemmas.FaceClass
import Verif.Lemmas.Sample

namespace T8.LeafNeighbor
open T8.RTree T8.Leaf T8.FaceIterate

variable {T : RTree} {In : T.E → Nat → T.E → Nat → Prop} {S : Scheme T} {F : FaceScheme T}

/-- The leaves of an array that is there or not. -/
def leavesOf (a : Option (List T.E × Nat)) : List T.E := (a.map Prod.fst).getD []

/-- The index of the first leaf of an array. -/
def offsetOf (a : Option (List T.E × Nat)) : Nat := (a.map Prod.snd).getD 0

/-- The leaves of the local tree and of the ghost tree that are found are the leaves at face `f` of `n`: each is found once, with its face
and its index, and in the order of the arrays. -/
structure Neighbors (In : T.E → Nat → T.E → Nat → Prop) (n : T.E) (f : Nat) (loc ghost : Option (List T.E × Nat))
    (out : List (Entry T)) : Prop where
  sound : ∀ r ∈ out, At In n f r.elem r.face ∧ ∃ k, ((leavesOf loc)[k]? = some r.elem ∧ r.index = offsetOf loc + k) ∨
    ((leavesOf ghost)[k]? = some r.elem ∧ r.index = offsetOf ghost + k)
  complete : ∀ x, x ∈ leavesOf loc ∨ x ∈ leavesOf ghost → (∃ g, At In n f x g) → ∃ r ∈ out, r.elem = x
  order : out.Pairwise (fun r s => r.index < s.index)

/-- What is given: the leaves are ordered; the ghosts are counted behind the local leaves; the bounds of the owners of the face are
right. -/
structure Given (In : T.E → Nat → T.E → Nat → Prop) (n : T.E) (f : Nat) (rank lower upper : Int)
    (loc ghost : Option (List T.E × Nat)) : Prop where
  ordered : ∀ a, a = loc ∨ a = ghost → T.Ordered (leavesOf a)
  nonempty : ∀ a l o, a = loc ∨ a = ghost → a = some (l, o) → l ≠ []
  indices : ghost ≠ none → offsetOf loc + (leavesOf loc).length ≤ offsetOf ghost
  lowerUpper : ∀ x ∈ leavesOf loc, (∃ g, At In n f x g) → lower ≤ rank ∧ rank ≤ upper
  other : ∀ x ∈ leavesOf ghost, (∃ g, At In n f x g) → lower ≠ rank ∨ upper ≠ rank

theorem Exact.nil_of {n : T.E} {f : Nat} {leaves : List T.E} {offset : Nat} {A : List (Entry T)} (h : Exact In n f leaves offset A)
    (hno : ∀ x ∈ leaves, ¬ ∃ g, At In n f x g) : A = [] := by
  cases A with
  | nil => rfl
  | cons r A =>
    obtain ⟨k, hk, _, hat⟩ := h.sound r List.mem_cons_self
    exact absurd ⟨_, hat⟩ (hno _ (List.mem_of_getElem? hk))

/-- The search in an array that is searched or not. -/
theorem search_option (hS : S.Lawful) (hF : F.Lawful In) {parentFace : T.E → Nat → Option Nat}
    (hP : ∀ e f, T.Valid e → 0 < T.level e → f < F.numFaces e → ∀ g, parentFace e f = some g ↔ In e f (T.parent e) g)
    {n : T.E} (hn : T.Valid n) {f : Nat} (hf : f < F.numFaces n) (treeId : Nat) (a : Option (List T.E × Nat)) (b : Prop) [Decidable b]
    (ho : T.Ordered (leavesOf a)) (hne : ∀ l o, a = some (l, o) → l ≠ [])
    (hup : ∀ x ∈ leavesOf a, T.Desc x n → ∃ g, In n f x g) (hb : ∀ x ∈ leavesOf a, (∃ g, At In n f x g) → b) :
    ∃ A, Exact In n f (leavesOf a) (offsetOf a) A ∧ ∀ buffer out,
      ((∀ x ∈ leavesOf a, ¬ T.Desc x n ∧ ¬ T.Desc n x) ∨ ¬ b → A = [] ∧
        (if b then a.toList else []).foldlM (fun s a => searchArray S F parentFace n f treeId a s) (buffer, out) = some (buffer, out)) ∧
      ((∃ x ∈ leavesOf a, T.Desc x n ∨ T.Desc n x) → b →
        (if b then a.toList else []).foldlM (fun s a => searchArray S F parentFace n f treeId a s) (buffer, out) =
          some (buffer ++ A, out ++ (buffer ++ A))) := by
  cases a with
  | none =>
    refine ⟨[], ⟨by simp, by simp [leavesOf], List.Pairwise.nil⟩, fun buffer out => ⟨fun _ => ⟨rfl, ?_⟩, ?_⟩⟩
    · split <;> rfl
    · rintro ⟨x, hx, _⟩
      simp [leavesOf] at hx
  | some a =>
    obtain ⟨l, o⟩ := a
    obtain ⟨A, h1, h2⟩ := searchArray_spec hS hF hP hn hf treeId ho (hne l o rfl) hup o
    refine ⟨A, h1, fun buffer out => ⟨?_, ?_⟩⟩
    · intro h
      by_cases hb' : b
      · have h3 := (h2 buffer out).1 (h.resolve_right (not_not_intro hb'))
        refine ⟨h3.1, ?_⟩
        rw [if_pos hb']
        show (do let s ← searchArray S F parentFace n f treeId (l, o) (buffer, out); some s) = _
        have := h3.2
        simp only [leavesOf, Option.map_some, Option.getD_some] at this
        rw [this]; rfl
      · refine ⟨h1.nil_of (fun x hx hat => hb' (hb x hx hat)), ?_⟩
        rw [if_neg hb']; rfl
    · intro hex hb'
      have h3 := (h2 buffer out).2 hex
      rw [if_pos hb']
      show (do let s ← searchArray S F parentFace n f treeId (l, o) (buffer, out); some s) = _
      simp only [leavesOf, Option.map_some, Option.getD_some] at h3
      rw [h3]; rfl

/-- The result: with `A` the neighbors in the local tree and `B` those in the ghost tree it is `A` followed by `B` if nothing in the ghost
tree overlaps `n`, and `A` followed by `A` and `B` otherwise. -/
theorem leafFaceNeighbors_spec (hS : S.Lawful) (hF : F.Lawful In) {parentFace : T.E → Nat → Option Nat}
    (hP : ∀ e f, T.Valid e → 0 < T.level e → f < F.numFaces e → ∀ g, parentFace e f = some g ↔ In e f (T.parent e) g)
    {n : T.E} (hn : T.Valid n) {f : Nat} (hf : f < F.numFaces n) (treeId : Nat) {rank lower upper : Int}
    {loc ghost : Option (List T.E × Nat)} (hG : Given In n f rank lower upper loc ghost)
    (hup : ∀ x, x ∈ leavesOf loc ∨ x ∈ leavesOf ghost → T.Desc x n → ∃ g, In n f x g) :
    ∃ A B, Exact In n f (leavesOf loc) (offsetOf loc) A ∧ Exact In n f (leavesOf ghost) (offsetOf ghost) B ∧
      ((∀ x ∈ leavesOf ghost, ¬ T.Desc x n ∧ ¬ T.Desc n x) ∨ ¬ (lower ≠ rank ∨ upper ≠ rank) →
        leafFaceNeighbors S F parentFace n f treeId rank lower upper loc ghost = some (A ++ B)) ∧
      ((∃ x ∈ leavesOf ghost, T.Desc x n ∨ T.Desc n x) → (lower ≠ rank ∨ upper ≠ rank) →
        leafFaceNeighbors S F parentFace n f treeId rank lower upper loc ghost = some (A ++ (A ++ B))) := by
  obtain ⟨A, hA, h1⟩ := search_option hS hF hP hn hf treeId loc (lower ≤ rank ∧ rank ≤ upper) (hG.ordered _ (Or.inl rfl))
    (fun l o => hG.nonempty _ l o (Or.inl rfl)) (fun x hx => hup x (Or.inl hx)) hG.lowerUpper
  obtain ⟨B, hB, h2⟩ := search_option hS hF hP hn hf treeId ghost (lower ≠ rank ∨ upper ≠ rank) (hG.ordered _ (Or.inr rfl))
    (fun l o => hG.nonempty _ l o (Or.inr rfl)) (fun x hx => hup x (Or.inr hx)) hG.other
  have hloc : (if lower ≤ rank ∧ rank ≤ upper then loc.toList else []).foldlM
      (fun s a => searchArray S F parentFace n f treeId a s) ([], []) = some (A, A) := by
    by_cases h : (∃ x ∈ leavesOf loc, T.Desc x n ∨ T.Desc n x) ∧ (lower ≤ rank ∧ rank ≤ upper)
    · have := (h1 [] []).2 h.1 h.2
      simpa using this
    · have := (h1 [] []).1 (by
        rcases not_and_or.1 h with h | h
        · left
          intro x hx
          have := fun hd => h ⟨x, hx, hd⟩
          exact not_or.1 this
        · exact Or.inr h)
      rw [this.1]
      exact this.2
  refine ⟨A, B, hA, hB, ?_, ?_⟩
  · intro h
    have := (h2 A A).1 h
    rw [leafFaceNeighbors, leafArrays, List.foldlM_append, hloc]
    simp only [Option.bind_eq_bind, Option.bind_some, this.2]
    rw [this.1, List.append_nil]
  · intro h h'
    have := (h2 A A).2 h h'
    rw [leafFaceNeighbors, leafArrays, List.foldlM_append, hloc]
    simp only [Option.bind_eq_bind, Option.bind_some, this]

/-- The neighbors in the local tree followed by those in the ghost tree. -/
theorem Neighbors.of_exact {n : T.E} {f : Nat} {rank lower upper : Int} {loc ghost : Option (List T.E × Nat)}
    (hG : Given In n f rank lower upper loc ghost) {A B : List (Entry T)} (hA : Exact In n f (leavesOf loc) (offsetOf loc) A)
    (hB : Exact In n f (leavesOf ghost) (offsetOf ghost) B) : Neighbors In n f loc ghost (A ++ B) where
  sound := by
    intro r hr
    rcases List.mem_append.1 hr with h | h
    · obtain ⟨k, h1, h2, h3⟩ := hA.sound r h
      exact ⟨h3, k, Or.inl ⟨h1, h2⟩⟩
    · obtain ⟨k, h1, h2, h3⟩ := hB.sound r h
      exact ⟨h3, k, Or.inr ⟨h1, h2⟩⟩
  complete := by
    rintro x (hx | hx) hat
    · obtain ⟨r, h1, h2⟩ := hA.complete x hx hat
      exact ⟨r, List.mem_append_left _ h1, h2⟩
    · obtain ⟨r, h1, h2⟩ := hB.complete x hx hat
      exact ⟨r, List.mem_append_right _ h1, h2⟩
  order := by
    refine List.pairwise_append.2 ⟨hA.order, hB.order, ?_⟩
    intro r hr s hs
    obtain ⟨k, h1, h2, _⟩ := hA.sound r hr
    obtain ⟨j, h3, h4, _⟩ := hB.sound s hs
    have h5 := (List.getElem?_eq_some_iff.1 h1).1
    have h6 : ghost ≠ none := by
      rintro rfl
      simp [leavesOf] at h3
    have := hG.indices h6
    omega

/-- The neighbors are exactly the leaves
at the face, if not both arrays have leaves that overlap `n`: no leaf of the local tree is at the face or no ghost overlaps `n`. -/
theorem leaf_neighbors_of_up (hS : S.Lawful) (hF : F.Lawful In) {parentFace : T.E → Nat → Option Nat}
    (hP : ∀ e f, T.Valid e → 0 < T.level e → f < F.numFaces e → ∀ g, parentFace e f = some g ↔ In e f (T.parent e) g)
    {n : T.E} (hn : T.Valid n) {f : Nat} (hf : f < F.numFaces n) (treeId : Nat) {rank lower upper : Int}
    {loc ghost : Option (List T.E × Nat)} (hG : Given In n f rank lower upper loc ghost)
    (hup : ∀ x, x ∈ leavesOf loc ∨ x ∈ leavesOf ghost → T.Desc x n → ∃ g, In n f x g)
    (hone : (∀ x ∈ leavesOf loc, ¬ ∃ g, At In n f x g) ∨ (∀ x ∈ leavesOf ghost, ¬ T.Desc x n ∧ ¬ T.Desc n x)) :
    ∃ out, leafFaceNeighbors S F parentFace n f treeId rank lower upper loc ghost = some out ∧ Neighbors In n f loc ghost out := by
  obtain ⟨A, B, hA, hB, h1, h2⟩ := leafFaceNeighbors_spec hS hF hP hn hf treeId hG hup
  refine ⟨A ++ B, ?_, Neighbors.of_exact hG hA hB⟩
  by_cases h : (∃ x ∈ leavesOf ghost, T.Desc x n ∨ T.Desc n x) ∧ (lower ≠ rank ∨ upper ≠ rank)
  · rcases hone with ho | ho
    · have := h2 h.1 h.2
      rw [hA.nil_of ho] at this ⊢
      exact this
    · obtain ⟨x, hx, hd⟩ := h.1
      exact absurd hd (not_or.2 (ho x hx))
  · refine h1 ?_
    rcases not_and_or.1 h with h | h
    · left
      intro x hx
      have := fun hd => h ⟨x, hx, hd⟩
      exact not_or.1 this
    · exact Or.inr h

/-- If a leaf of the local tree and a ghost are at the face, the result is not the list of the leaves at the face: the
leaves of the local tree are there twice. -/
theorem duplicates_of_up (hS : S.Lawful) (hF : F.Lawful In) {parentFace : T.E → Nat → Option Nat}
    (hP : ∀ e f, T.Valid e → 0 < T.level e → f < F.numFaces e → ∀ g, parentFace e f = some g ↔ In e f (T.parent e) g)
    {n : T.E} (hn : T.Valid n) {f : Nat} (hf : f < F.numFaces n) (treeId : Nat) {rank lower upper : Int}
    {loc ghost : Option (List T.E × Nat)} (hG : Given In n f rank lower upper loc ghost)
    (hup : ∀ x, x ∈ leavesOf loc ∨ x ∈ leavesOf ghost → T.Desc x n → ∃ g, In n f x g) {x y : T.E} (hx : x ∈ leavesOf loc)
    (hxat : ∃ g, At In n f x g) (hy : y ∈ leavesOf ghost) (hyat : ∃ g, At In n f y g) :
    ∃ A B, Neighbors In n f loc ghost (A ++ B) ∧ (∃ r ∈ A, r.elem = x) ∧
      leafFaceNeighbors S F parentFace n f treeId rank lower upper loc ghost = some (A ++ (A ++ B)) ∧
      ¬ Neighbors In n f loc ghost (A ++ (A ++ B)) := by
  obtain ⟨A, B, hA, hB, h1, h2⟩ := leafFaceNeighbors_spec hS hF hP hn hf treeId hG hup
  obtain ⟨r, hr, hre⟩ := hA.complete x hx hxat
  refine ⟨A, B, Neighbors.of_exact hG hA hB, ⟨r, hr, hre⟩, h2 ⟨y, hy, ?_⟩ (hG.other y hy hyat), ?_⟩
  · obtain ⟨g, h | h⟩ := hyat
    · exact Or.inr h.1
    · exact Or.inl h.1
  · intro h
    have := (List.pairwise_append.1 h.order).2.2 r hr r (List.mem_append_left _ hr)
    omega

/-! ### The classes -/

variable {parentFace : T.E → Nat → Option Nat} {neighbor : T.E → Nat → Option (T.E × Nat)}

/-- `n` and its face `g` are the neighbor of a leaf: of a leaf `e` of the same tree, so none of the leaves contains `e` properly, or of a leaf
of another tree, so the face lies in a face of the tree. -/
def OfLeaf (F : FaceScheme T) (In : T.E → Nat → T.E → Nat → Prop) (neighbor : T.E → Nat → Option (T.E × Nat)) (leaves : List T.E)
    (n : T.E) (g : Nat) : Prop :=
  (∃ e f, T.Valid e ∧ f < F.numFaces e ∧ neighbor e f = some (n, g) ∧ ∀ x ∈ leaves, T.Desc x e → x = e) ∨
  (T.Valid n ∧ g < F.numFaces n ∧ ∃ r, In n g T.root r)

theorem OfLeaf.valid (C : FaceClass S F In parentFace neighbor) {leaves : List T.E} {n : T.E} {g : Nat}
    (h : OfLeaf F In neighbor leaves n g) : T.Valid n ∧ g < F.numFaces n := by
  rcases h with ⟨e, f, he, hf, hn, _⟩ | ⟨h1, h2, _⟩
  · obtain ⟨h1, _, _, h4, _⟩ := C.back e f n g he hf hn
    exact ⟨h1, h4⟩
  · exact ⟨h1, h2⟩

theorem OfLeaf.up (C : FaceClass S F In parentFace neighbor) {leaves : List T.E} {n : T.E} {g : Nat}
    (h : OfLeaf F In neighbor leaves n g) {x : T.E} (hx : x ∈ leaves) (hv : T.Valid x) (hd : T.Desc x n) : ∃ k, In n g x k := by
  rcases h with ⟨e, f, he, hf, hn, hl⟩ | ⟨_, _, r, hr⟩
  · exact C.up_inside he hf hn hv (hl x hx) hd
  · exact C.up_across hr hv hd

theorem Given.valid {n : T.E} {g : Nat} {rank lower upper : Int} {loc ghost : Option (List T.E × Nat)}
    (hG : Given In n g rank lower upper loc ghost) {x : T.E} (hx : x ∈ leavesOf loc ∨ x ∈ leavesOf ghost) : T.Valid x := by
  rcases hx with h | h
  · exact Ordered.valid (hG.ordered _ (Or.inl rfl)) (List.mem_iff_getElem?.1 h).choose_spec
  · exact Ordered.valid (hG.ordered _ (Or.inr rfl)) (List.mem_iff_getElem?.1 h).choose_spec

/-- **C54** (partial: the full statement has no hypothesis `hone`; it is false, see `C54_duplicates`). Let `n`, `g` be the same-level neighbor
of a leaf across a face. The leaves that are returned are exactly the leaves at face `g` of `n`, if not both arrays have leaves that overlap
`n`: no leaf of the local tree is at the face or no ghost overlaps `n`. -/
theorem C54_leaf_neighbors_partial (C : FaceClass S F In parentFace neighbor) {n : T.E} {g : Nat} {rank lower upper : Int}
    {loc ghost : Option (List T.E × Nat)} (h : OfLeaf F In neighbor (leavesOf loc ++ leavesOf ghost) n g)
    (hG : Given In n g rank lower upper loc ghost) (treeId : Nat)
    (hone : (∀ x ∈ leavesOf loc, ¬ ∃ k, At In n g x k) ∨ (∀ x ∈ leavesOf ghost, ¬ T.Desc x n ∧ ¬ T.Desc n x)) :
    ∃ out, leafFaceNeighbors S F parentFace n g treeId rank lower upper loc ghost = some out ∧ Neighbors In n g loc ghost out :=
  leaf_neighbors_of_up C.scheme C.faces C.parentFace (h.valid C).1 (h.valid C).2 treeId hG
    (fun _ hx hd => h.up C (List.mem_append.2 hx) (hG.valid hx) hd) hone

/-- **C54** (finding): if a leaf of the local tree and a ghost are at the face, the result is not the list of the leaves at the face: the
leaves of the local tree are there twice. -/
theorem C54_duplicates (C : FaceClass S F In parentFace neighbor) {n : T.E} {g : Nat} {rank lower upper : Int}
    {loc ghost : Option (List T.E × Nat)} (h : OfLeaf F In neighbor (leavesOf loc ++ leavesOf ghost) n g)
    (hG : Given In n g rank lower upper loc ghost) (treeId : Nat) {x y : T.E} (hx : x ∈ leavesOf loc)
    (hxat : ∃ k, At In n g x k) (hy : y ∈ leavesOf ghost) (hyat : ∃ k, At In n g y k) :
    ∃ A B, Neighbors In n g loc ghost (A ++ B) ∧ (∃ r ∈ A, r.elem = x) ∧
      leafFaceNeighbors S F parentFace n g treeId rank lower upper loc ghost = some (A ++ (A ++ B)) ∧
      ¬ Neighbors In n g loc ghost (A ++ (A ++ B)) :=
  duplicates_of_up C.scheme C.faces C.parentFace (h.valid C).1 (h.valid C).2 treeId hG
    (fun _ hx hd => h.up C (List.mem_append.2 hx) (hG.valid hx) hd) hx hxat hy hyat

/-! ### An example: the leaf `c 0` of the small mesh, whose neighbor `c 1` is refined -/

section Example
open T8.Sample T8.Standalone

theorem ordered_loc : Q.Ordered [c 0, d 0] := ordered.sublist (by
  show [c 0, d 0].Sublist [c 0, d 0, d 1, d 2, d 3, c 2, c 3]
  exact List.Sublist.cons_cons _ (List.Sublist.cons_cons _ (List.nil_sublist _)))

theorem ordered_ghost : Q.Ordered [d 1, d 2, c 2] := ordered.sublist (by
  show [d 1, d 2, c 2].Sublist [c 0, d 0, d 1, d 2, d 3, c 2, c 3]
  exact List.Sublist.cons _ (List.Sublist.cons _ (List.Sublist.cons_cons _ (List.Sublist.cons_cons _ (List.Sublist.cons _
    (List.Sublist.cons_cons _ (List.nil_sublist _)))))))

/-- The children 0 and 2 of `c 1` are at the face. -/
theorem at_d {k i : Nat} (hk : (childrenAtFaceIds 2 0)[k]? = some i) (h4 : i < 4) : ∃ g, At (Cls.InFace .quad) (c 1) 0 (d i) g :=
  ⟨_, Or.inl ⟨Desc.child_self (T := Q) (lt_max (by decide)) h4,
    (Cls.faceScheme_lawful .quad).childFace (c 1) 0 k i (valid_c (by decide)) (lt_max (by decide)) (by decide) hk⟩⟩

theorem neighbor_c0 : faceNeighborInside (d := 2) Cls.quad.maxLevel (c 0) 1 = some (c 1, 0) := by
  have h : isInsideRoot (d := 2) Cls.quad.maxLevel (faceNeighbor (d := 2) Cls.quad.maxLevel (c 0) 1) = true := by decide +kernel
  refine (if_pos h).trans ?_
  refine congrArg some (Prod.ext (Elem.ext' (fun i => ?_) (by decide)) (by decide))
  revert i
  decide +kernel

theorem level_d {i : Nat} (h : i < 4) : Q.level (d i) = 2 := by
  have := Q.level_child (c 1) i (valid_c (by decide)) (lt_max (by decide)) h
  rw [level_c (by decide)] at this
  exact this

/-- `c 1` is the neighbor of the leaf `c 0`. -/
theorem ofLeaf_c1 (l : List Q.E) (h : ∀ x ∈ l, Q.Valid x ∧ 1 ≤ Q.level x) :
    OfLeaf (Cls.faceScheme .quad) (Cls.InFace .quad) (fun e f => faceNeighborInside (d := 2) Cls.quad.maxLevel e f) l (c 1) 0 :=
  Or.inl ⟨c 0, 1, valid_c (by decide), by decide, neighbor_c0, fun x hx hd =>
    (hd.eq_of_level (h x hx).1 (by rw [level_c (by decide)]; exact (h x hx).2)).symm⟩

/-- Both local leaves and ghosts are at the face, the hypotheses of `C54_duplicates`. -/
example : OfLeaf (Cls.faceScheme .quad) (Cls.InFace .quad) (fun e f => faceNeighborInside (d := 2) Cls.quad.maxLevel e f)
      ([c 0, d 0] ++ [d 1, d 2, c 2]) (c 1) 0 ∧
    Given (T := Q) (Cls.InFace .quad) (c 1) 0 0 0 1 (some ([c 0, d 0], 0)) (some ([d 1, d 2, c 2], 2)) ∧
    (∃ g, At (Cls.InFace .quad) (c 1) 0 (d 0) g) ∧ (∃ g, At (Cls.InFace .quad) (c 1) 0 (d 2) g) := by
  refine ⟨ofLeaf_c1 _ ?_, ⟨?_, ?_, ?_, ?_, ?_⟩, at_d (k := 0) (by decide) (by decide), at_d (k := 1) (by decide) (by decide)⟩
  · intro x hx
    simp only [List.cons_append, List.nil_append, List.mem_cons, List.not_mem_nil, or_false] at hx
    rcases hx with rfl | rfl | rfl | rfl | rfl
    · exact ⟨valid_c (by decide), (level_c (by decide)).ge⟩
    · exact ⟨valid_d (by decide), by rw [level_d (by decide)]; omega⟩
    · exact ⟨valid_d (by decide), by rw [level_d (by decide)]; omega⟩
    · exact ⟨valid_d (by decide), by rw [level_d (by decide)]; omega⟩
    · exact ⟨valid_c (by decide), (level_c (by decide)).ge⟩
  · rintro a (rfl | rfl)
    · exact ordered_loc
    · exact ordered_ghost
  · rintro a l o (rfl | rfl) h <;> cases h <;> simp
  · intro _; decide
  · intro _ _ _; decide
  · intro _ _ _; decide

/-- All leaves at the face are ghosts, the hypotheses of `C54_leaf_neighbors_partial`. -/
example : OfLeaf (Cls.faceScheme .quad) (Cls.InFace .quad) (fun e f => faceNeighborInside (d := 2) Cls.quad.maxLevel e f)
      ([c 0] ++ [d 1, d 2, c 2]) (c 1) 0 ∧
    Given (T := Q) (Cls.InFace .quad) (c 1) 0 0 0 1 (some ([c 0], 0)) (some ([d 1, d 2, c 2], 1)) ∧
    (∀ x ∈ [c 0], ¬ ∃ g, At (Cls.InFace .quad) (c 1) 0 x g) ∧ (∃ g, At (Cls.InFace .quad) (c 1) 0 (d 2) g) := by
  refine ⟨ofLeaf_c1 _ ?_, ⟨?_, ?_, ?_, ?_, ?_⟩, ?_, at_d (k := 1) (by decide) (by decide)⟩
  · intro x hx
    simp only [List.cons_append, List.nil_append, List.mem_cons, List.not_mem_nil, or_false] at hx
    rcases hx with rfl | rfl | rfl | rfl
    · exact ⟨valid_c (by decide), (level_c (by decide)).ge⟩
    · exact ⟨valid_d (by decide), by rw [level_d (by decide)]; omega⟩
    · exact ⟨valid_d (by decide), by rw [level_d (by decide)]; omega⟩
    · exact ⟨valid_c (by decide), (level_c (by decide)).ge⟩
  · rintro a (rfl | rfl)
    · exact ordered_loc.sublist (List.Sublist.cons_cons _ (List.nil_sublist _))
    · exact ordered_ghost
  · rintro a l o (rfl | rfl) h <;> cases h <;> simp
  · intro _; decide
  · intro _ _ _; decide
  · intro _ _ _; decide
  · intro x hx
    rw [List.mem_singleton] at hx
    subst hx
    have hne : c 0 ≠ c 1 := by
      intro h
      have h1 := Q.childId_child Q.root 0 Q.valid_root (by decide) (by decide)
      have h2 := Q.childId_child Q.root 1 Q.valid_root (by decide) (by decide)
      have h3 : Q.childId (c 0) = Q.childId (c 1) := by rw [h]
      rw [show Q.childId (c 0) = 0 from h1, show Q.childId (c 1) = 1 from h2] at h3
      cases h3
    rintro ⟨g, h | h⟩
    · exact hne (h.1.eq_of_level (valid_c (by decide)) (by rw [level_c (by decide), level_c (by decide)]))
    · exact hne (h.1.eq_of_level (valid_c (by decide)) (by rw [level_c (by decide), level_c (by decide)])).symm

end Example

end T8.LeafNeighbor
