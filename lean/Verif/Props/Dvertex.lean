/-
C01–C09, C12 and C15 for the vertices of the default scheme. A vertex has one child and no faces, so an element is
given by its level, and C10, C11, C13 and C14 speak about nothing.
-/
import Verif.Lemmas.DefaultCommon
import Verif.Model.Dvertex
import Verif.Spec.Scheme

namespace T8.Dvertex
open T8.RTree

/-- `v` is an element of the tree. -/
def Valid (v : Vertex) : Prop := v.level ≤ maxLevel

instance (v : Vertex) : Decidable (Valid v) := inferInstanceAs (Decidable (v.level ≤ maxLevel))

/-- The refinement tree that the functions of the default scheme span. -/
@[reducible] def tree : RTree where
  E := Vertex
  Valid := Valid
  maxLevel := maxLevel
  level := Vertex.level
  root := root
  nc := fun _ => numChildren
  child := child
  parent := parent
  childId := fun v => (childId v).toNat
  valid_root := Nat.zero_le _
  level_root := rfl
  root_unique := fun v _ hl => by cases v; simp_all [root]
  level_le := fun _ h => h
  nc_pos := fun _ _ => Nat.one_pos
  valid_child := fun _ _ _ hl _ => hl
  level_child := fun _ _ _ _ _ => rfl
  parent_child := fun _ _ _ _ _ => rfl
  childId_child := fun _ i _ _ hi => by
    have : i < 1 := hi
    show 0 = i
    omega
  valid_parent := fun v h _ => by show v.level - 1 ≤ _; have : v.level ≤ maxLevel := h; omega
  level_parent := fun v _ hl => by show v.level - 1 + 1 = v.level; omega
  childId_lt := fun _ _ _ => Nat.one_pos
  child_parent := fun v _ hl => by cases v; simp only [parent, child] at *; congr 1; omega

theorem regular : tree.Regular 1 := fun _ _ => rfl

theorem pos_zero {v : Vertex} (hv : Valid v) : pos (T := tree) v = 0 := by
  have := regular.pos_lt (e := v) hv
  rw [Nat.one_pow] at this
  omega

/-- A vertex of level 3, used to show that the hypotheses below can be met. -/
def sample : Vertex := ⟨3⟩

theorem sample_valid : Valid sample := by decide

/-- C01. Parent and child are inverse. -/
theorem C01_vertex (v : Vertex) (hv : Valid v) :
    (v.level < maxLevel → ∀ i, i < numChildren →
      Valid (child v i) ∧ parent (child v i) = v ∧ childId (child v i) = i ∧ (child v i).level = v.level + 1) ∧
    (0 < v.level →
      Valid (parent v) ∧ 0 ≤ childId v ∧ childId v < numChildren ∧ child (parent v) (childId v).toNat = v ∧
      (parent v).level + 1 = v.level) := by
  refine ⟨fun hl i hi => ⟨hl, rfl, ?_, rfl⟩, fun hl => ⟨tree.valid_parent v hv hl, le_refl _, Int.one_pos,
    tree.child_parent v hv hl, tree.level_parent v hv hl⟩⟩
  have : i = 0 := Nat.lt_one_iff.1 hi
  subst this
  rfl

/-- C01. `element_get_children` lists the children by their child numbers. -/
theorem C01_vertex_children (v : Vertex) : children v = (List.range numChildren).map (child v) := rfl

/-- C01. The valid elements are exactly those that can be created by repeated refinement of the root. -/
theorem C01_vertex_reachable (v : Vertex) : Valid v ↔ tree.Desc root v :=
  ⟨fun h => desc_root (T := tree) h, fun h => Desc.valid (T := tree) tree.valid_root h⟩

example : Valid sample ∧ 0 < sample.level ∧ sample.level < maxLevel := by decide

/-- C02. `element_get_linear_id` is the position in the uniform refinement, for all levels. -/
theorem C02_vertex_position : tree.LinearIdSpec (fun v L => (linearId v L).toNat) := by
  apply regular.linearIdSpec
  · intro e L he _
    rw [pos_zero he]; simp [linearId]
  · intro e L he _ _
    rw [pos_zero he]; simp [linearId]

/-- C02. `element_set_linear_id` constructs the element at a position of the uniform refinement. -/
theorem C02_vertex_set : tree.SetLinearIdSpec (fun L id => setLinearId L (BitVec.ofNat 64 id)) := by
  apply regular.setLinearIdSpec
  intro L id hL hid
  have h0 : id = 0 := by rw [Nat.one_pow] at hid; omega
  subst h0
  refine ⟨⟨L⟩, ?_, hL, rfl, pos_zero (v := ⟨L⟩) hL⟩
  have hL' : L ≤ maxLevel := hL
  simp only [setLinearId, assertO, hL', if_true, Option.bind_eq_bind, Option.bind_some, BitVec.ofNat_eq_ofNat]

example : setLinearId 3 0 = some sample ∧ (linearId sample 2).toNat = 0 := by decide

/-- C03. The successor aborts for vertices. Nothing is demanded of it: each level has only one element, which has
no successor. -/
theorem C03_vertex : tree.SuccessorSpec successor ∧ ∀ L, L ≤ maxLevel → (tree.uniform root L).length = 1 := by
  refine ⟨regular.successorSpec fun e _ h => ?_, fun L hL => ?_⟩
  · rw [Nat.one_pow] at h; omega
  · rw [regular.uniform_len (e := root) tree.valid_root (by rw [tree.level_root]; simpa using hL), Nat.one_pow]

/-- C04. First and last descendant are the ends of the uniform refinement of the element. -/
theorem C04_vertex_ends : tree.DescendantSpec firstDescendant lastDescendant := by
  apply regular.descendantSpec
  · intro e L he _ hL
    refine ⟨hL, rfl, ?_⟩
    rw [pos_zero he, Nat.zero_mul]
    exact pos_zero (v := ⟨L⟩) hL
  · intro e L he _ hL
    refine ⟨hL, rfl, ?_⟩
    rw [pos_zero he, Nat.one_pow, Nat.mul_one]
    exact congrArg (· + 1) (pos_zero (v := ⟨L⟩) hL)

/-- C04. The descendants of a level are the interval between first and last descendant. -/
theorem C04_vertex_interval :
    tree.DescendantIntervalSpec (fun v L => (linearId v L).toNat) firstDescendant lastDescendant :=
  descendantIntervalSpec_of C02_vertex_position C04_vertex_ends

example : Valid sample ∧ sample.level ≤ 5 ∧ firstDescendant sample 5 = ⟨5⟩ := by decide

theorem desc_iff_level {v w : Vertex} (hv : Valid v) (hw : Valid w) : tree.Desc v w ↔ v.level ≤ w.level := by
  rw [regular.desc_iff hv hw, pos_zero hv, pos_zero hw]
  simp

/-- C05. The nearest common ancestor. -/
theorem C05_vertex : tree.NcaSpec (fun v w => some (nca v w)) := by
  intro v w hv hw
  have hv' : v.level ≤ maxLevel := hv
  have hm : Valid (nca v w) := by show min _ _ ≤ _; omega
  refine ⟨_, rfl, hm, (desc_iff_level hm hv).2 (Nat.min_le_left _ _), (desc_iff_level hm hw).2 (Nat.min_le_right _ _), ?_⟩
  intro b hb h1 h2
  rw [desc_iff_level hb hv] at h1
  rw [desc_iff_level hb hw] at h2
  exact (desc_iff_level hb hm).2 (le_min h1 h2)

example : nca sample ⟨2⟩ = ⟨2⟩ := by decide

/-- C06. The family test is exact on arrays of valid elements of the right length, also on the root alone. -/
theorem C06_vertex (fam : List Vertex) (hlen : fam.length = numChildren) (hv : ∀ x ∈ fam, Valid x) :
    ∃ b, areFamily fam = some b ∧ (b = true ↔ ∃ p, tree.IsFamilyOf fam p) := by
  obtain ⟨f, rfl⟩ : ∃ f, fam = [f] := by
    match fam, hlen with
    | [a], _ => exact ⟨a, rfl⟩
  have hf : f.level ≤ maxLevel := hv f (by simp)
  refine ⟨_, rfl, ?_⟩
  rw [decide_eq_true_eq]
  constructor
  · intro h
    refine ⟨parent f, tree.valid_parent f hf h, ?_, ?_⟩
    · show f.level - 1 < maxLevel
      omega
    · show [f] = [child (parent f) 0]
      rw [← tree.child_parent f hf h]; rfl
  · rintro ⟨p, _, _, h⟩
    have h' : [f] = [child p 0] := h
    simp only [List.cons.injEq, and_true] at h'
    rw [h']
    exact Nat.succ_pos _

example : areFamily [sample] = some true ∧ areFamily [root] = some false := by decide

/-- C07. The comparison decides the order of the space-filling curve … -/
theorem C07_vertex : tree.CompareSpec compare := by
  apply compareSpec_of_lin C02_vertex_position
  intro x y _ _
  simp only [compare, linearId, lt_irrefl, false_or, true_and]
  constructor
  · show _ ↔ x.level < y.level; omega
  · show _ ↔ x.level = y.level; omega

/-- C07. … which is a strict total order. -/
theorem C07_vertex_total : tree.LtTotalOrder := ltTotalOrder

/-- C08. `element_is_ancestor` is true exactly for ancestors. -/
theorem C08_vertex : tree.IsAncestorSpec isAncestor := Default.isAncestor_spec C02_vertex_position

/-- C08. `element_get_ancestor_id` is the child id of the ancestor. -/
theorem C08_vertex_id (v : Vertex) (l : Nat) (h0 : 0 < l) (hl : l ≤ v.level) :
    ancestorId v l = childId (parent^[v.level - l] v) ∧ (parent^[v.level - l] v).level = l := by
  refine ⟨rfl, ?_⟩
  have : ∀ n (w : Vertex), (parent^[n] w).level = w.level - n := by
    intro n
    induction n with
    | zero => intro w; rfl
    | succ n ih =>
      intro w
      rw [Function.iterate_succ_apply, ih]
      show w.level - 1 - n = _
      omega
  rw [this]; omega

example : isAncestor root sample = true ∧ isAncestor sample ⟨2⟩ = false ∧ compare root sample < 0 := by decide

/-- C09. The leaf count is exact on all elements and levels: 1 for finer levels, 0 for coarser ones. -/
theorem C09_vertex : tree.CountSpec (fun v L => (countLeaves v L).toInt) := by
  intro v L hv hL
  exact Default.countLeaves_eq (T := tree) (dim := 0) regular hv hL (by simp)

/-- C09. The count from the root. -/
theorem C09_vertex_root (L : Nat) (hL : L ≤ maxLevel) :
    (Default.countLeavesFromRoot 0 L).toInt = tree.count root L :=
  Default.countLeaves_root (T := tree) (dim := 0) regular hL (by simp)

example : (countLeaves sample 7).toInt = 1 ∧ (countLeaves sample 2).toInt = 0 := by decide +kernel

/-- C12. The transformation across a face of a line copies the vertex. -/
theorem C12_vertex (v w : Vertex) : transformFace v w = v := rfl

/-- C15. Unpacking a buffer that begins with packed elements gives back the elements, in order, and leaves exactly
the rest of the buffer. -/
theorem C15_vertex (vs : List Vertex) (rest : List Standalone.Word) :
    unpack vs.length (pack vs ++ rest) = some (vs, rest) := by
  induction vs with
  | nil => rfl
  | cons v vs ih =>
    have h1 : pack (v :: vs) ++ rest = Standalone.Word.int8 v.level :: (pack vs ++ rest) := by simp [pack]
    rw [List.length_cons, h1, unpack]
    simp only [Standalone.unpackInt8, Option.bind_eq_bind, Option.bind_some, ih]

/-- C15. The size of the buffer that `element_MPI_Pack_size` provides for is exactly what is written. -/
theorem C15_vertex_size (vs : List Vertex) : (pack vs).countP (fun w => w matches .int8 _) = packSize vs.length ∧
    (pack vs).length = packSize vs.length := by
  induction vs with
  | nil => simp [pack, packSize]
  | cons v vs ih =>
    have h : pack (v :: vs) = Standalone.Word.int8 v.level :: pack vs := by simp [pack]
    simp only [packSize] at ih ⊢
    rw [h, List.countP_cons, ih.1, List.length_cons, List.length_cons, ih.2]
    simp

example : pack [sample, root] ≠ [] := by decide

/-- The functions of the default scheme for vertices. -/
def scheme : Scheme tree where
  isEqual := isEqual
  numSiblings := fun _ => Default.numSiblings 0
  childId := childId
  isRefinable := isRefinable
  linearId := fun e L => (linearId e L).toNat
  setLinearId := fun L id => setLinearId L (BitVec.ofNat 64 id)
  successor := successor
  firstDescendant := firstDescendant
  lastDescendant := lastDescendant
  compare := compare
  isAncestor := isAncestor
  ancestorId := ancestorId
  nca := fun v w => some (nca v w)
  areFamily := areFamily
  countLeavesFromRoot := fun L => (Default.countLeavesFromRoot 0 L).toInt

/-- The default scheme for vertices is lawful, so every theorem about forests over lawful schemes applies to it. -/
theorem scheme_lawful : scheme.Lawful where
  isEqual := fun x y _ _ => by
    show (x.level == y.level) = true ↔ x = y
    cases x; cases y; simp
  numSiblings_pos := fun _ _ => Nat.one_pos
  numSiblings := fun _ _ _ => rfl
  childId := fun _ _ _ => rfl
  childId_root := le_refl _
  root_no_family := Or.inr (Or.inr rfl)
  isRefinable := fun v _ => by show isRefinable v = true ↔ v.level < maxLevel; simp [isRefinable]
  linearId := C02_vertex_position
  setLinearId := C02_vertex_set
  successor := C03_vertex.1
  descendants := C04_vertex_ends
  compare := C07_vertex
  isAncestor := C08_vertex
  ancestorId := fun _ _ _ _ _ => rfl
  nca := C05_vertex
  areFamily := fun fam _ _ hlen hv _ => by
    obtain ⟨b, h1, h2⟩ := C06_vertex fam hlen hv
    exact ⟨b, h1, fun _ => h2⟩
  countLeavesFromRoot := fun L hL _ => C09_vertex_root L hL

theorem scheme_exact : scheme.ExactFamilies := fun fam _ _ hlen hv _ => C06_vertex fam hlen hv

end T8.Dvertex
