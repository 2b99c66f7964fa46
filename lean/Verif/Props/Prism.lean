/-
C01–C09 and C15 for the prisms of the default scheme.

`Valid e` (Spec/Prism.lean) says that `e` is the product of a triangle and of a line of their trees, of the same level;
`C01_prism_reachable` shows that these are exactly the elements that can be created from the root by taking children.
-/
import Verif.Lemmas.PrismFaces
import Verif.Props.Simplex
import Verif.Spec.Scheme

namespace T8.Prism
open T8.RTree T8.Bits
open T8.Simplex (Cls)

/-- An element of level 3, used to show that the hypotheses below can be met. -/
def sample : Prism := child (child (child root 2) 5) 3

theorem valid_root : Valid root := tree.valid_root

theorem sample_valid : Valid sample :=
  valid_child (valid_child (valid_child valid_root (by decide) (by decide)) (by decide) (by decide)) (by decide) (by decide)

/-! ### C01 -/

/-- C01. Parent and child are inverse. -/
theorem C01_prism (e : Prism) (he : Valid e) :
    (level e < maxLevel → ∀ i, i < numChildren →
      Valid (child e i) ∧ parent (child e i) = e ∧ childId (child e i) = i ∧ level (child e i) = level e + 1) ∧
    (0 < level e →
      Valid (parent e) ∧ 0 ≤ childId e ∧ childId e < numChildren ∧ child (parent e) (childId e).toNat = e ∧
      level (parent e) + 1 = level e) := by
  refine ⟨fun hl i hi => ⟨valid_child he hl hi, tree.parent_child e i he hl hi, ?_, rfl⟩, fun hl => ?_⟩
  · rw [childId_nat (valid_child he hl hi)]
    exact congrArg Nat.cast (tree.childId_child e i he hl hi)
  · have h1 : tree.childId e < 8 := tree.childId_lt e he hl
    have h2 := childId_nat he
    refine ⟨valid_parent he hl, by omega, by show _ < ((8 : Nat) : Int); omega, ?_, tree.level_parent e he hl⟩
    rw [h2]
    exact tree.child_parent e he hl

/-- C01. `element_get_children` lists the children by their child numbers. -/
theorem C01_prism_children (e : Prism) : children e = (List.range numChildren).map (child e) := rfl

/-- C01. The valid elements are exactly those that can be created by repeated refinement of the root. -/
theorem C01_prism_reachable (e : Prism) : Valid e ↔ tree.Desc root e :=
  ⟨fun h => desc_root (T := tree) h, fun h => Desc.valid (T := tree) valid_root h⟩

/-- C01. Different child numbers give different children. -/
theorem C01_prism_distinct (e : Prism) (he : Valid e) (hl : level e < maxLevel) (i j : Nat)
    (hi : i < numChildren) (hj : j < numChildren) (h : child e i = child e j) : i = j :=
  child_inj (T := tree) he hl hi hj h

/-- C01. The children lie inside of the element. -/
theorem C01_prism_inside (e : Prism) (he : Valid e) (hl : level e < maxLevel) (i : Nat) (hi : i < numChildren) :
    Points (child e i) ⊆ Points e := by
  have hl' : e.2.level < 21 := hl
  have hi' : i < 8 := hi
  rintro p ⟨h1, h2⟩
  exact ⟨Simplex.C01_simplex_inside .tri e.1 he.1 (by rw [tri_level he]; show _ < 29; omega) (i % 4)
    (by show _ < 4; omega) h1, line_inside he.2.1 (by omega) (by omega) h2⟩

/-- C01. `t8_dprism_vertex_integer_coords` gives the corners of the element, in the coordinates of a root of length
`2^21`. -/
theorem C01_prism_vertex (e : Prism) (he : Valid e) (v : Nat) (hv : v < 6) :
    (vertexCoords e v).1.toNat * 2 ^ 8 = Simplex.corner .tri e.1 (v % 3) (0 : Fin 2) ∧
    (vertexCoords e v).2.1.toNat * 2 ^ 8 = Simplex.corner .tri e.1 (v % 3) (1 : Fin 2) ∧
    (vertexCoords e v).2.2.toNat * 2 ^ 9 = e.2.x.toNat + v / 3 * 2 ^ (30 - e.2.level) := by
  have hl : e.2.level ≤ 21 := he.2.2.2
  have key : ∀ (x : BitVec 32) (n : Nat), n < 31 → x.toNat < 2 ^ 31 → 2 ^ n ∣ x.toNat →
      (x.sdiv (BitVec.twoPow 32 n)).toNat * 2 ^ n = x.toNat := by
    intro x n hn hx hd
    have h1 : (BitVec.twoPow 32 n).toNat = 2 ^ n := toNat_twoPow (by omega)
    have h2 : 2 ^ n < 2 ^ 31 := Nat.pow_lt_pow_right (by omega) hn
    have m1 : x.msb = false := by rw [BitVec.msb_eq_false_iff_two_mul_lt]; omega
    have m2 : (BitVec.twoPow 32 n).msb = false := by rw [BitVec.msb_eq_false_iff_two_mul_lt, h1]; omega
    rw [BitVec.sdiv_eq, m1, m2, BitVec.udiv_eq, BitVec.toNat_udiv, h1, Nat.div_mul_cancel hd]
  have tri : ∀ i : Fin 2, ((Simplex.integerCoords .tri e.1 (v % 3) i).sdiv (BitVec.twoPow 32 8)).toNat * 2 ^ 8 =
      Simplex.corner .tri e.1 (v % 3) i := by
    intro i
    have h1 := (Simplex.C01_simplex_vertex .tri e.1 he.1 (v % 3) (by show _ ≤ 2; omega) i).1
    have h2 := Simplex.x_add_le he.1.aligned i
    have h3 : Simplex.corner .tri e.1 (v % 3) i ≤ 2 ^ 29 := by
      rw [Simplex.corner]
      split
      · exact h2
      · exact le_trans (Nat.le_add_right _ _) h2
    have hd : 2 ^ 8 ∣ Simplex.size .tri e.1.level := by
      show 2 ^ 8 ∣ 2 ^ (29 - e.1.level)
      exact pow_dvd (by rw [tri_level he]; omega)
    have hd2 : 2 ^ 8 ∣ Simplex.corner .tri e.1 (v % 3) i := by
      rw [Simplex.corner]
      have hx : Simplex.size .tri e.1.level ∣ (e.1.x i).toNat := (he.1.1.2 i).2
      refine Nat.dvd_add (dvd_trans hd hx) ?_
      split
      · exact hd
      · exact Nat.dvd_zero _
    rw [key _ 8 (by omega) (by rw [h1]; exact lt_of_le_of_lt h3 (by decide)) (by rw [h1]; exact hd2), h1]
  refine ⟨tri 0, tri 1, ?_⟩
  have hlen : (Dline.len e.2.level).toNat = 2 ^ (30 - e.2.level) := Dline.len_toNat
  have hx : e.2.x.toNat < 2 ^ 30 := he.2.1.2.1
  have hd : 2 ^ 9 ∣ 2 ^ (30 - e.2.level) := pow_dvd (by omega)
  have hdx : 2 ^ 9 ∣ e.2.x.toNat := dvd_trans hd he.2.1.2.2
  have hle : 2 ^ (30 - e.2.level) ≤ 2 ^ 30 := Nat.pow_le_pow_right (by omega) (by omega)
  have hv3 : v / 3 = 0 ∨ v / 3 = 1 := by omega
  have hc : (Dline.vertexCoord e.2 (v / 3)).toNat = e.2.x.toNat + v / 3 * 2 ^ (30 - e.2.level) := by
    rcases hv3 with h | h
    · rw [h, Dline.vertexCoord, if_pos rfl]; omega
    · rw [h, Dline.vertexCoord, if_neg (by decide), BitVec.toNat_add, hlen, Nat.one_mul]
      exact Nat.mod_eq_of_lt (by clear * - hx hle; omega)
  show ((Dline.vertexCoord e.2 (v / 3)).sdiv (BitVec.twoPow 32 9)).toNat * 2 ^ 9 = _
  rw [key _ 9 (by omega) ?_ ?_, hc]
  · rw [hc]
    rcases hv3 with h | h <;> rw [h] <;> clear * - hx hle <;> omega
  · rw [hc]
    exact Nat.dvd_add hdx (Dvd.dvd.mul_left hd _)

/-- C01, finding. `element_get_anchor` does not give the anchor: the coordinates are divided by the length of the root
before they are multiplied with the length of the root of prisms, so that the result is 0 for every element. -/
theorem C01_prism_anchor_wrong :
    (∀ e, Valid e → anchor e = (0, 0, 0)) ∧ ∃ e, Valid e ∧ (vertexCoords e 0).1 ≠ 0 := by
  refine ⟨fun e he => ?_, child root 1, valid_child valid_root (by decide) (by decide), by decide +kernel⟩
  have key : ∀ (x : BitVec 32) (n : Nat), n < 31 → x.toNat < 2 ^ n → x.sdiv (BitVec.twoPow 32 n) = 0 := by
    intro x n hn hx
    have h1 : (BitVec.twoPow 32 n).toNat = 2 ^ n := toNat_twoPow (by omega)
    have h2 : 2 ^ n < 2 ^ 31 := Nat.pow_lt_pow_right (by omega) hn
    have m1 : x.msb = false := by rw [BitVec.msb_eq_false_iff_two_mul_lt]; omega
    have m2 : (BitVec.twoPow 32 n).msb = false := by rw [BitVec.msb_eq_false_iff_two_mul_lt, h1]; omega
    rw [BitVec.sdiv_eq, m1, m2]
    apply BitVec.eq_of_toNat_eq
    rw [BitVec.udiv_eq, BitVec.toNat_udiv, h1, Nat.div_eq_of_lt hx]
    rfl
  have h1 : ∀ i, (e.1.x i).sdiv (Simplex.rootLen .tri) = 0 := fun i => key _ 29 (by omega) (he.1.1.2 i).1
  have h2 : e.2.x.sdiv Dline.rootLen = 0 := key _ 30 (by omega) he.2.1.2.1
  rw [anchor]
  simp only [h1, h2]
  decide +kernel

example : Valid sample ∧ 0 < level sample ∧ level sample < maxLevel ∧ childId sample = 3 ∧
    vertexCoords sample 4 = (6 * 2 ^ 18, 3 * 2 ^ 18, 3 * 2 ^ 18) :=
  ⟨sample_valid, by decide +kernel⟩

/-! ### C02 -/

theorem count_root_eq (L : Nat) (hL : L ≤ maxLevel) : tree.count tree.root L = 8 ^ L := regular.count_root hL

/-- C02. `element_get_linear_id` is the position in the uniform refinement, for all levels. -/
theorem C02_prism_position : tree.LinearIdSpec (fun e L => (linearId e L).toNat) := linearId_spec

/-- C02. `element_set_linear_id` constructs the element at a position of the uniform refinement. -/
theorem C02_prism_set : tree.SetLinearIdSpec (fun L id => setLinearId L (BitVec.ofNat 64 id)) := setLinearId_spec

/-- C02. Every id below the number of elements of a level belongs to exactly one element of this level. -/
theorem C02_prism_bijection (L : Nat) (hL : L ≤ maxLevel) :
    (∀ id : Nat, id < 8 ^ L → ∃ x, setLinearId L (BitVec.ofNat 64 id) = some x ∧ Valid x ∧ level x = L ∧
      (linearId x L).toNat = id) ∧
    (∀ x, Valid x → level x = L → (linearId x L).toNat < 8 ^ L ∧ setLinearId L (linearId x L) = some x) := by
  have h := bijection_of linearId_spec setLinearId_spec hL
  rw [count_root_eq L hL] at h
  refine ⟨h.1, fun x hx hl => ?_⟩
  have h2 := h.2 x hx hl
  rw [BitVec.ofNat_toNat, BitVec.setWidth_eq] at h2
  exact h2

example : (linearId sample 3).toNat = 2 * 64 + 5 * 8 + 3 ∧ (linearId sample 5).toNat = (2 * 64 + 5 * 8 + 3) * 64 ∧
    (linearId sample 1).toNat = 2 ∧ setLinearId 3 171 = some sample := by decide +kernel

/-! ### C03 -/

/-- C03. The successor is the next element of the uniform refinement. -/
theorem C03_prism : tree.SuccessorSpec (fun e => successor e (level e)) := successor_spec

/-- C03. For every element that is not the last one of its level the successor has the same level and the next
linear id. -/
theorem C03_prism_next (e : Prism) (he : Valid e) (hlast : (linearId e (level e)).toNat + 1 < 8 ^ level e) :
    ∃ s, successor e (level e) = some s ∧ Valid s ∧ level s = level e ∧
      (linearId s (level s)).toNat = (linearId e (level e)).toNat + 1 :=
  next_of linearId_spec successor_spec he (by rw [count_root_eq (tree.level e) he.2.2.2]; exact hlast)

example : Valid sample ∧ (linearId sample (level sample)).toNat + 1 < 8 ^ level sample := ⟨sample_valid, by decide +kernel⟩

example : successor sample 3 = some (child (child (child root 2) 5) 4) ∧
    successor (child (child (child root 2) 7) 7) 3 = some (child (child (child root 3) 0) 0) ∧
    successor (child (child (child root 2) 4) 7) 3 = some (child (child (child root 2) 5) 0) := by decide +kernel

/-! ### C04 -/

/-- C04. First and last descendant exist and are the ends of the uniform refinement of the element. -/
theorem C04_prism_ends : tree.DescendantSpec (fun e L => (firstDescendant e L).getD e)
    (fun e L => (lastDescendant e L).getD e) := descendant_spec

theorem C04_prism_some (e : Prism) (he : Valid e) (L : Nat) (hl : level e ≤ L) (hL : L ≤ maxLevel) :
    (firstDescendant e L).isSome ∧ (lastDescendant e L).isSome := by
  obtain ⟨a, ha, _⟩ := firstDescendant_spec he hl hL
  obtain ⟨b, hb, _⟩ := lastDescendant_spec he hl hL
  rw [ha, hb]
  exact ⟨rfl, rfl⟩

/-- C04. The descendants of a level are the interval between first and last descendant. -/
theorem C04_prism_interval : tree.DescendantIntervalSpec (fun e L => (linearId e L).toNat)
    (fun e L => (firstDescendant e L).getD e) (fun e L => (lastDescendant e L).getD e) :=
  descendantIntervalSpec_of linearId_spec descendant_spec

example : Valid sample ∧ level sample ≤ 5 ∧ 5 ≤ maxLevel ∧ firstDescendant sample 5 = some (child (child sample 0) 0) ∧
    lastDescendant sample 5 = some (child (child sample 7) 7) := ⟨sample_valid, by decide +kernel⟩

/-! ### C05 -/

/-- C05. The nearest common ancestor. -/
theorem C05_prism : tree.NcaSpec nca := nca_spec

example : nca sample (child (child root 2) 1) = some (child root 2) ∧ nca sample (child root 2) = some (child root 2) ∧
    nca sample (child (child root 6) 5) = some root := by decide +kernel

/-! ### C06 -/

/-- C06 for neighboring leaves. On arrays of the right length that are part of the leaves of a complete tree, the
family test is exact; every family is such an array and is accepted. What is missing is exactness for other arrays,
which does not hold (`C06_prism_wrong`). -/
theorem C06_prism_partial (fam : List Prism) (hlen : fam.length = numChildren) :
    (∃ b, isFamily fam = some b ∧ (tree.Segment fam → (b = true ↔ ∃ p, tree.IsFamilyOf fam p))) ∧
    ∀ p, tree.IsFamilyOf fam p → isFamily fam = some true ∧ tree.Segment fam := by
  have h2 : ∀ p, tree.IsFamilyOf fam p → isFamily fam = some true := by
    rintro p ⟨h1, h2, h3⟩
    rw [h3]
    exact isFamily_children h1 h2
  refine ⟨?_, fun p hp => ⟨h2 p hp, IsFamilyOf.segment hp⟩⟩
  obtain ⟨b, hb⟩ := isFamily_some hlen
  refine ⟨b, hb, ?_⟩
  rintro ⟨pre, post, ht⟩
  constructor
  · rintro rfl
    exact family_of_segment hlen ht hb
  · rintro ⟨p, hp⟩
    have := h2 p hp
    rw [hb] at this
    exact Option.some.inj this

/-- C06, finding. The family test accepts arrays that are not families, because that of the triangles does: the fourth
and the last element may be children of a neighboring element. -/
theorem C06_prism_wrong : ∃ fam : List Prism, fam.length = numChildren ∧ (∀ x ∈ fam, Valid x) ∧
    isFamily fam = some true ∧ ¬ ∃ p, tree.IsFamilyOf fam p := by
  have hv : ∀ I < 8, ∀ J < 8, Valid (child (child root I) J) := fun I hI J hJ =>
    valid_child (valid_child valid_root (by decide) hI) (by show 1 < 21; omega) hJ
  refine ⟨[child (child root 1) 0, child (child root 1) 1, child (child root 1) 2, child (child root 2) 3,
    child (child root 1) 4, child (child root 1) 5, child (child root 1) 6, child (child root 2) 7], rfl, ?_,
    by decide +kernel, ?_⟩
  · intro x hx
    simp only [List.mem_cons, List.not_mem_nil, or_false] at hx
    rcases hx with rfl | rfl | rfl | rfl | rfl | rfl | rfl | rfl <;> exact hv _ (by omega) _ (by omega)
  · rintro ⟨p, hp, hl, h⟩
    have h' : _ = [child p 0, child p 1, child p 2, child p 3, child p 4, child p 5, child p 6, child p 7] := h
    simp only [List.cons.injEq, and_true] at h'
    have p0 : parent (child p 0) = p := tree.parent_child p 0 hp hl (by decide : 0 < 8)
    have p3 : parent (child p 3) = p := tree.parent_child p 3 hp hl (by decide : 3 < 8)
    have hne : parent (child (child root 1) 0) ≠ parent (child (child root 2) 3) := by decide +kernel
    apply hne
    rw [h'.1, h'.2.2.2.1]
    exact p0.trans p3.symm

/-! ### C07 -/

/-- C07. The comparison decides the order of the space-filling curve … -/
theorem C07_prism : tree.CompareSpec compare := compare_spec

/-- C07. … which is a strict total order. -/
theorem C07_prism_total : tree.LtTotalOrder := ltTotalOrder

example : compare (child root 2) sample < 0 ∧ compare sample (child root 0) > 0 ∧ compare sample sample = 0 := by
  decide +kernel

/-! ### C08 -/

/-- C08. `element_is_ancestor` is true exactly for ancestors. -/
theorem C08_prism : tree.IsAncestorSpec isAncestor := isAncestor_spec

/-- C08. `element_get_ancestor_id` is the child id of the iterated parent. -/
theorem C08_prism_iterate (e : Prism) (he : Valid e) (l : Nat) (h0 : 0 < l) (hl : l ≤ level e) :
    ancestorId e l = childId (parent^[level e - l] e) := by
  rw [ancestorId_eq he h0 hl]
  exact (childId_nat (valid_anc (T := tree) he l)).symm

example : ancestorId sample 2 = 5 ∧ isAncestor (child root 2) sample = true ∧ isAncestor (child root 1) sample = false := by
  decide +kernel

/-! ### C09 -/

/-- C09. `count` is the number of distinct descendants. -/
theorem C09_prism_meaning (e : Prism) (he : Valid e) (L : Nat) (hl : level e ≤ L) (hL : L ≤ maxLevel) :
    ∃ xs : List Prism, xs.length = tree.count e L ∧ xs.Nodup ∧ ∀ x, x ∈ xs ↔ tree.Desc e x ∧ level x = L :=
  Default.count_meaning (T := tree) he hl hL

/-- C09 for prisms, except the count from the root to the maximum level, which overflows (`C09_prism_overflow`). -/
theorem C09_prism_partial (e : Prism) (he : Valid e) (L : Nat) (hL : L ≤ maxLevel) (h : 0 < level e ∨ L < maxLevel) :
    (countLeaves e L).toInt = tree.count e L := by
  have hL' : L ≤ 21 := hL
  have h' : 0 < e.2.level ∨ L < 21 := h
  exact Default.countLeaves_eq (T := tree) (dim := 3) regular he hL (by show 3 * (L - e.2.level) < 63; omega)

/-- C09, finding. The number of prisms of the maximum level is 2^63, the computed count is negative. -/
theorem C09_prism_overflow : tree.count root 21 = 2 ^ 63 ∧ (countLeaves root 21).toInt = -2 ^ 63 :=
  ⟨(count_root_eq 21 (le_refl _)).trans (by decide), by decide +kernel⟩

/-- C09. The count from the root, when it fits into the result. -/
theorem C09_prism_root (L : Nat) (hL : L ≤ maxLevel) (h : tree.count tree.root L < 2 ^ 63) :
    (Default.countLeavesFromRoot 3 L).toInt = tree.count root L := by
  refine Default.countLeaves_root (T := tree) (dim := 3) regular hL ?_
  rw [count_root_eq L hL, show (8 : Nat) = 2 ^ 3 from rfl, ← Nat.pow_mul] at h
  exact (Nat.pow_lt_pow_iff_right (by omega)).1 h

example : (countLeaves sample 5).toInt = 64 := by decide +kernel

/-! ### C15 -/

/-- C15. Unpacking a buffer that begins with packed elements gives back the elements, in order, and leaves exactly
the rest of the buffer. The level is only packed once, for triangle and line. -/
theorem C15_prism (es : List Prism) (hv : ∀ e ∈ es, Valid e) (rest : List Standalone.Word) :
    unpack es.length (pack es ++ rest) = some (es, rest) := by
  induction es with
  | nil => rfl
  | cons e es ih =>
    have h1 : pack (e :: es) ++ rest = Standalone.Word.int e.2.x :: Standalone.Word.int (e.1.x 0) ::
        Standalone.Word.int (e.1.x 1) :: Standalone.Word.int8 e.1.type :: Standalone.Word.int8 e.2.level ::
        (pack es ++ rest) := by simp [pack]
    rw [List.length_cons, h1, unpack]
    simp only [Standalone.unpackInt, Standalone.unpackInt8, Option.bind_eq_bind, Option.bind_some,
      ih (fun x hx => hv x (by simp [hx]))]
    congr 3
    refine Prod.ext ?_ rfl
    have htl := tri_level (hv e (by simp))
    refine Simplex.Elem.ext' (Standalone.Elem.ext' (fun i => ?_) htl.symm) rfl
    fin_cases i <;> rfl

/-- C15. The size of the buffer that `element_MPI_Pack_size` provides for is exactly what is written. -/
theorem C15_prism_size (es : List Prism) :
    ((pack es).countP (fun w => w matches .int _), (pack es).countP (fun w => w matches .int8 _)) =
      packSize es.length := by
  induction es with
  | nil => simp [pack, packSize]
  | cons e es ih =>
    have h : pack (e :: es) = [Standalone.Word.int e.2.x, Standalone.Word.int (e.1.x 0), Standalone.Word.int (e.1.x 1),
      Standalone.Word.int8 e.1.type, Standalone.Word.int8 e.2.level] ++ pack es := by simp [pack]
    simp only [packSize, Prod.mk.injEq] at ih ⊢
    rw [h]
    simp only [List.countP_append, ih.1, ih.2, List.length_cons]
    simp [List.countP_cons, Nat.add_mul]
    omega

example : (∀ e ∈ [sample, root], Valid e) ∧ pack [sample, root] ≠ [] :=
  ⟨by intro e he; simp at he; rcases he with rfl | rfl; exacts [sample_valid, valid_root], by decide⟩

/-! ### The scheme as the forest algorithms use it -/

/-- The functions of the default scheme for prisms. -/
def scheme : Scheme tree where
  isEqual := isEqual
  numSiblings := fun _ => Default.numSiblings 3
  childId := childId
  isRefinable := isRefinable
  linearId := fun e L => (linearId e L).toNat
  setLinearId := fun L id => setLinearId L (BitVec.ofNat 64 id)
  successor := fun e => successor e (level e)
  firstDescendant := fun e L => (firstDescendant e L).getD e
  lastDescendant := fun e L => (lastDescendant e L).getD e
  compare := compare
  isAncestor := isAncestor
  ancestorId := ancestorId
  nca := nca
  areFamily := isFamily
  countLeavesFromRoot := fun L => (Default.countLeavesFromRoot 3 L).toInt

/-- The default scheme for prisms is lawful, so every theorem about forests over lawful schemes applies to it. -/
theorem scheme_lawful : scheme.Lawful where
  isEqual := fun x y _ _ => isEqual_iff x y
  numSiblings_pos := fun _ _ => by show 0 < Default.numSiblings 3; decide
  numSiblings := fun _ _ _ => by show Default.numSiblings 3 = 8; decide
  childId := fun e he _ => childId_nat he
  childId_root := by decide
  root_no_family := Or.inr (Or.inl (by decide))
  isRefinable := fun e _ => by show isRefinable e = true ↔ level e < maxLevel; simp [isRefinable]
  linearId := linearId_spec
  setLinearId := setLinearId_spec
  successor := successor_spec
  descendants := descendant_spec
  compare := compare_spec
  isAncestor := isAncestor_spec
  ancestorId := fun _ _ he h0 hl => ancestorId_eq he h0 hl
  nca := nca_spec
  areFamily := fun fam _ _ hlen _ _ => (C06_prism_partial fam hlen).1
  countLeavesFromRoot := fun L hL h => C09_prism_root L hL h

end T8.Prism
