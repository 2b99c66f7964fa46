/-
C01–C09 and C15 for the triangles and tetrahedra of the default scheme.

`Valid c e` (Spec/Simplex.lean) says that `e` is a simplex of a cube of its level and lies inside of the root
simplex; `C01_simplex_reachable` shows that these are exactly the elements that can be created from the root by
taking children.
-/
import Verif.Lemmas.SimplexFamily
import Verif.Lemmas.SimplexSucc
import Verif.Lemmas.ElementIds
import Verif.Lemmas.Segment
import Verif.Spec.Scheme

namespace T8.Simplex
open T8.RTree T8.Bits
variable (c : Cls)

/-- An element of level 3, used to show that the hypotheses below can be met. -/
def sample : Elem c.dim := child c (child c (child c (root c) 2) 1) 3

theorem three_lt : 3 < c.maxLevel := by cases c <;> decide
theorem three_lt' : 3 < c.numChildren := by cases c <;> decide

theorem sample_valid : Valid c (sample c) := by
  have h1 := three_lt c
  have h2 := three_lt' c
  have a0 : (root c).level = 0 := rfl
  have a1 := valid_child (c := c) (I := 2) valid_root (by omega) (by omega)
  have l1 : (child c (root c) 2).level = 1 := rfl
  have a2 := valid_child (I := 1) a1 (by omega) (by omega)
  have l2 : (child c (child c (root c) 2) 1).level = 2 := rfl
  exact valid_child a2 (by omega) (by omega)

/-! ### C01 -/

/-- C01. Parent and child are inverse. -/
theorem C01_simplex (e : Elem c.dim) (he : Valid c e) :
    (e.level < c.maxLevel → ∀ i, i < c.numChildren →
      Valid c (child c e i) ∧ parent c (child c e i) = e ∧ childId c (child c e i) = i ∧
      (child c e i).level = e.level + 1) ∧
    (0 < e.level →
      Valid c (parent c e) ∧ childId c e < c.numChildren ∧ child c (parent c e) (childId c e) = e ∧
      (parent c e).level + 1 = e.level ∧ ∀ i, sibling c e i = child c (parent c e) i) :=
  ⟨fun hl i hi => ⟨valid_child he hl hi, parent_child he.aligned hl hi, childId_child he.aligned hl hi, rfl⟩,
    fun hl => ⟨valid_parent he hl, childId_lt he.aligned, child_parent he.aligned hl, (tree c).level_parent e he hl,
      fun _ => rfl⟩⟩

/-- C01. `element_get_children` lists the children by their child numbers. -/
theorem C01_simplex_children (e : Elem c.dim) (he : Valid c e) :
    children c e = (List.range c.numChildren).map (child c e) := by
  have hn : c.numChildren = c.numChildren - 1 + 1 := by have := three_lt' c; omega
  have key : ∀ I < c.numChildren, ∀ i : Fin c.dim, (child c e I).x i =
      if look (indexToBeyNumber c) e.type I = 0 then e.x i
      else (allCoords c e 0 i + allCoords c e ((beyidToVertex c).getD (look (indexToBeyNumber c) e.type I) 0) i).sshiftRight 1 := by
    intro I hI i
    have hv : vertexOf c e.type I ≤ c.dim := (child_table c e.type he.2.1 I hI).1
    show (if look (indexToBeyNumber c) e.type I = 0 then e.x else _) i = _
    split
    · rfl
    · have h0 : allCoords c e 0 i = e.x i := by cases c <;> rfl
      show (e.x i + integerCoords c e (vertexOf c e.type I) i).sshiftRight 1 =
        (allCoords c e 0 i + allCoords c e (vertexOf c e.type I) i).sshiftRight 1
      rw [h0, integerCoords_eq he.2.1 hv, allCoords_eq he.2.1 hv]
  have hb : ∀ t < c.numTypes, look (indexToBeyNumber c) t 0 = 0 ∧ look (typeOfChild c) t 0 = t ∧
      ∀ I < c.numChildren, 0 < I → look (indexToBeyNumber c) t I ≠ 0 := by
    cases c <;> decide +kernel
  obtain ⟨b1, b2, b3⟩ := hb e.type he.2.1
  rw [hn, List.range_succ_eq_map, List.map_cons, List.map_map, children]
  have h0 : allCoords c e 0 = e.x := by cases c <;> rfl
  congr 1
  · rw [child]
    simp only [b1, b2, h0, if_true]
  · apply List.map_congr_left
    intro k hk
    rw [List.mem_range] at hk
    have hk' : k + 1 < c.numChildren := by omega
    have h3 := b3 (k + 1) hk' (by omega)
    refine Elem.ext' (Standalone.Elem.ext' (fun i => ?_) rfl) rfl
    have := key (k + 1) hk' i
    rw [if_neg h3] at this
    exact this.symm

/-- C01. The valid elements are exactly those that can be created by repeated refinement of the root. -/
theorem C01_simplex_reachable (e : Elem c.dim) : Valid c e ↔ (tree c).Desc (root c) e :=
  ⟨fun h => desc_root (T := tree c) h, fun h => Desc.valid (T := tree c) valid_root h⟩

/-- C01. Different child numbers give different children. -/
theorem C01_simplex_distinct (e : Elem c.dim) (he : Valid c e) (hl : e.level < c.maxLevel) (i j : Nat)
    (hi : i < c.numChildren) (hj : j < c.numChildren) (h : child c e i = child c e j) : i = j :=
  child_inj (T := tree c) he hl hi hj h

/-- The children lie inside of the element, also outside of the root. -/
theorem child_subset {c : Cls} {e : Elem c.dim} (he : Aligned c e) (hl : e.level < c.maxLevel) {i : Nat}
    (hi : i < c.numChildren) : Points c (child c e i) ⊆ Points c e := by
  have hc := aligned_child he hl hi
  have hp : parent c (child c e i) = e := parent_child he hl hi
  have hx : ∀ k, ((child c e i).x k).toNat = (e.x k).toNat +
      (if (computeCubeid c (child c e i) (e.level + 1)).testBit k then size c (e.level + 1) else 0) := by
    intro k
    have := x_eq_parent hc (Nat.succ_pos _) k
    rw [hp] at this
    exact this
  have ht := parent_type (c := c) (child c e i)
  rw [hp] at ht
  have hr := (parenttype_rank c _ (cubeid_lt (child c e i) (e.level + 1)) _ hc.2).2
  have hs := size_succ hl
  have hcl : (child c e i).level = e.level + 1 := rfl
  rintro p ⟨h1, h2⟩
  rw [hcl] at h1
  refine ⟨fun k => ?_, fun k m hkm => ?_⟩
  · have a1 := h1 k
    have a2 := hx k
    split at a2 <;> omega
  · have a1 := h1 k
    have a2 := hx k
    have b1 := h1 m
    have b2 := hx m
    rw [ht] at hkm
    rcases (hr k m).1 hkm with ⟨c1, c2⟩ | ⟨c1, c2⟩
    · rw [c2, if_pos rfl] at a2
      rw [c1, if_neg (by decide)] at b2
      omega
    · have := h2 k m c2
      rw [c1] at a2
      omega

/-- C01. The children lie inside of the element. -/
theorem C01_simplex_inside (e : Elem c.dim) (he : Valid c e) (hl : e.level < c.maxLevel) (i : Nat)
    (hi : i < c.numChildren) : Points c (child c e i) ⊆ Points c e := child_subset he.aligned hl hi

theorem integerCoords_corner {c : Cls} {e : Elem c.dim} (he : Aligned c e) {v : Nat} (hv : v ≤ c.dim) (i : Fin c.dim) :
    (integerCoords c e v i).toNat = corner c e v i := by
  rw [integerCoords_eq he.2 hv, corner]
  have h1 := x_add_le he i
  have h2 := pow_max_lt c
  split
  · rw [BitVec.toNat_add, len_toNat]
    exact Nat.mod_eq_of_lt (lt_of_le_of_lt h1 (lt_trans h2 (by decide)))
  · simp

/-- C01. `t8_dtri_compute_integer_coords` gives the corners of the element. -/
theorem C01_simplex_vertex (e : Elem c.dim) (he : Valid c e) (v : Nat) (hv : v ≤ c.dim) (i : Fin c.dim) :
    (integerCoords c e v i).toNat = corner c e v i ∧ allCoords c e v i = integerCoords c e v i ∧
    corner c e v ∈ Points c e := by
  refine ⟨integerCoords_corner he.aligned hv i, ?_, corner_mem e v⟩
  · rw [integerCoords_eq he.2.1 hv, allCoords_eq he.2.1 hv]

example : Valid c (sample c) ∧ 0 < (sample c).level ∧ (sample c).level < c.maxLevel ∧ childId c (sample c) = 3 :=
  ⟨sample_valid c, by cases c <;> decide +kernel⟩

/-! ### C02 -/

theorem count_root_eq (L : Nat) (hL : L ≤ c.maxLevel) : (tree c).count (root c) L = 2 ^ (c.dim * L) := by
  rw [Nat.pow_mul]
  exact (regular c).count_root hL

/-- C02. `element_get_linear_id` is the position in the uniform refinement, for all levels. -/
theorem C02_simplex_position : (tree c).LinearIdSpec (fun e L => (linearId c e L).toNat) := linearId_spec c

/-- C02. `element_set_linear_id` constructs the element at a position of the uniform refinement. -/
theorem C02_simplex_set : (tree c).SetLinearIdSpec (fun L id => setLinearId c L (BitVec.ofNat 64 id)) :=
  setLinearId_spec c

/-- C02. Every id below the number of elements of a level belongs to exactly one element of this level. -/
theorem C02_simplex_bijection (L : Nat) (hL : L ≤ c.maxLevel) :
    (∀ id : Nat, id < 2 ^ (c.dim * L) → ∃ x, setLinearId c L (BitVec.ofNat 64 id) = some x ∧ Valid c x ∧ x.level = L ∧
      (linearId c x L).toNat = id) ∧
    (∀ x, Valid c x → x.level = L → (linearId c x L).toNat < 2 ^ (c.dim * L) ∧
      setLinearId c L (linearId c x L) = some x) := by
  have h := bijection_of (linearId_spec c) (setLinearId_spec c) hL
  rw [count_root_eq c L hL] at h
  refine ⟨h.1, fun x hx hl => ?_⟩
  have h2 := h.2 x hx hl
  rw [BitVec.ofNat_toNat, BitVec.setWidth_eq] at h2
  exact h2

example : (linearId .tri (sample .tri) 3).toNat = 39 ∧ (linearId .tri (sample .tri) 5).toNat = 624 ∧
    (linearId .tri (sample .tri) 1).toNat = 2 ∧ setLinearId .tri 3 39 = some (sample .tri) ∧
    (linearId .tet (sample .tet) 3).toNat = 139 ∧ setLinearId .tet 3 139 = some (sample .tet) := by decide +kernel

/-! ### C03 -/

/-- C03. The successor is the next element of the uniform refinement. -/
theorem C03_simplex : (tree c).SuccessorSpec (fun e => successor c e e.level) := successor_spec c

/-- C03. For every element that is not the last one of its level the successor has the same level and the next
linear id. -/
theorem C03_simplex_next (e : Elem c.dim) (he : Valid c e)
    (hlast : (linearId c e e.level).toNat + 1 < 2 ^ (c.dim * e.level)) :
    ∃ s, successor c e e.level = some s ∧ Valid c s ∧ s.level = e.level ∧
      (linearId c s s.level).toNat = (linearId c e e.level).toNat + 1 :=
  next_of (linearId_spec c) (successor_spec c) he (by rw [count_root_eq c e.level he.1.1]; exact hlast)

example : Valid c (sample c) ∧ (linearId c (sample c) (sample c).level).toNat + 1 < 2 ^ (c.dim * (sample c).level) :=
  ⟨sample_valid c, by cases c <;> decide +kernel⟩

example : successor .tri (sample .tri) 3 = some (child .tri (child .tri (child .tri (root .tri) 2) 2) 0) := by
  decide +kernel

/-- C03, finding. `t8_dtri_predecessor` is wrong: it goes to the level above when the new local index is 0, not when
the old one is. For the second child of the root it fails (the recursion reaches level 0), and the predecessor of
child 1 of child 2 of the root is not child 0 of child 2. -/
theorem C03_simplex_predecessor_wrong :
    predecessor c (child c (root c) 1) 1 = none ∧
    ∃ e p, Valid c e ∧ Valid c p ∧ p.level = e.level ∧ (linearId c p p.level).toNat + 1 = (linearId c e e.level).toNat ∧
      predecessor c e e.level ≠ some p := by
  refine ⟨by cases c <;> decide +kernel, child c (child c (root c) 2) 1, child c (child c (root c) 2) 0, ?_, ?_, ?_⟩
  · have h1 := three_lt c
    have h2 := three_lt' c
    exact valid_child (valid_child valid_root (by show 0 < _; omega) (by omega)) (by show 1 < _; omega) (by omega)
  · have h1 := three_lt c
    have h2 := three_lt' c
    exact valid_child (valid_child valid_root (by show 0 < _; omega) (by omega)) (by show 1 < _; omega) (by omega)
  · cases c <;> decide +kernel

/-! ### C04 -/

/-- C04. First and last descendant exist and are the ends of the uniform refinement of the element. -/
theorem C04_simplex_ends : (tree c).DescendantSpec (fun e L => (firstDescendant c e L).getD e)
    (fun e L => (lastDescendant c e L).getD e) := descendant_spec c

theorem C04_simplex_some (e : Elem c.dim) (he : Valid c e) (L : Nat) (hl : e.level ≤ L) (hL : L ≤ c.maxLevel) :
    (firstDescendant c e L).isSome ∧ (lastDescendant c e L).isSome := by
  obtain ⟨a, ha, _⟩ := firstDescendant_spec he hl hL
  obtain ⟨b, hb, _⟩ := lastDescendant_spec he hl hL
  rw [ha, hb]
  exact ⟨rfl, rfl⟩

/-- C04. The descendants of a level are the interval between first and last descendant. -/
theorem C04_simplex_interval : (tree c).DescendantIntervalSpec (fun e L => (linearId c e L).toNat)
    (fun e L => (firstDescendant c e L).getD e) (fun e L => (lastDescendant c e L).getD e) :=
  descendantIntervalSpec_of (linearId_spec c) (descendant_spec c)

example : Valid c (sample c) ∧ (sample c).level ≤ 5 ∧ 5 ≤ c.maxLevel ∧
    (firstDescendant c (sample c) 5) = some (child c (child c (sample c) 0) 0) ∧
    (lastDescendant c (sample c) 5) = some (child c (child c (sample c) (c.numChildren - 1)) (c.numChildren - 1)) :=
  ⟨sample_valid c, by cases c <;> decide +kernel⟩

/-! ### C05 -/

/-- C05. The nearest common ancestor. -/
theorem C05_simplex : (tree c).NcaSpec (nca c) := nca_spec c

example : nca c (sample c) (child c (child c (root c) 2) 2) = some (child c (root c) 2) ∧
    nca c (sample c) (child c (root c) 2) = some (child c (root c) 2) := by cases c <;> decide +kernel

/-! ### C06 -/

/-- C06 for neighboring leaves. On arrays of the right length that are part of the leaves of a complete tree, the
family test is exact; every family is such an array and is accepted. What is missing is exactness for other arrays,
which does not hold (`C06_simplex_wrong`). -/
theorem C06_simplex_partial (fam : List (Elem c.dim)) (hlen : fam.length = c.numChildren) :
    (∃ b, isFamily c fam = some b ∧ ((tree c).Segment fam → (b = true ↔ ∃ p, (tree c).IsFamilyOf fam p))) ∧
    ∀ p, (tree c).IsFamilyOf fam p → isFamily c fam = some true ∧ (tree c).Segment fam := by
  have h2 : ∀ p, (tree c).IsFamilyOf fam p → isFamily c fam = some true := by
    rintro p ⟨h1, h2, h3⟩
    rw [h3]
    exact isFamily_children h1 h2
  refine ⟨?_, fun p hp => ⟨h2 p hp, IsFamilyOf.segment hp⟩⟩
  obtain ⟨b, hb⟩ := isFamily_some hlen
  refine ⟨b, hb, ?_⟩
  rintro ⟨pre, post, ht⟩
  constructor
  · rintro rfl
    exact family_of_segment hlen ht hb
  · rintro ⟨p, hp⟩
    have := h2 p hp
    rw [hb] at this
    exact Option.some.inj this

/-- C06, finding. The family test accepts arrays that are not families: the type of the last element is not tested
(for triangles the test of the types is joined by `&&`, for tetrahedra the last element is left out), so that the last
child of a neighboring element is taken for the last child. -/
theorem C06_simplex_wrong : ∃ fam : List (Elem c.dim), fam.length = c.numChildren ∧ (∀ x ∈ fam, Valid c x) ∧
    isFamily c fam = some true ∧ ¬ ∃ p, (tree c).IsFamilyOf fam p := by
  have h1 := three_lt c
  have h2 := three_lt' c
  have hv : ∀ I < c.numChildren, ∀ J < c.numChildren, Valid c (child c (child c (root c) I) J) := fun I hI J hJ =>
    valid_child (valid_child valid_root (by show 0 < _; omega) hI) (by show 1 < _; omega) hJ
  refine ⟨(List.range (c.numChildren - 1)).map (child c (child c (root c) 1)) ++
    [child c (child c (root c) 2) (c.numChildren - 1)], ?_, ?_, by cases c <;> decide +kernel, ?_⟩
  · simp; omega
  · intro x hx
    simp only [List.mem_append, List.mem_map, List.mem_range, List.mem_singleton] at hx
    rcases hx with ⟨J, hJ, rfl⟩ | rfl
    · exact hv 1 (by omega) J (by omega)
    · exact hv 2 (by omega) _ (by omega)
  · rintro ⟨p, hp, hl, h⟩
    have hn : (tree c).nc p = c.numChildren := rfl
    have e0 := congrArg (fun l => l[0]?) h
    have e3 := congrArg (fun l => l[c.numChildren - 1]?) h
    simp only [hn] at e0 e3
    rw [List.getElem?_append_left (by simp; omega), List.getElem?_map, List.getElem?_map,
      List.getElem?_range (by omega), List.getElem?_range (by omega)] at e0
    rw [List.getElem?_append_right (by simp), List.getElem?_map, List.getElem?_range (by omega)] at e3
    simp only [List.length_map, List.length_range, Nat.sub_self, List.getElem?_cons_zero, Option.map_some,
      Option.some.injEq] at e0 e3
    have p0 : parent c (child c p 0) = p := parent_child (e := p) hp.aligned hl (by omega)
    have p3 : parent c (child c p (c.numChildren - 1)) = p := parent_child (e := p) hp.aligned hl (by omega)
    have hne : parent c (child c (child c (root c) 1) 0) ≠
        parent c (child c (child c (root c) 2) (c.numChildren - 1)) := by
      cases c <;> decide +kernel
    apply hne
    rw [e0, e3]
    exact p0.trans p3.symm

/-! ### C07 -/

/-- C07. The comparison decides the order of the space-filling curve … -/
theorem C07_simplex : (tree c).CompareSpec (compare c) := compare_spec c

/-- C07. … which is a strict total order. -/
theorem C07_simplex_total : (tree c).LtTotalOrder := ltTotalOrder

example : compare c (child c (root c) 2) (sample c) < 0 ∧ compare c (sample c) (child c (root c) 0) > 0 ∧
    compare c (sample c) (sample c) = 0 := by cases c <;> decide +kernel

/-! ### C08 -/

/-- C08. `element_is_ancestor` is true exactly for ancestors. -/
theorem C08_simplex : (tree c).IsAncestorSpec (isAncestor c) := isAncestor_spec c

/-- C08. So is the geometric test `t8_dtri_is_ancestor`. -/
theorem C08_simplex_geo : (tree c).IsAncestorSpec (isAncestorGeo c) := isAncestorGeo_spec c

/-- C08. `t8_dtri_ancestor` is the iterated parent, and `element_get_ancestor_id` its child id. -/
theorem C08_simplex_iterate (e : Elem c.dim) (he : Valid c e) (l : Nat) (hl : l ≤ e.level) :
    ancestor c e l = some ((parent c)^[e.level - l] e) ∧ ancestorId c e l = childId c ((parent c)^[e.level - l] e) :=
  ⟨ancestor_eq he hl, ancestorId_eq he hl⟩

/-- C08. `t8_dtri_is_parent` and `t8_dtri_is_sibling`. -/
theorem C08_simplex_relations (e f : Elem c.dim) (he : Valid c e) (hf : Valid c f) :
    (0 < f.level → (isParent c e f = true ↔ parent c f = e)) ∧
    (isSibling c e f = true ↔ e.level = f.level ∧ (0 < e.level → parent c e = parent c f)) :=
  ⟨isParent_iff e f, isSibling_iff he hf⟩

example : ancestor c (sample c) 1 = some (child c (root c) 2) ∧ ancestorId c (sample c) 2 = 1 ∧
    isAncestor c (child c (root c) 2) (sample c) = true ∧ isAncestor c (child c (root c) 1) (sample c) = false ∧
    isAncestorGeo c (child c (root c) 2) (sample c) = true ∧ isAncestorGeo c (child c (root c) 1) (sample c) = false ∧
    isSibling c (sample c) (sibling c (sample c) 1) = true ∧ isParent c (child c (root c) 2) (sample c) = false := by
  cases c <;> decide +kernel

/-! ### C09 -/

/-- C09. `count` is the number of distinct descendants. -/
theorem C09_simplex_meaning (e : Elem c.dim) (he : Valid c e) (L : Nat) (hl : e.level ≤ L) (hL : L ≤ c.maxLevel) :
    ∃ xs : List (Elem c.dim), xs.length = (tree c).count e L ∧ xs.Nodup ∧
      ∀ x, x ∈ xs ↔ (tree c).Desc e x ∧ x.level = L :=
  Default.count_meaning (T := tree c) he hl hL

/-- C09 for triangles. The leaf count is exact on all elements and levels. -/
theorem C09_tri : (tree .tri).CountSpec (fun e L => (countLeaves .tri e L).toInt) := by
  intro e L he hL
  have hL' : L ≤ 29 := hL
  exact Default.countLeaves_eq (T := tree .tri) (dim := 2) (regular .tri) he hL (by show 2 * (L - e.level) < 63; omega)

/-- C09 for tetrahedra, except the count from the root to the maximum level, which overflows (`C09_tet_overflow`). -/
theorem C09_tet_partial (e : Elem 3) (he : Valid .tet e) (L : Nat) (hL : L ≤ Cls.tet.maxLevel)
    (h : 0 < e.level ∨ L < Cls.tet.maxLevel) : (countLeaves .tet e L).toInt = (tree .tet).count e L := by
  have hL' : L ≤ 21 := hL
  have h' : 0 < e.level ∨ L < 21 := h
  exact Default.countLeaves_eq (T := tree .tet) (dim := 3) (regular .tet) he hL (by show 3 * (L - e.level) < 63; omega)

/-- C09, finding. The number of tetrahedra of the maximum level is 2^63, the computed count is negative. -/
theorem C09_tet_overflow : (tree .tet).count (root .tet) 21 = 2 ^ 63 ∧ (countLeaves .tet (root .tet) 21).toInt = -2 ^ 63 :=
  ⟨count_root_eq .tet 21 (le_refl _), by decide +kernel⟩

/-- C09. The count from the root, when it fits into the result. -/
theorem C09_simplex_root (L : Nat) (hL : L ≤ c.maxLevel) (h : (tree c).count (root c) L < 2 ^ 63) :
    (Default.countLeavesFromRoot c.dim L).toInt = (tree c).count (root c) L := by
  refine Default.countLeaves_root (T := tree c) (dim := c.dim) (regular c) hL ?_
  rw [count_root_eq c L hL] at h
  exact (Nat.pow_lt_pow_iff_right (by omega)).1 h

example : (countLeaves c (sample c) 5).toInt = c.numChildren ^ 2 := by cases c <;> decide +kernel

/-! ### C15 -/

/-- C15. Unpacking a buffer that begins with packed elements gives back the elements, in order, and leaves exactly
the rest of the buffer. -/
theorem C15_simplex (es : List (Elem c.dim)) (rest : List Standalone.Word) :
    unpack c es.length (pack c es ++ rest) = some (es, rest) := by
  have hx : ∀ (e : Elem c.dim) (r : List Standalone.Word),
      unpackCoords c ((List.finRange c.dim).map (fun i => Standalone.Word.int (e.x i)) ++ r) = some (e.x, r) := by
    intro e r
    cases c
    · have : List.finRange 2 = [0, 1] := rfl
      simp only [unpackCoords, this, List.map_cons, List.map_nil, List.cons_append, List.nil_append,
        Standalone.unpackInt, Option.bind_eq_bind, Option.bind_some]
      congr 2
      funext i
      fin_cases i <;> rfl
    · have : List.finRange 3 = [0, 1, 2] := rfl
      simp only [unpackCoords, this, List.map_cons, List.map_nil, List.cons_append, List.nil_append,
        Standalone.unpackInt, Option.bind_eq_bind, Option.bind_some]
      congr 2
      funext i
      fin_cases i <;> rfl
  induction es with
  | nil => rfl
  | cons e es ih =>
    have h1 : pack c (e :: es) ++ rest = (List.finRange c.dim).map (fun i => Standalone.Word.int (e.x i)) ++
        (Standalone.Word.int8 e.type :: Standalone.Word.int8 e.level :: (pack c es ++ rest)) := by
      simp [pack]
    rw [List.length_cons, h1, unpack, hx]
    simp only [Standalone.unpackInt8, Option.bind_eq_bind, Option.bind_some, ih]

/-- C15. The size of the buffer that `element_MPI_Pack_size` provides for is exactly what is written. -/
theorem C15_simplex_size (es : List (Elem c.dim)) :
    ((pack c es).countP (fun w => w matches .int _), (pack c es).countP (fun w => w matches .int8 _)) =
      packSize c es.length := by
  induction es with
  | nil => simp [pack, packSize]
  | cons e es ih =>
    have h : pack c (e :: es) = ((List.finRange c.dim).map (fun i => Standalone.Word.int (e.x i)) ++
      [Standalone.Word.int8 e.type, Standalone.Word.int8 e.level]) ++ pack c es := by simp [pack]
    simp only [packSize, Prod.mk.injEq] at ih ⊢
    rw [h]
    simp only [List.countP_append, ih.1, ih.2, List.length_cons]
    cases c <;> simp [List.countP_cons, List.finRange_succ, Cls.dim, Nat.add_mul] <;> omega

example : pack c [sample c, root c] ≠ [] := by cases c <;> decide

/-! ### The scheme as the forest algorithms use it -/

/-- The functions of the default scheme for triangles or tetrahedra. -/
def scheme : Scheme (tree c) where
  isEqual := isEqual c
  numSiblings := fun _ => Default.numSiblings c.dim
  childId := fun e => childId c e
  isRefinable := isRefinable c
  linearId := fun e L => (linearId c e L).toNat
  setLinearId := fun L id => setLinearId c L (BitVec.ofNat 64 id)
  successor := fun e => successor c e e.level
  firstDescendant := fun e L => (firstDescendant c e L).getD e
  lastDescendant := fun e L => (lastDescendant c e L).getD e
  compare := compare c
  isAncestor := isAncestor c
  ancestorId := fun e l => ancestorId c e l
  nca := nca c
  areFamily := isFamily c
  countLeavesFromRoot := fun L => (Default.countLeavesFromRoot c.dim L).toInt

/-- The default schemes for triangles and tetrahedra are lawful, so every theorem about forests over lawful schemes
applies to them. -/
theorem scheme_lawful : (scheme c).Lawful where
  isEqual := fun x y _ _ => isEqual_iff x y
  numSiblings_pos := fun _ _ => by show 0 < Default.numSiblings c.dim; cases c <;> decide
  numSiblings := fun _ _ _ => by show Default.numSiblings c.dim = c.numChildren; cases c <;> decide
  childId := fun _ _ _ => rfl
  childId_root := by cases c <;> decide
  root_no_family := Or.inr (Or.inl (by cases c <;> decide))
  isRefinable := fun e _ => by show isRefinable c e = true ↔ e.level < c.maxLevel; simp [isRefinable]
  linearId := linearId_spec c
  setLinearId := setLinearId_spec c
  successor := successor_spec c
  descendants := descendant_spec c
  compare := compare_spec c
  isAncestor := isAncestor_spec c
  ancestorId := fun _ _ he _ hl => congrArg Nat.cast (ancestorId_eq he hl)
  nca := nca_spec c
  areFamily := fun fam _ _ hlen _ _ => (C06_simplex_partial c fam (hlen.trans (by show Default.numSiblings c.dim = c.numChildren; cases c <;> decide))).1
  countLeavesFromRoot := fun L hL h => C09_simplex_root c L hL h

end T8.Simplex
