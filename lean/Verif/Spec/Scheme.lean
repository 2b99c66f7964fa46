/-
Specification: the interface of a refinement scheme as the forest algorithms use it.

`Scheme T` collects implementations of the functions of `t8_scheme` (src/t8_schemes/t8_scheme.hxx) that are not
already part of the refinement tree `T` itself (root, child, parent, level, number of children).
`Scheme.Lawful` states what these functions have to compute, in terms of the tree alone. The forest
theorems hold for every lawful scheme; the concrete schemes that are modelled are proved lawful.
-/
import Verif.Spec.Element

namespace T8

/-- The functions of `t8_scheme` for one element class. -/
structure Scheme (T : RTree) where
  /-- `element_is_equal` -/
  isEqual : T.E → T.E → Bool
  /-- `element_get_num_siblings` -/
  numSiblings : T.E → Nat
  /-- `element_get_child_id` (any value for the root) -/
  childId : T.E → Int
  /-- `element_is_refinable` -/
  isRefinable : T.E → Bool
  /-- `element_get_linear_id` -/
  linearId : T.E → Nat → Nat
  /-- `element_set_linear_id` -/
  setLinearId : Nat → Nat → Option T.E
  /-- `element_construct_successor` -/
  successor : T.E → Option T.E
  /-- `element_get_first_descendant` -/
  firstDescendant : T.E → Nat → T.E
  /-- `element_get_last_descendant` -/
  lastDescendant : T.E → Nat → T.E
  /-- `element_compare` -/
  compare : T.E → T.E → Int
  /-- `element_is_ancestor` -/
  isAncestor : T.E → T.E → Bool
  /-- `element_get_ancestor_id` -/
  ancestorId : T.E → Nat → Int
  /-- `element_get_nca` -/
  nca : T.E → T.E → Option T.E
  /-- `elements_are_family` -/
  areFamily : List T.E → Option Bool
  /-- `count_leaves_from_root` (a `t8_gloidx_t`) -/
  countLeavesFromRoot : Nat → Int

/-- The list is a part of the leaves of a complete refinement of the tree, without gaps. -/
def RTree.Segment (T : RTree) (ls : List T.E) : Prop := ∃ pre post, T.Tiles T.root (pre ++ ls ++ post)

/-- The laws of the scheme functions. The family test has to give an answer for all arrays of the right length; the
answer only has to be right for neighboring leaves of a complete tree (see `ExactFamilies`). -/
structure Scheme.Lawful {T : RTree} (S : Scheme T) : Prop where
  isEqual : ∀ x y, T.Valid x → T.Valid y → (S.isEqual x y = true ↔ x = y)
  numSiblings_pos : ∀ e, T.Valid e → 0 < S.numSiblings e
  numSiblings : ∀ e, T.Valid e → 0 < T.level e → S.numSiblings e = T.nc (T.parent e)
  childId : ∀ e, T.Valid e → 0 < T.level e → S.childId e = T.childId e
  childId_root : S.childId T.root ≤ 0
  /-- The root is never taken for a family of one element. -/
  root_no_family : S.childId T.root ≠ 0 ∨ S.numSiblings T.root ≠ 1 ∨ S.areFamily [T.root] = some false
  isRefinable : ∀ e, T.Valid e → (S.isRefinable e = true ↔ T.level e < T.maxLevel)
  linearId : T.LinearIdSpec S.linearId
  setLinearId : T.SetLinearIdSpec S.setLinearId
  successor : T.SuccessorSpec S.successor
  descendants : T.DescendantSpec S.firstDescendant S.lastDescendant
  compare : T.CompareSpec S.compare
  isAncestor : T.IsAncestorSpec S.isAncestor
  ancestorId : ∀ e l, T.Valid e → 0 < l → l ≤ T.level e → S.ancestorId e l = T.childId (T.anc e l)
  nca : T.NcaSpec S.nca
  areFamily : ∀ fam f0, fam.head? = some f0 → fam.length = S.numSiblings f0 → (∀ x ∈ fam, T.Valid x) →
    (∀ x ∈ fam, 0 < T.level x) →
    ∃ b, S.areFamily fam = some b ∧ (T.Segment fam → (b = true ↔ ∃ p, T.IsFamilyOf fam p))
  /-- The count is only required to be right when it fits into the 64 bit result. -/
  countLeavesFromRoot : ∀ L, L ≤ T.maxLevel → T.count T.root L < 2 ^ 63 →
    S.countLeavesFromRoot L = T.count T.root L

/-- The family test is right for all arrays of elements of the right length. Not all schemes have this property. -/
def Scheme.ExactFamilies {T : RTree} (S : Scheme T) : Prop :=
  ∀ fam f0, fam.head? = some f0 → fam.length = S.numSiblings f0 → (∀ x ∈ fam, T.Valid x) → (∀ x ∈ fam, 0 < T.level x) →
    ∃ b, S.areFamily fam = some b ∧ (b = true ↔ ∃ p, T.IsFamilyOf fam p)

end T8
