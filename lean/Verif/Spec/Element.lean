/-
Specification: what the element functions of a refinement scheme have to compute, in terms of the
refinement tree alone (`Spec/RTree.lean`). Each definition is a property of an arbitrary implementation
(`lin`, `setLin`, …) of one function of the scheme interface.
-/
import Verif.Spec.RTree

namespace T8.RTree
variable (T : RTree)

/-- `x` comes before `y` on the space-filling curve, ancestors before their descendants. -/
def Lt (x y : T.E) : Prop := T.Before x y ∨ (T.Desc x y ∧ x ≠ y)

/-- `a` is the nearest common ancestor of `x` and `y`: a common ancestor below every common ancestor. -/
def IsNca (a x y : T.E) : Prop := T.Desc a x ∧ T.Desc a y ∧ ∀ b, T.Valid b → T.Desc b x → T.Desc b y → T.Desc b a

/-- `lin e L` is the position of `e` in the uniform refinement of level `L` of the tree; if `L` is coarser
than `e`, the position of the ancestor of `e`, if it is finer, that of the first descendant. -/
def LinearIdSpec (lin : T.E → Nat → Nat) : Prop :=
  ∀ e L, T.Valid e → L ≤ T.maxLevel →
    (T.uniform T.root L)[lin e L]? =
      some (if L ≤ T.level e then T.anc e L else T.firstDesc e (L - T.level e))

/-- `setLin L id` constructs the element at position `id` of the uniform refinement of level `L`. -/
def SetLinearIdSpec (setLin : Nat → Nat → Option T.E) : Prop :=
  ∀ L id, L ≤ T.maxLevel → id < (T.uniform T.root L).length → setLin L id = (T.uniform T.root L)[id]?

/-- `succ e` is the next element in the uniform refinement of the level of `e`. -/
def SuccessorSpec (succ : T.E → Option T.E) : Prop :=
  ∀ e s i, T.Valid e → (T.uniform T.root (T.level e))[i]? = some e →
    (T.uniform T.root (T.level e))[i + 1]? = some s → succ e = some s

/-- `first`, `last` are the first and the last element of the uniform refinement of `e` of level `L`. -/
def DescendantSpec (first last : T.E → Nat → T.E) : Prop :=
  ∀ e L, T.Valid e → T.level e ≤ L → L ≤ T.maxLevel →
    (T.uniform e (L - T.level e)).head? = some (first e L) ∧
    (T.uniform e (L - T.level e)).getLast? = some (last e L)

/-- The descendants of `e` of level `L` are exactly the elements of level `L` with linear ids between that
of the first and that of the last descendant. -/
def DescendantIntervalSpec (lin : T.E → Nat → Nat) (first last : T.E → Nat → T.E) : Prop :=
  ∀ e x L, T.Valid e → T.Valid x → T.level e ≤ L → L ≤ T.maxLevel → T.level x = L →
    (T.Desc e x ↔ lin (first e L) L ≤ lin x L ∧ lin x L ≤ lin (last e L) L)

/-- `nca x y` is the nearest common ancestor. -/
def NcaSpec (nca : T.E → T.E → Option T.E) : Prop :=
  ∀ x y, T.Valid x → T.Valid y → ∃ a, nca x y = some a ∧ T.Valid a ∧ T.IsNca a x y

/-- `anc e l` is the ancestor of `e` of level `l`. -/
def AncestorSpec (ancestor : T.E → Nat → T.E) : Prop :=
  ∀ e l, T.Valid e → l ≤ T.level e →
    T.Valid (ancestor e l) ∧ T.level (ancestor e l) = l ∧ T.Desc (ancestor e l) e

/-- `isAnc a x` is true exactly if `x` is a descendant of `a` (or `a` itself). -/
def IsAncestorSpec (isAnc : T.E → T.E → Bool) : Prop :=
  ∀ a x, T.Valid a → T.Valid x → (isAnc a x = true ↔ T.Desc a x)

/-- `fam` is the family of the children of `p`, in order. -/
def IsFamilyOf (fam : List T.E) (p : T.E) : Prop :=
  T.Valid p ∧ T.level p < T.maxLevel ∧ fam = (List.range (T.nc p)).map (T.child p)

/-- The comparison function returns a negative number, zero or a positive number exactly if its first
argument comes before, equals, or comes after the second in the order of the space-filling curve. -/
def CompareSpec (cmp : T.E → T.E → Int) : Prop :=
  ∀ x y, T.Valid x → T.Valid y →
    (cmp x y < 0 ↔ T.Lt x y) ∧ (cmp x y = 0 ↔ x = y) ∧ (0 < cmp x y ↔ T.Lt y x)

/-- `Lt` is a strict total order on the elements of the tree. -/
def LtTotalOrder : Prop :=
  (∀ x, T.Valid x → ¬ T.Lt x x) ∧
  (∀ x y z, T.Valid x → T.Valid y → T.Valid z → T.Lt x y → T.Lt y z → T.Lt x z) ∧
  (∀ x y, T.Valid x → T.Valid y → T.Lt x y ∨ x = y ∨ T.Lt y x)

/-- `cnt e L` is the number of elements of the uniform refinement of `e` of level `L`. -/
def CountSpec (cnt : T.E → Nat → Int) : Prop :=
  ∀ e L, T.Valid e → L ≤ T.maxLevel → cnt e L = T.count e L

end T8.RTree
