/-
Specification: refinement trees.

A refinement scheme of t8code turns a tree of the coarse mesh into a rooted tree of *elements*: the root
element is refined into its children, these into theirs, and so on up to a maximum level.  This file says
what such a tree is, and defines, from the children alone, the notions the properties talk about:
descendants, the uniform refinement in the order of the space-filling curve, positions on that curve, the
order of elements, and refinements ("tilings") of an element.

Nothing here mentions coordinates, bits or any definition of the model.
-/
import Mathlib.Data.List.Basic
import Mathlib.Data.List.Lex
import Mathlib.Logic.Function.Iterate

namespace T8

/-- A refinement tree. `E` is the type of (all bit patterns of) elements, `Valid` singles out those that
belong to the tree. `nc e` is the number of children of `e`; it may depend on `e` (pyramids). -/
structure RTree where
  E : Type
  Valid : E → Prop
  maxLevel : Nat
  level : E → Nat
  root : E
  nc : E → Nat
  child : E → Nat → E
  parent : E → E
  childId : E → Nat
  valid_root : Valid root
  level_root : level root = 0
  root_unique : ∀ e, Valid e → level e = 0 → e = root
  level_le : ∀ e, Valid e → level e ≤ maxLevel
  nc_pos : ∀ e, Valid e → 0 < nc e
  valid_child : ∀ e i, Valid e → level e < maxLevel → i < nc e → Valid (child e i)
  level_child : ∀ e i, Valid e → level e < maxLevel → i < nc e → level (child e i) = level e + 1
  parent_child : ∀ e i, Valid e → level e < maxLevel → i < nc e → parent (child e i) = e
  childId_child : ∀ e i, Valid e → level e < maxLevel → i < nc e → childId (child e i) = i
  valid_parent : ∀ e, Valid e → 0 < level e → Valid (parent e)
  level_parent : ∀ e, Valid e → 0 < level e → level (parent e) + 1 = level e
  childId_lt : ∀ e, Valid e → 0 < level e → childId e < nc (parent e)
  child_parent : ∀ e, Valid e → 0 < level e → child (parent e) (childId e) = e

namespace RTree
variable (T : RTree)

/-- `Desc a x`: `x` is `a` or is obtained from `a` by repeatedly taking children. -/
inductive Desc (a : T.E) : T.E → Prop
  | refl : Desc a a
  | step {x : T.E} {i : Nat} : Desc a x → T.level x < T.maxLevel → i < T.nc x → Desc a (T.child x i)

/-- The uniform refinement of `e` by `n` levels, in the order of the space-filling curve: children in the
order of their child ids, each replaced by its own uniform refinement. -/
def uniform : T.E → Nat → List T.E
  | e, 0 => [e]
  | e, n + 1 => (List.range (T.nc e)).flatMap (fun i => uniform (T.child e i) n)

/-- The ancestor of `e` at level `l ≤ level e`. -/
def anc (e : T.E) (l : Nat) : T.E := T.parent^[T.level e - l] e

/-- The first descendant of `e` that is `n` levels finer. -/
def firstDesc : T.E → Nat → T.E
  | e, 0 => e
  | e, n + 1 => firstDesc (T.child e 0) n

/-- The last descendant of `e` that is `n` levels finer. -/
def lastDesc : T.E → Nat → T.E
  | e, 0 => e
  | e, n + 1 => lastDesc (T.child e (T.nc e - 1)) n

/-- The number of elements of level `L` in the uniform refinement of `e`; `0` if `L` is coarser. -/
def count (e : T.E) (L : Nat) : Nat := if L < T.level e then 0 else (T.uniform e (L - T.level e)).length

/-- Child ids on the way from the root to `e`. -/
def path (e : T.E) : List Nat :=
  (List.range (T.level e)).map (fun k => T.childId (T.anc e (k + 1)))

/-- `x` comes before `y` and they do not overlap: below some element they descend from different children,
`x` from the one with the smaller id. -/
def Before (x y : T.E) : Prop :=
  ∃ a i j, T.Valid a ∧ T.level a < T.maxLevel ∧ i < j ∧ j < T.nc a ∧
    T.Desc (T.child a i) x ∧ T.Desc (T.child a j) y

/-- `Tiles e ls`: the list `ls` is a refinement of `e`, in the order of the space-filling curve: either
`e` itself, or a concatenation of refinements of all children of `e`. In particular the elements of `ls`
do not overlap and cover `e`. -/
inductive Tiles : T.E → List T.E → Prop
  | leaf (e : T.E) : Tiles e [e]
  | node (e : T.E) (ls : Nat → List T.E) : T.level e < T.maxLevel →
      (∀ i, i < T.nc e → Tiles (T.child e i) (ls i)) → Tiles e ((List.range (T.nc e)).flatMap ls)

end RTree

end T8
