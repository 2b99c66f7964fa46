/-
Model of `t8_forest_iterate_replace`, src/t8_forest/t8_forest_iterate.cxx:399-592. The result is the list of calls of the replace callback.
The assertions of debugging mode are part of the model. The check in lines 448-457 is left out: it is inside `#if T8_DEBUG`, a macro that
the library does not define.
-/
import Verif.Model.Adapt
import Verif.Spec.Replace

namespace T8.Replace
open T8.Populate

variable {T : RTree} (S : Scheme T)

/-- The variables of the loop over the elements of a tree, and the calls so far. -/
structure State where
  new : Nat
  old : Nat
  calls : List Report
  deriving DecidableEq

/-- The loop that counts the family of `elemNew` in the old forest, t8_forest_iterate.cxx:481-490: `family_size` and the element
to which `elem_old` points afterwards. -/
def countFamily (old : List T.E) (elemNew : T.E) (ielemOld : Nat) (elemOld : T.E) : Option (Nat × T.E) :=
  (List.range (min (T.nc elemNew) (old.length - ielemOld) - 1)).foldlM (fun r (k : Nat) => do
    let e ← old[ielemOld + (k + 1)]?
    assertO (0 < T.level e)
    return (if S.isEqual elemNew (T.parent e) then r.1 + 1 else r.1, e)) (1, elemOld)

/-- The check that `elem_old` is the first element of its family, t8_forest_iterate.cxx:492-502. -/
def checkFirst (old : List T.E) (elemNew : T.E) (ielemOld : Nat) (elemOld : T.E) : Option Unit :=
  (List.range (min (T.nc elemOld - 1) ielemOld)).forM (fun (k : Nat) => do
    let e ← old[ielemOld - (k + 1)]?
    assertO (0 < T.level e)
    assertO (S.isEqual elemNew (T.parent e) = false))

/-- The call for a removed element, t8_forest_iterate.cxx:532-540. -/
def removed (s : State) : State := { s with old := s.old + 1, calls := s.calls ++ [⟨-2, 1, s.old, 0, -1⟩] }

/-- The body of the loop over the elements, t8_forest_iterate.cxx:423-577. `incomplete` is `forest_new->incomplete_trees`, `incompleteOld`
that of the old forest. -/
def body (incomplete incompleteOld : Bool) (old new : List T.E) (s : State) : Option State := do
  assertO (s.old < old.length)
  let elemNew ← new[s.new]?
  let elemOld ← old[s.old]?
  let levelNew := T.level elemNew
  let levelOld := T.level elemOld
  if incomplete then
    if levelOld < levelNew then
      if S.isEqual elemOld (T.parent elemNew) then
        assertO (levelNew = levelOld + 1)
        let size := T.nc elemOld
        return ⟨s.new + size, s.old + 1, s.calls ++ [⟨1, 1, s.old, size, s.new⟩]⟩
      else return removed s
    else if levelOld > levelNew then
      if S.isEqual elemNew (T.parent elemOld) then
        assertO (levelNew + 1 = levelOld)
        let (size, elemOld) ← countFamily S old elemNew s.old elemOld
        assertO (size ≤ T.nc elemNew)
        checkFirst S old elemNew s.old elemOld
        return ⟨s.new + 1, s.old + size, s.calls ++ [⟨-1, size, s.old, 1, s.new⟩]⟩
      else return removed s
    else
      if S.isEqual elemNew elemOld then
        return ⟨s.new + 1, s.old + 1, s.calls ++ [⟨0, 1, s.old, 1, s.new⟩]⟩
      else return removed s
  else
    assertO (incompleteOld = false)
    if levelOld < levelNew then
      assertO (levelNew = levelOld + 1)
      let size := T.nc elemOld
      return ⟨s.new + size, s.old + 1, s.calls ++ [⟨1, 1, s.old, size, s.new⟩]⟩
    else if levelOld > levelNew then
      assertO (levelNew + 1 = levelOld)
      let size := T.nc elemNew
      return ⟨s.new + 1, s.old + size, s.calls ++ [⟨-1, size, s.old, 1, s.new⟩]⟩
    else
      assertO (S.isEqual elemNew elemOld)
      return ⟨s.new + 1, s.old + 1, s.calls ++ [⟨0, 1, s.old, 1, s.new⟩]⟩

/-- The calls for one tree, t8_forest_iterate.cxx:420-589. -/
def replaceTree (incomplete incompleteOld : Bool) (old new : List T.E) : Option (List Report) := do
  let s ← whileO (fun s : State => some (decide (s.new < new.length))) (body S incomplete incompleteOld old new) ⟨0, 0, []⟩
  assertO (s.new = new.length)
  if incomplete then
    return s.calls ++ (List.range' s.old (old.length - s.old)).map (fun k => ⟨-2, 1, k, 0, -1⟩)
  else
    assertO (s.old = old.length)
    return s.calls

section Forest
variable {C : Type} [DecidableEq C] {T : C → RTree} (S : ∀ c, Scheme (T c))

/-- The loop over the trees from number `itree` on, t8_forest_iterate.cxx:412-590: the calls with the number of the tree. -/
def replaceTrees (incomplete incompleteOld : Bool) :
    (old new : List (LocalTree T)) → (itree : Nat) → Option (List (Nat × Report))
  | [], [], _ => some []
  | o :: os, n :: ns, itree =>
    if h : n.cls = o.cls then do
      let calls ← replaceTree (S o.cls) incomplete incompleteOld o.leaves (h ▸ n.leaves)
      let rest ← replaceTrees incomplete incompleteOld os ns (itree + 1)
      return calls.map (Prod.mk itree) ++ rest
    else none
  | _, _, _ => none

/-- `t8_forest_iterate_replace`, t8_forest_iterate.cxx:398-592. Both forests have the same number of local trees (asserted). -/
def iterateReplace (incomplete incompleteOld : Bool) (old new : List (LocalTree T)) : Option (List (Nat × Report)) :=
  replaceTrees S incomplete incompleteOld old new 0

end Forest
end T8.Replace
