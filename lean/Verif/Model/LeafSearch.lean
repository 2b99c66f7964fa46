/-
Model of the searches in arrays of leaves: src/t8_forest/t8_forest_private.cxx:74-213, src/t8_data/t8_containers.cxx:331-361,
`t8_forest_split_array` in src/t8_forest/t8_forest_iterate.cxx:46-95 and `t8_forest_element_has_leaf_desc` in
src/t8_forest/t8_forest.cxx:2815-2893.

Element arrays are lists. `std::upper_bound`, `std::lower_bound` and `sc_array_split` are modelled by what their documentation
promises; if the array is not partitioned as they require, the outcome is `none`.
-/
import Verif.Model.Loop
import Verif.Model.CmeshOffset
import Verif.Spec.Scheme
import Mathlib.Data.List.Defs

namespace T8.Leaf

/-- `std::upper_bound` and `std::lower_bound` (C++ standard): the first position at which `p` holds, or the end. The array has
to be partitioned with respect to `p`. -/
def partitionPoint {α : Type} (p : α → Bool) (l : List α) : Option Nat := do
  assertO (l.Pairwise (fun a b => p a = true → p b = true))
  some (l.findIdx p)

/-- `sc_array_split` (documentation in libsc's sc_containers.h): the elements `j` of type `k` are those with
`offsets[k] ≤ j < offsets[k + 1]`. The array has to be sorted by type. -/
def scArraySplit (types : List Nat) (numTypes : Nat) : Option (List Nat) := do
  assertO (types.Pairwise (· ≤ ·) ∧ ∀ t ∈ types, t < numTypes)
  some ((List.range (numTypes + 1)).map (fun k => types.findIdx (fun t => k ≤ t)))

section
variable {T : RTree} (S : Scheme T)

/-- `t8_forest_bin_search_lower`, t8_forest_private.cxx:74-107. -/
def binSearchLower (elements : List T.E) (elementId elementLevel : Nat) : Option Int := do
  let query ← rd elements 0
  if S.linearId query elementLevel > elementId then some (-1)
  else do
    let i ← partitionPoint (fun x => decide (elementId < S.linearId x elementLevel)) elements
    some ((i : Int) - 1)

/-- `t8_forest_bin_search_upper`, t8_forest_private.cxx:110-152. -/
def binSearchUpper (elements : List T.E) (elementId elementLevel : Nat) : Option Int := do
  if elements.length = 0 then some (-1)
  else do
    let query ← rd elements ((elements.length : Int) - 1)
    if S.linearId query elementLevel < elementId then some (-1)
    else do
      let i ← partitionPoint (fun x => !decide (elementId > S.linearId x elementLevel)) elements
      if i = elements.length then some (-1) else some (i : Int)

/-- `t8_forest_bin_search_first_descendant_ancestor`, t8_forest_private.cxx:154-232: the index and `element_found`. -/
def binSearchFirst (elements : List T.E) (element : T.E) : Option (Int × Option T.E) := do
  let elementLevel := T.level element
  let elementId := S.linearId element elementLevel
  let lower ← binSearchLower S elements elementId elementLevel
  let found ← (if lower ≥ 0 then do
      let x ← rd elements lower
      some (if S.isAncestor x element then some x else none)
    else some none)
  match found with
  | some x => some (lower, some x)
  | none => do
    let upper ← binSearchUpper S elements elementId elementLevel
    if upper ≥ 0 then do
      let x ← rd elements upper
      if S.isAncestor element x then some (upper, some x) else some (-1, none)
    else some (-1, none)

/-- `t8_element_array_find`, t8_containers.cxx:331-361. -/
def arrayFind (elements : List T.E) (element : T.E) : Option Int := do
  let elementLevel := T.level element
  let elementId := S.linearId element elementLevel
  let r ← binSearchLower S elements elementId elementLevel
  if r < 0 then some (-1)
  else do
    let x ← rd elements r
    if S.isEqual element x then some r else some (-1)

/-- `t8_forest_determine_child_type`, t8_forest_iterate.cxx:56-67. The child id is converted to `size_t`. -/
def childType (level : Nat) (x : T.E) : Option Nat := do
  assertO (level < T.level x)
  some (S.ancestorId x (level + 1)).toNat

/-- `t8_forest_split_array`, t8_forest_iterate.cxx:69-95. -/
def splitArray (element : T.E) (leaves : List T.E) : Option (List Nat) := do
  let types ← leaves.mapM (childType S (T.level element))
  scArraySplit types (T.nc element)

/-- The search in one array of leaves in `t8_forest_element_has_leaf_desc`, t8_forest.cxx:2841-2862 and 2868-2887. `checkLeaf` tells
whether the assertion that the found element is a leaf is made. -/
def hasLeafDescIn (maxlevel : Nat) (element : T.E) (lastDescId : Nat) (elements : List T.E) (checkLeaf : Bool) : Option Bool := do
  let index ← binSearchLower S elements lastDescId maxlevel
  if index ≥ 0 then do
    let x ← rd elements index
    let elemId := S.linearId x maxlevel
    if S.linearId element maxlevel ≤ elemId ∧ T.level element < T.level x then do
      assertO (T.level x > T.level element)
      if checkLeaf then do
        let r ← arrayFind S elements x
        assertO (r ≥ 0)
        some true
      else some true
    else some false
  else some false

/-- The search in a local tree or a ghost tree if there is one, t8_forest.cxx:2840 and 2864-2867. -/
def hasLeafDescOpt (maxlevel : Nat) (element : T.E) (lastDescId : Nat) (elements : Option (List T.E)) (checkLeaf : Bool) :
    Option Bool :=
  match elements with
  | some elements => hasLeafDescIn S maxlevel element lastDescId elements checkLeaf
  | none => some false

/-- `t8_forest_element_has_leaf_desc`, t8_forest.cxx:2815-2893: `loc` are the leaves of the tree if it is a local tree, `ghost` those of
the ghost tree if there is one. `maxlevel` is `forest->maxlevel`. -/
def hasLeafDesc (maxlevel : Nat) (element : T.E) (loc ghost : Option (List T.E)) : Option Bool := do
  let lastDesc := S.lastDescendant element maxlevel
  let lastDescId := S.linearId lastDesc maxlevel
  let r ← hasLeafDescOpt S maxlevel element lastDescId loc true
  if r then some true
  else hasLeafDescOpt S maxlevel element lastDescId ghost false

end

end T8.Leaf
