/-
Model of the search for the process that owns an element: src/t8_forest/t8_forest.cxx:2192-2258 and 2310-2462, and of the functions that use
it: 2561-2745.
-/
import Verif.Model.CmeshOffset
import Verif.Spec.Scheme
import Verif.Spec.Face

namespace T8.Owner

/-- The arrays of a forest about the distribution of trees and leaves (src/t8_forest/t8_forest_types.h): `tree_offsets`,
`element_offsets` and `global_first_desc`, the number of processes, of global trees and `maxlevel`. -/
structure Tables where
  mpisize : Int
  numTrees : Int
  maxlevel : Nat
  treeOffsets : List Int
  elementOffsets : List Int
  firstDescs : List Nat

variable {T : RTree} (S : Scheme T) (A : Tables)

/-- `t8_forest_element_check_owner`, t8_forest.cxx:2192-2258. -/
def checkOwner (element : T.E) (gtreeid rank : Int) (elementIsDesc : Bool) : Option Bool := do
  assertO (0 ≤ gtreeid ∧ gtreeid < A.numTrees)
  if ← Offset.inRange gtreeid rank A.treeOffsets then
    let f ← Offset.first rank A.treeOffsets
    let l ← Offset.last rank A.treeOffsets
    let isFirst := decide (f = gtreeid)
    let isLast := decide (gtreeid = l)
    if isFirst || isLast then
      let nextNonempty ← Offset.nextNonemptyRank rank A.mpisize A.treeOffsets
      let checkNext ← (if isLast && decide (nextNonempty < A.mpisize) then Offset.inRange gtreeid nextNonempty A.treeOffsets
        else some false)
      let firstDescId :=
        if !elementIsDesc then S.linearId (S.firstDescendant element A.maxlevel) A.maxlevel
        else S.linearId element A.maxlevel
      let rfirstDescId ← rd A.firstDescs rank
      let nextOk ← (if checkNext then do
          let rnextDescId ← rd A.firstDescs nextNonempty
          some (decide (rnextDescId ≤ firstDescId))
        else some false)
      return !((isFirst && decide (rfirstDescId > firstDescId)) || nextOk)
    else return true
  else return false

/-- The local variables of `t8_forest_element_find_owner_ext` that change in its loops. -/
structure State where
  lower : Int
  upper : Int
  guess : Int
  dir : Int
  found : Bool

/-- The body of the loop that skips empty processes, t8_forest.cxx:2364-2384. -/
def skipBody (lastGuess : Int) (s : State) : State :=
  let s :=
    if (s.dir = -1 ∧ s.guess ≤ s.lower) ∨ (s.dir = 1 ∧ s.guess ≥ s.upper) then
      let reachedBound : Int := if s.dir > 0 then 1 else -1
      let s := { s with dir := s.dir * -1, guess := lastGuess }
      if reachedBound > 0 then { s with upper := lastGuess } else { s with lower := lastGuess }
    else s
  { s with guess := s.guess + s.dir }

/-- The loop that skips empty processes, t8_forest.cxx:2362-2385. -/
def skipEmpty (s : State) : Option State :=
  whileO (fun t => Offset.empty t.guess A.elementOffsets) (fun t => some (skipBody s.guess t)) s

/-- Continue on the left of the guess. -/
def goLeft (s : State) : State :=
  { s with dir := -1, upper := s.guess - 1, guess := (s.guess - 1 + s.lower).tdiv 2 }

/-- Continue on the right, from `lower` on. -/
def goRight (s : State) (lower : Int) : State := { s with dir := 1, lower := lower, guess := (s.upper + lower).tdiv 2 }

/-- The comparison with the guess, t8_forest.cxx:2386-2442. -/
def compareGuess (gtreeid : Int) (elementDescId : Nat) (s : State) : Option State := do
  let currentFirstTree ← Offset.first s.guess A.treeOffsets
  if currentFirstTree > gtreeid then return goLeft s
  else
    let currentId ← rd A.firstDescs s.guess
    if currentFirstTree = gtreeid ∧ elementDescId < currentId then return goLeft s
    else
      let nextNonempty ← Offset.nextNonemptyRank s.guess A.mpisize A.treeOffsets
      let currentFirstTree ← Offset.first nextNonempty A.treeOffsets
      if currentFirstTree < gtreeid then return goRight s nextNonempty
      else
        let currentId ← rd A.firstDescs nextNonempty
        if currentFirstTree = gtreeid ∧ currentId ≤ elementDescId then return goRight s (s.guess + 1)
        else return { s with found := true }

/-- The body of the search loop, t8_forest.cxx:2353-2444. -/
def findBody (gtreeid : Int) (elementDescId : Nat) (s : State) : Option State := do
  assertO (s.lower ≤ s.upper)
  if s.upper = s.lower then return { s with guess := s.upper, found := true }
  else
    let s ← skipEmpty A s
    compareGuess A gtreeid elementDescId s

/-- `t8_forest_element_find_owner_ext`, t8_forest.cxx:2310-2454. -/
def findOwnerExt (gtreeid : Int) (element : T.E) (lowerBound upperBound guess : Int) (elementIsDesc : Bool) : Option Int := do
  assertO (0 ≤ gtreeid ∧ gtreeid < A.numTrees)
  assertO (0 ≤ lowerBound ∧ lowerBound ≤ upperBound ∧ upperBound < A.mpisize)
  assertO (lowerBound ≤ guess ∧ guess ≤ upperBound)
  if upperBound = lowerBound then return upperBound
  else
    let firstDesc := if elementIsDesc then element else S.firstDescendant element A.maxlevel
    let elementDescId := S.linearId firstDesc (T.level firstDesc)
    let s ← whileO (fun s => some (!s.found)) (findBody A gtreeid elementDescId) ⟨lowerBound, upperBound, guess, 1, false⟩
    assertO ((← checkOwner S A element gtreeid s.guess elementIsDesc) = true)
    return s.guess

/-- `t8_forest_element_find_owner`, t8_forest.cxx:2456-2462. -/
def findOwner (gtreeid : Int) (element : T.E) : Option Int :=
  findOwnerExt S A gtreeid element 0 (A.mpisize - 1) ((A.mpisize - 1).tdiv 2) false

/-- The descendant that is used: the given one, or the computed one (the first lines of the recursion, t8_forest.cxx:2579-2592), and
the assertion of the debug version (2594-2605). -/
def useDesc (given : Option T.E) (computed : T.E) : Option T.E := do
  let d := given.getD computed
  assertO (S.isEqual computed d = true)
  return d

/-- Add the owner to the array if it is greater than the last entry, t8_forest.cxx:2622-2634. -/
def pushOwner (owners : List Int) (owner : Int) : List Int :=
  let lastEntry := if owners.length > 0 then owners.getLast?.getD (-1) else -1
  if owner > lastEntry then owners ++ [owner] else owners

/-- `t8_forest_element_owners_at_face_recursion`, t8_forest.cxx:2567-2664. -/
def ownersRec (F : FaceScheme T) (gtreeid : Int) (element : T.E) (face : Nat) (lower upper : Int) (firstDesc lastDesc : Option T.E)
    (owners : List Int) : Option (List Int) := do
  let lastFaceDesc ← useDesc S lastDesc (F.lastDescendantFace element face A.maxlevel)
  let firstFaceDesc ← useDesc S firstDesc (F.firstDescendantFace element face A.maxlevel)
  let firstOwner ← findOwnerExt S A gtreeid firstFaceDesc lower upper lower true
  let lastOwner ← findOwnerExt S A gtreeid lastFaceDesc lower upper upper true
  assertO (firstOwner ≤ lastOwner)
  if firstOwner = lastOwner then do
    assertO ((← checkOwner S A firstFaceDesc gtreeid firstOwner true) = true)
    assertO ((← checkOwner S A lastFaceDesc gtreeid firstOwner true) = true)
    return pushOwner owners firstOwner
  else do
    assertO (T.level element < A.maxlevel)
    (List.range (F.numFaceChildren element face)).foldlM (fun owners ichild => do
        let child ← (F.childrenAtFace element face)[ichild]?
        ownersRec F gtreeid child (F.childFace element face ichild) lower upper (if ichild = 0 then some firstFaceDesc else none)
          (if ichild = F.numFaceChildren element face - 1 then some lastFaceDesc else none) owners) owners
partial_fixpoint

/-- The bounds for the owners: the first two entries of the array, if it is not empty, t8_forest.cxx:2671-2681. -/
def ownerBounds (owners : List Int) : Option (Int × Int) :=
  if owners.length > 0 then do
    let lower ← rd owners 0
    let upper ← rd owners 1
    return (lower, upper)
  else return (0, A.mpisize - 1)

/-- `t8_forest_element_owners_at_face`, t8_forest.cxx:2666-2697. The array `owners` at the end of the call. -/
def ownersAtFace (F : FaceScheme T) (gtreeid : Int) (element : T.E) (face : Nat) (owners : List Int) : Option (List Int) := do
  let (lower, upper) ← ownerBounds A owners
  assertO (0 ≤ lower ∧ upper < A.mpisize)
  if lower = upper then return [lower]
  else if lower > upper then return []
  else ownersRec S A F gtreeid element face lower upper none none []

/-- `t8_forest_element_owners_bounds`, t8_forest.cxx:2699-2722. -/
def ownersBounds (gtreeid : Int) (element : T.E) (lower upper : Int) : Option (Int × Int) :=
  if lower ≥ upper then some (lower, upper)
  else do
    let lower ← findOwnerExt S A gtreeid (S.firstDescendant element A.maxlevel) lower upper lower true
    let upper ← findOwnerExt S A gtreeid (S.lastDescendant element A.maxlevel) lower upper upper true
    return (lower, upper)

/-- `t8_forest_element_owners_at_face_bounds`, t8_forest.cxx:2724-2746. -/
def ownersAtFaceBounds (F : FaceScheme T) (gtreeid : Int) (element : T.E) (face : Nat) (lower upper : Int) : Option (Int × Int) :=
  if lower ≥ upper then some (lower, upper)
  else do
    let lower ← findOwnerExt S A gtreeid (F.firstDescendantFace element face A.maxlevel) lower upper lower true
    let upper ← findOwnerExt S A gtreeid (F.lastDescendantFace element face A.maxlevel) lower upper upper true
    return (lower, upper)

end T8.Owner
