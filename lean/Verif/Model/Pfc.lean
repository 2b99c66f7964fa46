/-
Model of partition for coarsening: src/t8_forest/t8_forest_partition_for_coarsening.cxx, t8_forest_pfc_helper.cxx and
t8_forest_pfc_message.hxx.

Simplifications: the integer types are unbounded. The allocation of elements, the packing of messages into bytes and the MPI requests are
not modelled: a message arrives as it was sent, and a receive without a matching send does not end (`none`).
-/
import Verif.Model.ForestTrees
import Verif.Spec.Scheme

namespace T8.Pfc
open T8.Trees

/-- `T8_ECLASS_MAX_CHILDREN`, src/t8_eclass/t8_eclass.h:84. -/
def maxChildren : Int := 10

/-- `std::lower_bound` on the first `n` entries of a sorted array: the index of the first entry that is not less than `x`. -/
def lowerBound (a : List Int) (n : Nat) (x : Int) : Int := ((a.take n).findIdx (fun v => decide (¬ v < x)) : Nat)

/-- `std::upper_bound` on the first `n` entries of a sorted array: the index of the first entry that is greater than `x`. -/
def upperBound (a : List Int) (n : Nat) (x : Int) : Int := ((a.take n).findIdx (fun v => decide (x < v)) : Nat)

/-- `proc_owner`, t8_forest_partition_for_coarsening.cxx:48-60. -/
def procOwner (partition : List Int) (mpisize : Nat) (elementId : Int) : Int := upperBound partition mpisize elementId - 1

/-- `get_relevant_process_range`, t8_forest_partition_for_coarsening.cxx:75-98. -/
def relevantRange (partitionOld : List Int) (rank : Int) (mpisize : Nat) : Option (Int × Int) := do
  let off ← rd partitionOld rank
  let last ← rd partitionOld mpisize
  let next ← rd partitionOld (rank + 1)
  let elesBegin := max 0 (off - (maxChildren - 1))
  let elesEnd := min last (next + (maxChildren - 1))
  let procBegin := procOwner partitionOld mpisize elesBegin
  let procEnd := procOwner partitionOld mpisize (elesEnd - 1) + 1
  assertO (0 ≤ procBegin)
  assertO (procBegin ≤ procEnd)
  assertO (procEnd ≤ mpisize)
  return (procBegin, procEnd)

/-- State of the loop of `extremeLocalSibling`: `ielem`, `extreme_sibling_id_in_tree`, and whether the loop goes on (no `break`). -/
structure SiblingState where
  ielem : Int
  extreme : Int
  run : Bool

section Sibling
variable {U : RTree} (S : Scheme U)

/-- The body of the loop, t8_forest_pfc_helper.cxx:73-89. `element_get_parent` asserts that the element is not the root. -/
def siblingBody (leaves : List U.E) (parentStart : U.E) (inc : Int) (s : SiblingState) : Option SiblingState := do
  let possible ← rd leaves s.ielem
  assertO (0 < U.level possible)
  if S.isEqual parentStart (U.parent possible) then return ⟨s.ielem + inc, s.ielem, true⟩
  else return { s with run := false }

/-- `t8_forest_pfc_extreme_local_sibling`, t8_forest_pfc_helper.cxx:37-97. -/
def extremeLocalSibling (leaves : List U.E) (start inc : Int) : Option Int := do
  assertO (|inc| = 1)
  let startElement ← rd leaves start
  if U.level startElement = 0 then return start
  else
    let parentStart := U.parent startElement
    let numChildren : Int := U.nc parentStart
    let check := start + inc * numChildren
    let check := max 0 (min check ((leaves.length : Int) - 1))
    let s ← whileO (fun s => some (s.run && decide ((s.ielem - check) * inc ≤ 0))) (siblingBody S leaves parentStart inc)
      ⟨start, start, true⟩
    return s.extreme

end Sibling

variable {T : Nat → RTree} (S : (g : Nat) → Scheme (T g))

/-- A local tree: `elements_offset` and `leaf_elements` of `t8_tree_struct`, src/t8_forest/t8_forest_types.h. `gtree` stands for the
element class: the elements are elements of `T gtree`. -/
structure Tree (T : Nat → RTree) where
  gtree : Nat
  elementsOffset : Int
  leaves : List (T gtree).E

/-- The local part of a forest: `first_local_tree`, `local_num_leaf_elements`, `trees` of `t8_forest`, src/t8_forest/t8_forest_types.h. -/
structure Forest (T : Nat → RTree) where
  firstLocalTree : Int
  localNum : Int
  trees : List (Tree T)

/-- A local tree as `t8_forest_get_leaf_element` sees it. -/
def Tree.offTree (t : Tree T) : OffTree (Σ g, (T g).E) := ⟨t.elementsOffset, t.leaves.map (Sigma.mk t.gtree)⟩

/-- The output of `index_in_tree_from_globalid`. -/
structure Located (T : Nat → RTree) where
  gtreeId : Int
  tree : Tree T
  index : Int
  element : (T tree.gtree).E

/-- `t8_forest_pfc_helper_index_in_tree_from_globalid`, t8_forest_pfc_helper.cxx:99-122. `firstId` is
`t8_forest_get_first_local_leaf_element_id`. The element that `t8_forest_get_leaf_element` returns is read again from the tree; the
assertion that compares the two pointers compares the indices here. -/
def indexInTree (bsearch : Int → List (OffTree (Σ g, (T g).E)) → Option Nat) (F : Forest T) (firstId : Int) (gelementId : Int) :
    Option (Located T) := do
  let lelementId := gelementId - firstId
  let (_, ltreeId) ← (← getLeafElement bsearch (F.trees.map Tree.offTree) F.localNum lelementId)
  let tree ← F.trees[ltreeId]?
  let index := lelementId - tree.elementsOffset
  let element ← rd tree.leaves index
  return ⟨F.firstLocalTree + ltreeId, tree, index, element⟩

/-- `t8_forest_pfc_message`, t8_forest_pfc_message.hxx: `itree`, `parent`, `num_siblings` and, on the receiving side, the sender
`iproc`. `gtree` stands for `eclass`. -/
structure Message (T : Nat → RTree) where
  iproc : Int
  itree : Int
  gtree : Nat
  parent : (T gtree).E
  numSiblings : Int

/-- `t8_forest_pfc_message::fill`, t8_forest_pfc_message.hxx:194-242, on the process `rank` for the receiver `iproc`. -/
def fill (bsearch : Int → List (OffTree (Σ g, (T g).E)) → Option Nat) (partition : List Int) (F : Forest T) (rank iproc : Int) :
    Option (Message T) := do
  let closest ← if iproc ≤ rank then rd partition rank else do
    let next ← rd partition (rank + 1)
    some (next - 1)
  let firstId ← rd partition rank
  let l ← indexInTree bsearch F firstId closest
  if (T l.tree.gtree).level l.element = 0 then
    return ⟨iproc, l.gtreeId, l.tree.gtree, l.element, 0⟩
  else
    let parent := (T l.tree.gtree).parent l.element
    if iproc > rank then
      let minId ← extremeLocalSibling (S l.tree.gtree) l.tree.leaves l.index (-1)
      return ⟨iproc, l.gtreeId, l.tree.gtree, parent, l.index - minId + 1⟩
    else
      assertO (iproc ≠ rank)
      let maxId ← extremeLocalSibling (S l.tree.gtree) l.tree.leaves l.index 1
      return ⟨iproc, l.gtreeId, l.tree.gtree, parent, maxId - l.index + 1⟩

/-- `t8_forest_pfc_send_loop_range`, t8_forest_partition_for_coarsening.cxx:116-150: the messages that process `rank` sends, with their
receivers. -/
def sendLoop (bsearch : Int → List (OffTree (Σ g, (T g).E)) → Option Nat) (partitionOld : List Int) (mpisize : Nat) (F : Forest T)
    (rank : Int) : Option (List (Int × Message T)) := do
  let (b, e) ← relevantRange partitionOld rank mpisize
  (List.range (e - b).toNat).foldlM (fun sent (k : Nat) => do
    let iproc := b + k
    let o ← rd partitionOld iproc
    let o' ← rd partitionOld (iproc + 1)
    if o ≥ o' ∨ iproc = rank then return sent
    else
      let m ← fill S bsearch partitionOld F rank iproc
      return sent ++ [(iproc, m)]) []

/-- `t8_forest_pfc_recv_loop_range`, t8_forest_partition_for_coarsening.cxx:168-207. `inbox q` is the message that process `q` sends to
`rank`. -/
def recvLoop (partitionOld : List Int) (mpisize : Nat) (rank : Int) (inbox : Int → Option (Message T)) : Option (List (Message T)) := do
  let (b, e) ← relevantRange partitionOld rank mpisize
  (List.range (e - b).toNat).foldlM (fun messages (k : Nat) => do
    let iproc := b + k
    let o ← rd partitionOld iproc
    let o' ← rd partitionOld (iproc + 1)
    if o ≥ o' ∨ iproc = rank then return messages
    else
      let m ← inbox iproc
      return messages ++ [{ m with iproc := iproc }]) []

/-- One round of the loop over the messages, t8_forest_partition_for_coarsening.cxx:285-301. The state is `family_begin`,
`family_end`. `none` if two trees with the same number have different element classes. -/
def familyStep (rank gtreeId : Int) (gtree : Nat) (parent : (T gtree).E) (r : Int × Int) (m : Message T) : Option (Int × Int) :=
  if m.itree = gtreeId then
    if h : m.gtree = gtree then
      if (S gtree).isEqual parent (h ▸ m.parent) then
        if m.iproc < rank then some (r.1 - m.numSiblings, r.2) else some (r.1, r.2 + m.numSiblings)
      else some r
    else none
  else some r

/-- `t8_forest_pfc_family_range_around_border`, t8_forest_partition_for_coarsening.cxx:241-311: the returned value, `family_begin` and
`family_end`. -/
def familyRange (bsearch : Int → List (OffTree (Σ g, (T g).E)) → Option Nat) (F : Forest T) (rank firstId border : Int)
    (messages : List (Message T)) : Option (Bool × Int × Int) := do
  let l ← indexInTree bsearch F firstId border
  if (T l.tree.gtree).level l.element = 0 then return (false, border, border)
  else
    let parent := (T l.tree.gtree).parent l.element
    let firstTreeElement := firstId + l.tree.elementsOffset
    let minId ← extremeLocalSibling (S l.tree.gtree) l.tree.leaves l.index (-1)
    let maxId ← extremeLocalSibling (S l.tree.gtree) l.tree.leaves l.index 1
    let r ← messages.foldlM (familyStep S rank l.gtreeId l.tree.gtree parent) (firstTreeElement + minId, firstTreeElement + maxId + 1)
    let numChildren : Int := (T l.tree.gtree).nc parent
    return (decide (r.2 - r.1 = numChildren), r.1, r.2)

/-- `t8_forest_pfc_correct_local_offsets`, t8_forest_partition_for_coarsening.cxx:322-369. -/
def correctLocalOffsets (bsearch : Int → List (OffTree (Σ g, (T g).E)) → Option Nat) (partitionOld partitionNew : List Int) (mpisize : Nat)
    (F : Forest T) (rank : Int) (messages : List (Message T)) : Option (List Int) := do
  let oldThis ← rd partitionOld rank
  let oldNext ← rd partitionOld (rank + 1)
  let minLocalProc := lowerBound partitionNew mpisize oldThis
  let nextMinLocalProc := lowerBound partitionNew mpisize oldNext
  (List.range (nextMinLocalProc - minLocalProc).toNat).foldlM (fun corrected (k : Nat) => do
    let borderRank := minLocalProc + k
    let border ← rd partitionNew borderRank
    let (full, familyBegin, familyEnd) ← familyRange S bsearch F rank oldThis border messages
    if full then
      let rankFamilyBegin := procOwner partitionNew mpisize familyBegin
      return corrected ++ [if borderRank ≤ rankFamilyBegin then familyBegin else familyEnd]
    else return corrected ++ [border]) []

section Whole
variable (bsearch : Int → List (OffTree (Σ g, (T g).E)) → Option Nat) (partitionOld partitionNew : List Int) (mpisize : Nat)
  (forests : Nat → Forest T)

/-- The messages that process `q` sends in `t8_forest_pfc_correction_offsets`, t8_forest_partition_for_coarsening.cxx:382-386. -/
def sends (q : Nat) : Option (List (Int × Message T)) :=
  if (forests q).localNum ≠ 0 then sendLoop S bsearch partitionOld mpisize (forests q) q else some []

/-- The message from process `q` to process `p`. -/
def inbox (p : Nat) (q : Int) : Option (Message T) := do
  let sent ← sends S bsearch partitionOld mpisize forests q.toNat
  let m ← sent.find? (fun m => decide (m.1 = (p : Int)))
  return m.2

/-- `corrected_local_offsets` of process `p` in `t8_forest_pfc_correction_offsets`, t8_forest_partition_for_coarsening.cxx:372-398. -/
def localOffsets (p : Nat) : Option (List Int) :=
  if (forests p).localNum ≠ 0 then do
    let _ ← sends S bsearch partitionOld mpisize forests p
    let messages ← recvLoop partitionOld mpisize p (inbox S bsearch partitionOld mpisize forests p)
    correctLocalOffsets S bsearch partitionOld partitionNew mpisize (forests p) p messages
  else some []

/-- `t8_forest_pfc_correction_offsets`, t8_forest_partition_for_coarsening.cxx:372-403, on all processes: the shared array after the
`allgatherv`, which writes the contributions of the processes one after the other to the start of the array. `none` if they do not
fit. -/
def correctionOffsets : Option (List Int) := do
  let parts ← (List.range mpisize).mapM (localOffsets S bsearch partitionOld partitionNew mpisize forests)
  assertO (parts.flatten.length ≤ partitionNew.length)
  return parts.flatten ++ partitionNew.drop parts.flatten.length

end Whole

end T8.Pfc
