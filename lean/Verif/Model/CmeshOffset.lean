/-
Model of `src/t8_cmesh/t8_cmesh_internal/t8_cmesh_offset.c`: the table of tree offsets of a partitioned
coarse mesh, the queries on it, and the decision which rank sends which tree to which rank.

The offset array is a list of integers; every read checks its bounds.  `t8_gloidx_t` is modelled by `Int`
(no overflow: entries are bounded by the number of trees).  Ranks are `Int` as in C.
-/
import Verif.Model.Loop
import Mathlib.Algebra.Order.Group.Unbundled.Int

namespace T8.Offset

/-- `t8_offset_first`, t8_cmesh_offset.c:38-45 (with `t8_glo_kl0`, 30-36). -/
def first (proc : Int) (offset : List Int) : Option Int := do
  assertO (0 ≤ proc)
  let e ← rd offset proc
  return |e| + (if e < 0 then -1 else 0)

/-- `t8_offset_first_tree_to_entry`, t8_cmesh_offset.c:52-56. -/
def firstTreeToEntry (firstTree : Int) (shared : Bool) : Int :=
  if shared then -firstTree - 1 else firstTree

/-- `t8_offset_num_trees`, t8_cmesh_offset.c:58-72. -/
def numTrees (proc : Int) (offset : List Int) : Option Int := do
  assertO (0 ≤ proc)
  let e ← rd offset (proc + 1)
  let f ← first proc offset
  let n := |e| - f
  assertO (0 ≤ n)
  return n

/-- `t8_offset_last`, t8_cmesh_offset.c:74-82. -/
def last (proc : Int) (offset : List Int) : Option Int := do
  assertO (-1 ≤ proc)
  let e ← rd offset (proc + 1)
  return |e| - 1

/-- `t8_offset_valid_tree`, t8_cmesh_offset.c:84-93 (used in assertions only). -/
def validTree (gtree : Int) (mpisize : Int) (offset : List Int) : Option Bool := do
  let l ← last (mpisize - 1) offset
  return decide (0 ≤ gtree ∧ gtree ≤ l)

/-- `t8_offset_empty`, t8_cmesh_offset.c:95-107. -/
def empty (proc : Int) (offset : List Int) : Option Bool := do
  assertO (0 ≤ proc)
  let n ← numTrees proc offset
  return decide (n ≤ 0)

/-- `t8_offset_next_nonempty_rank`, t8_cmesh_offset.c:109-119. -/
def nextNonemptyRank (rank mpisize : Int) (offset : List Int) : Option Int :=
  whileO (fun q => if q < mpisize then empty q offset else some false)
    (fun q => some (q + 1)) (rank + 1)

/-- The body of the loop of `t8_offset_consistent`, t8_cmesh_offset.c:135-153, on the state
`(i, ret, last_tree)`. -/
def consistentBody (numTreesTotal : Int) (offset : List Int) (s : Int × Bool × Int) :
    Option (Int × Bool × Int) := do
  let (i, ret, lastTree) := s
  if ← empty i offset then
    let e ← rd offset i
    return (i + 1, ret && decide (0 ≤ e), lastTree)
  else
    let e ← rd offset i
    let f ← first i offset
    let ret := if e < 0 then ret && decide (f = lastTree) else ret && decide (f > lastTree)
    let lastTree ← last i offset
    return (i + 1, ret && decide (lastTree ≤ numTreesTotal), lastTree)

/-- `t8_offset_consistent`, t8_cmesh_offset.c:121-158. -/
def consistent (mpisize : Int) (offset : List Int) (numTreesTotal : Int) : Option Bool := do
  let e0 ← rd offset 0
  let l0 ← last 0 offset
  let s ← whileO (fun s : Int × Bool × Int => some (decide (s.1 < mpisize) && s.2.1))
    (consistentBody numTreesTotal offset) (1, decide (e0 = 0), l0)
  let eP ← rd offset mpisize
  return s.2.1 && decide (eP = numTreesTotal)

/-- `t8_offset_in_range`, t8_cmesh_offset.c:160-165. The second comparison is evaluated only if the first
one holds (`&&` of C). -/
def inRange (tree proc : Int) (offset : List Int) : Option Bool := do
  let f ← first proc offset
  if f ≤ tree then
    let l ← last proc offset
    return decide (tree ≤ l)
  else
    return false

/-- One iteration of the search loop of `t8_offset_any_owner_of_tree_ext`, t8_cmesh_offset.c:182-191, on
the state `(proc, range[0], range[1])` when `proc` is not an owner. Integer division of C truncates
towards zero. -/
def anyOwnerBody (gtree : Int) (offset : List Int) (s : Int × Int × Int) : Option (Int × Int × Int) := do
  let (proc, lo, hi) := s
  let l ← last proc offset
  let (lo, hi) := if l < gtree then (proc + 1, hi) else (lo, proc - 1)
  return ((lo + hi).tdiv 2, lo, hi)

/-- `t8_offset_any_owner_of_tree_ext`, t8_cmesh_offset.c:167-193. -/
def anyOwnerExt (mpisize startProc gtree : Int) (offset : List Int) : Option Int := do
  let s ← whileO (fun s : Int × Int × Int => (inRange gtree s.1 offset).map (!·))
    (anyOwnerBody gtree offset) (startProc, 0, mpisize - 1)
  return s.1

/-- `t8_offset_any_owner_of_tree`, t8_cmesh_offset.c:196-200. -/
def anyOwner (mpisize gtree : Int) (offset : List Int) : Option Int :=
  anyOwnerExt mpisize ((mpisize - 1).tdiv 2) gtree offset

/-- `t8_offset_first_owner_of_tree`, t8_cmesh_offset.c:205-242. The value of `*some_owner` on entry is
the argument; the value written back to it is not modelled (it is the owner found by `anyOwner`). -/
def firstOwner (mpisize gtree : Int) (offset : List Int) (someOwner : Int) : Option Int := do
  assertO ((← validTree gtree mpisize offset) = true)
  let someOwner ← (if someOwner < 0 then anyOwner mpisize gtree offset else some someOwner)
  assertO (someOwner < mpisize)
  let procTemp ← whileO (fun p => if 0 ≤ p then inRange gtree p offset else some false)
    (fun p => whileO (fun p => if 0 ≤ p then empty p offset else some false)
      (fun p => some (p - 1)) (p - 1)) someOwner
  -- `proc_temp >= -1`, otherwise SC_ABORT
  assertO (-1 ≤ procTemp)
  let procTemp ← whileO (fun p => empty p offset) (fun p => some (p + 1)) (procTemp + 1)
  assertO ((← inRange gtree procTemp offset) = true)
  return procTemp

/-- `t8_offset_next_prev_owner_of_tree`, t8_cmesh_offset.c:244-264. -/
def nextPrevOwner (mpisize gtree : Int) (offset : List Int) (currentOwner searchDir : Int) :
    Option Int := do
  let dir : Int := if 0 < searchDir then 1 else -1
  let proc ← whileO (fun p => if 0 ≤ p ∧ p < mpisize then empty p offset else some false)
    (fun p => some (p + dir)) (currentOwner + dir)
  if 0 ≤ proc ∧ proc < mpisize then
    if ← inRange gtree proc offset then return proc else return -1
  else
    return -1

/-- `t8_offset_next_owner_of_tree`, t8_cmesh_offset.c:270-275. -/
def nextOwner (mpisize gtree : Int) (offset : List Int) (currentOwner : Int) : Option Int :=
  nextPrevOwner mpisize gtree offset currentOwner 1

/-- `t8_offset_prev_owner_of_tree`, t8_cmesh_offset.c:281-286. -/
def prevOwner (mpisize gtree : Int) (offset : List Int) (currentOwner : Int) : Option Int :=
  nextPrevOwner mpisize gtree offset currentOwner (-1)

/-- `t8_offset_last_owner_of_tree`, t8_cmesh_offset.c:291-328. -/
def lastOwner (mpisize gtree : Int) (offset : List Int) (someOwner : Int) : Option Int := do
  assertO ((← validTree gtree mpisize offset) = true)
  let someOwner ← (if someOwner < 0 then anyOwner mpisize gtree offset else some someOwner)
  assertO (someOwner < mpisize)
  let procTemp ← whileO (fun p => if p < mpisize then inRange gtree p offset else some false)
    (fun p => whileO (fun p => if p < mpisize then empty p offset else some false)
      (fun p => some (p + 1)) (p + 1)) someOwner
  -- `proc_temp <= mpisize`, otherwise SC_ABORT
  assertO (procTemp ≤ mpisize)
  let procTemp ← whileO (fun p => empty p offset) (fun p => some (p - 1)) (procTemp - 1)
  assertO ((← inRange gtree procTemp offset) = true)
  return procTemp

/-- `t8_offset_all_owners_of_tree`, t8_cmesh_offset.c:333-361. The loop state is `(proc, owners)`. -/
def allOwners (mpisize gtree : Int) (offset : List Int) : Option (List Int) := do
  assertO ((← validTree gtree mpisize offset) = true)
  let p ← firstOwner mpisize gtree offset (-1)
  let s ← whileO (fun s : Int × List Int => some (decide (0 ≤ s.1)))
    (fun s => do
      let q ← nextOwner mpisize gtree offset s.1
      return if 0 ≤ q then (q, s.2 ++ [q]) else (q, s.2)) (p, [p])
  return s.2

/-- `t8_offset_nosend`, t8_cmesh_offset.c:365-430. `first_not_send` and `last_not_send` are `int`s in the
source and Booleans here; `b.toInt` is the integer. -/
def nosend (proc mpisize : Int) (offFrom offTo : List Int) : Option Bool := do
  let n ← numTrees proc offFrom
  if ← empty proc offFrom then return true
  else if n ≤ 2 then
    let e ← rd offFrom proc
    let f ← first proc offFrom
    let fns ← (if e < 0 then (inRange f proc offTo).map (!·) else some false)
    let lns : Option Bool ←  -- `none`: the function has returned 0
      (if (fns = true ∧ n = 2) ∨ (fns = false ∧ n = 1) then do
        let l ← last proc offFrom
        if ← inRange l proc offTo then pure none
        else
          let tp ← whileO (fun q => if q < mpisize then empty q offFrom else some false)
            (fun q => some (q + 1)) (proc + 1)
          let unique ← (if mpisize ≤ tp then some true
            else (first tp offFrom).map (fun x => decide (x ≠ l)))
          if unique then pure none
          else
            let receivers ← allOwners mpisize l offTo
            let known ← receivers.mapM (fun q => inRange l q offFrom)
            if known.all id then pure (some true) else pure none
      else pure (some false))
    match lns with
    | none => return false
    | some b => return decide (n - fns.toInt - b.toInt ≤ 0)
  else
    return false

/-- `t8_offset_sendsto`, t8_cmesh_offset.c:434-474. -/
def sendsto (a b : Int) (offFrom offTo : List Int) : Option Bool := do
  let ea ← empty a offFrom
  let eb ← (if ea then some true else empty b offTo)
  if ea || eb then return false
  else
    let entry ← rd offFrom b
    let keepsFirst ←
      (if entry < 0 then do
        let fb ← first b offFrom
        if ← inRange fb b offTo then (empty b offFrom).map (!·) else some false
      else some false)
    if a = b ∧ keepsFirst = true then return true
    else
      let fa ← first a offFrom
      let entryA ← rd offFrom a
      let aFirst := fa + (if entryA < 0 then 1 else 0)
      let aLast ← last a offFrom
      let bFirst ← first b offTo
      let bLast ← last b offTo
      let fbFrom ← first b offFrom
      let aLast := if keepsFirst = true ∧ aLast = fbFrom then aLast - 1 else aLast
      return decide (aFirst ≤ aLast ∧ aFirst ≤ bLast ∧
        bFirst + (if keepsFirst = true ∧ bFirst = fbFrom then 1 else 0) ≤ aLast)

/-- `t8_offset_sendstree`, t8_cmesh_offset.c:478-508. -/
def sendstree (s r gtree : Int) (offFrom offTo : List Int) : Option Bool := do
  if !(← inRange gtree s offFrom) then return false
  else if !(← inRange gtree r offTo) then return false
  else
    let er ← empty r offFrom
    let fr ← first r offFrom
    if er = false ∧ gtree = fr ∧ s ≠ r then return false
    else
      let fs ← first s offFrom
      let e ← rd offFrom s
      if s ≠ r ∧ gtree = fs ∧ e < 0 then return false
      else return true

/-- `t8_offset_range_send`, t8_cmesh_offset.c:512-525. The loop state is `(i, count)`. -/
def rangeSend (start end_ mpirank : Int) (offFrom offTo : List Int) : Option Int := do
  let s ← whileO (fun s : Int × Int => some (decide (s.1 ≤ end_)))
    (fun s => do
      let b ← sendsto s.1 mpirank offFrom offTo
      return (s.1 + 1, if b then s.2 + 1 else s.2)) (start, 0)
  return s.2

end T8.Offset
