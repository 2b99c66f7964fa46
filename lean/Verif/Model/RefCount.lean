/-
Model of the life time of forests: reference counts, ownership and the intermediate forests of a commit.
src/t8_forest/t8_forest.cxx, src/t8_forest/t8_forest_balance.cxx.

The heap maps addresses to objects. An object is a forest or a resource; the coarse mesh and the scheme of a forest are
resources (reference counted, not owning anything that is modelled). Reading or writing an object that has been freed,
or was never allocated, is the outcome `none`, as is a failing assertion. All data of a forest that plays no
role for the life time is left out; the number of rounds of the balance algorithm is an arbitrary parameter.
-/
import Verif.Model.Loop

namespace T8.RefCount

/-- The part of `t8_forest_struct_t` (t8_forest_types.h) that matters here. `adapt`, `partition`, `balance` are the bits of
`from_method`. -/
structure Obj where
  isForest : Bool
  rc : Nat
  freed : Bool
  committed : Bool
  setFrom : Option Nat
  cmesh : Option Nat
  scheme : Option Nat
  adapt : Bool
  partition : Bool
  balance : Bool

/-- The heap: addresses below `next` have been allocated. -/
structure Heap where
  next : Nat
  obj : Nat → Obj

def Heap.set (h : Heap) (a : Nat) (o : Obj) : Heap := { h with obj := fun b => if b = a then o else h.obj b }

/-- Access to an object. -/
def read (h : Heap) (a : Nat) : Option Obj := do
  assertO (a < h.next ∧ (h.obj a).freed = false)
  some (h.obj a)

/-- Allocation of an object with reference count 1. -/
def alloc (h : Heap) (isForest : Bool) : Heap × Nat :=
  ({ next := h.next + 1,
     obj := fun b => if b = h.next then
       { isForest, rc := 1, freed := false, committed := false, setFrom := none, cmesh := none, scheme := none,
         adapt := false, partition := false, balance := false } else h.obj b }, h.next)

/-- `t8_forest_init`, t8_forest.cxx:2890-2918. -/
def init (h : Heap) : Heap × Nat := alloc h true

/-- `t8_forest_ref`, t8_forest.cxx:4381-4386; `t8_cmesh_ref` and `t8_scheme::ref` do the same for resources. -/
def ref (h : Heap) (a : Nat) : Option Heap := do
  let o ← read h a
  assertO (0 < o.rc)
  some (h.set a { o with rc := o.rc + 1 })

/-- Free the memory of an object. -/
def free (h : Heap) (a : Nat) : Option Heap := do
  let o ← read h a
  some (h.set a { o with rc := 0, freed := true, setFrom := none, cmesh := none, scheme := none })

mutual

/-- `t8_forest_unref`, t8_forest.cxx:4388-4400 (for a resource: `t8_cmesh_unref`, `t8_scheme::unref`). -/
def unref (h : Heap) (a : Nat) : Option Heap := do
  let o ← read h a
  assertO (0 < o.rc)
  let h := h.set a { o with rc := o.rc - 1 }
  if o.rc - 1 = 0 then reset h a else some h
partial_fixpoint

/-- `t8_forest_reset`, t8_forest.cxx:4320-4379; a resource has none of the fields set. -/
def reset (h : Heap) (a : Nat) : Option Heap := do
  let o ← read h a
  assertO (o.rc = 0)
  assertO (o.committed = true → o.setFrom = none)
  let h ← unrefOpt h o.setFrom
  let o ← read h a
  let h ← unrefOpt h o.scheme
  let o ← read h a
  let h ← unrefOpt h o.cmesh
  free h a
partial_fixpoint

/-- `if (x != NULL) unref (x)`. -/
def unrefOpt (h : Heap) (x : Option Nat) : Option Heap :=
  match x with
  | none => some h
  | some b => unref h b
partial_fixpoint

end

/-- `forest->set_from = x` -/
def putFrom (h : Heap) (a : Nat) (x : Option Nat) : Option Heap := do
  let o ← read h a
  some (h.set a { o with setFrom := x })

/-- The part of `t8_forest_commit` that is common to all derived forests, t8_forest.cxx:3275-3312: take over coarse mesh and
scheme of `set_from`. -/
def takeOver (h : Heap) (f : Nat) : Option Heap := do
  let o ← read h f
  assertO (o.committed = false ∧ o.cmesh = none ∧ o.scheme = none)
  let s ← o.setFrom
  let os ← read h s
  assertO (os.committed = true)
  let c ← os.cmesh
  let sch ← os.scheme
  let h ← ref h c
  let h ← ref h sch
  let o ← read h f
  some (h.set f { o with cmesh := some c, scheme := some sch })

/-- `t8_forest_unref (&forest->set_from)` followed by an assignment to `forest->set_from`: the pointer is cleared
before the reference is released, in the code it is overwritten afterwards; nothing reads it in between. -/
def dropFrom (h : Heap) (f : Nat) : Option Heap := do
  let o ← read h f
  let s ← o.setFrom
  let h ← putFrom h f none
  unref h s

/-- The end of `t8_forest_commit`, t8_forest.cxx:3414-3437, where `forestFrom` is the local variable `forest_from`. -/
def finish (h : Heap) (f forestFrom : Nat) : Option Heap := do
  let o ← read h f
  let s ← o.setFrom
  let h ← (if forestFrom ≠ s then do
      let h ← dropFrom h f
      putFrom h f (some forestFrom)
    else some h)
  let h ← dropFrom h f
  let o ← read h f
  some (h.set f { o with setFrom := none, committed := true, adapt := false, partition := false, balance := false })

/-- Creation and `t8_forest_commit` of an intermediate forest that is derived from `s` by one operation: `t8_forest_init`,
`t8_forest_set_adapt`/`_partition`, `t8_forest_commit`. -/
def intermediate (h : Heap) (s : Nat) : Option (Heap × Nat) := do
  let (h, a) := init h
  let h ← putFrom h a (some s)
  let h ← takeOver h a
  let h ← finish h a s
  some (h, a)

/-- The rounds of `t8_forest_balance`, t8_forest_balance.cxx:205-281, as a list: for each round, whether the forest is also
repartitioned in this round. The result is the last `forest_temp`. -/
def balanceRounds (h : Heap) (forestFrom : Nat) : List Bool → Option (Heap × Nat)
  | [] => some (h, forestFrom)
  | repart :: rest => do
    let (h, temp) ← intermediate h forestFrom
    if repart then do
      let (h, part) ← intermediate h temp
      balanceRounds h part rest
    else balanceRounds h temp rest

/-- `t8_forest_balance`, t8_forest_balance.cxx:154-294. -/
def balance (h : Heap) (f : Nat) (rounds : List Bool) : Option Heap := do
  assertO (rounds ≠ [])
  let o ← read h f
  let s ← o.setFrom
  let h ← ref h s
  let (h, temp) ← balanceRounds h s rounds
  -- `t8_forest_copy_trees (forest, forest_temp, 1)` reads both
  let _ ← read h f
  let _ ← read h temp
  unref h temp

/-- The adapt step of `t8_forest_commit`, t8_forest.cxx:3322-3358. -/
def commitAdapt (h : Heap) (f : Nat) : Option Heap := do
  let o ← read h f
  if o.adapt then
    if o.partition || o.balance then do
      let s ← o.setFrom
      let h ← ref h s
      let (h, a) ← intermediate h s
      putFrom h f (some a)
    else do
      let s ← o.setFrom
      let _ ← read h s
      some h
  else some h

/-- The partition step of `t8_forest_commit`, t8_forest.cxx:3359-3397. If `set_from` is an intermediate forest, its reference
moves to the new intermediate forest: the pointer is cleared here first, in the code it is overwritten by the new
forest afterwards; nothing reads it in between. -/
def commitPartition (h : Heap) (f forestFrom : Nat) : Option Heap := do
  let o ← read h f
  if o.partition then
    if o.balance then do
      let s ← o.setFrom
      let h ← (if forestFrom = s then ref h s else putFrom h f none)
      let (h, p) ← intermediate h s
      putFrom h f (some p)
    else do
      let s ← o.setFrom
      let _ ← read h s
      some h
  else some h

/-- The balance step of `t8_forest_commit`, t8_forest.cxx:3398-3412. -/
def commitBalance (h : Heap) (f : Nat) (rounds : List Bool) : Option Heap := do
  let o ← read h f
  if o.balance then balance h f rounds else some h

/-- `t8_forest_commit`, t8_forest.cxx:3227-3489. -/
def commit (h : Heap) (f : Nat) (rounds : List Bool) : Option Heap := do
  let o ← read h f
  assertO (0 < o.rc ∧ o.committed = false)
  match o.setFrom with
  | none => do
    assertO (o.cmesh ≠ none ∧ o.scheme ≠ none ∧ o.adapt = false ∧ o.partition = false ∧ o.balance = false)
    some (h.set f { o with committed := true })
  | some forestFrom => do
    let h ← takeOver h f
    let h ← commitAdapt h f
    let h ← commitPartition h f forestFrom
    let h ← commitBalance h f rounds
    finish h f forestFrom

/-- What a user can do. -/
inductive Op where
  /-- create a coarse mesh or a scheme -/
  | newResource
  /-- `t8_forest_init` -/
  | init
  /-- `t8_forest_ref`, `t8_cmesh_ref`, `t8_scheme_ref` -/
  | ref (a : Nat)
  /-- `t8_forest_unref`, `t8_cmesh_unref`, `t8_scheme_unref` -/
  | unref (a : Nat)
  /-- `t8_forest_set_cmesh` -/
  | setCmesh (f c : Nat)
  /-- `t8_forest_set_scheme` -/
  | setScheme (f s : Nat)
  /-- `t8_forest_set_copy`, or a combination of `_set_adapt`, `_set_partition`, `_set_balance` with one source -/
  | setFrom (f s : Nat) (adapt partition balance : Bool)
  /-- `t8_forest_commit` -/
  | commit (f : Nat) (rounds : List Bool)

/-- One operation. t8_forest_set_cmesh: t8_forest.cxx:2949-2974, t8_forest_set_scheme: 2976-2989, t8_forest_set_copy:
3003-3028, t8_forest_set_partition: 3030-3056, t8_forest_set_balance: 3058-3089, t8_forest_set_adapt: 3125-3160. -/
def exec (h : Heap) : Op → Option Heap
  | .newResource => some (alloc h false).1
  | .init => some (init h).1
  | .ref a => ref h a
  | .unref a => unref h a
  | .setCmesh f c => do
    let o ← read h f
    assertO (o.committed = false ∧ o.cmesh = none ∧ o.setFrom = none)
    some (h.set f { o with cmesh := some c })
  | .setScheme f s => do
    let o ← read h f
    assertO (o.committed = false ∧ o.scheme = none ∧ o.setFrom = none)
    some (h.set f { o with scheme := some s })
  | .setFrom f s a p b => do
    let o ← read h f
    assertO (o.committed = false ∧ o.cmesh = none ∧ o.scheme = none)
    some (h.set f { o with setFrom := some s, adapt := a, partition := p, balance := b })
  | .commit f rounds => commit h f rounds

end T8.RefCount
