/-
Model of the default scheme for vertices: `src/t8_schemes/t8_default/t8_default_vertex/t8_dvertex.h` and
`t8_default_vertex.cxx`.

The level (`uint8_t` in the code) is a natural number: it never exceeds 254. `T8_ASSERT`s that only check the
stated preconditions are not part of the functions; they reappear as hypotheses of the theorems.
-/
import Verif.Model.DefaultCommon

namespace T8.Dvertex
open T8.Standalone (Word unpackInt8)

/-- `T8_DVERTEX_MAXLEVEL`, `t8_dvertex.h:52`. -/
abbrev maxLevel : Nat := 254

/-- `t8_dvertex_t`, `t8_dvertex.h:55`. -/
structure Vertex where
  level : Nat
  deriving DecidableEq

/-- `set_to_root`, `t8_default_vertex.cxx:367`. -/
def root : Vertex := ⟨0⟩

/-- `element_compare`, `t8_default_vertex.cxx:63`. -/
def compare (v w : Vertex) : Int := (v.level : Int) - w.level

/-- `element_is_equal`, `t8_default_vertex.cxx:69`. -/
def isEqual (v w : Vertex) : Bool := v.level == w.level

/-- `element_get_parent`, `t8_default_vertex.cxx:75`. Precondition `0 < level`. -/
def parent (v : Vertex) : Vertex := ⟨v.level - 1⟩

/-- `element_get_num_children`, `t8_default_vertex.cxx:113`. -/
def numChildren : Nat := 1

/-- `element_get_child`, `t8_default_vertex.cxx:128`. -/
def child (v : Vertex) (_childid : Nat) : Vertex := ⟨v.level + 1⟩

/-- `element_get_children`, `t8_default_vertex.cxx:144`. -/
def children (v : Vertex) : List Vertex := [⟨v.level + 1⟩]

/-- `element_get_child_id`, `t8_default_vertex.cxx:162`. -/
def childId (_v : Vertex) : Int := 0

/-- `element_get_ancestor_id`, `t8_default_vertex.cxx:169`. -/
def ancestorId (_v : Vertex) (_level : Nat) : Int := 0

/-- `elements_are_family`, `t8_default_vertex.cxx:176`. `none`: the array is empty. -/
def areFamily (fam : List Vertex) : Option Bool := do
  let f0 ← fam[0]?
  some (decide (f0.level > 0))

/-- `element_get_nca`, `t8_default_vertex.cxx:187`. -/
def nca (v w : Vertex) : Vertex := ⟨min v.level w.level⟩

/-- `element_transform_face`, `t8_default_vertex.cxx:204`: the content of `elem2` afterwards. -/
def transformFace (elem1 : Vertex) (_elem2 : Vertex) : Vertex := ⟨elem1.level⟩

/-- `element_set_linear_id`, `t8_default_vertex.cxx:223`. -/
def setLinearId (level : Nat) (id : BitVec 64) : Option Vertex := do
  assertO (level ≤ maxLevel)
  assertO (id = 0)
  some ⟨level⟩

/-- `element_get_linear_id`, `t8_default_vertex.cxx:235`. -/
def linearId (_v : Vertex) (_level : Nat) : BitVec 64 := 0

/-- `element_construct_successor`, `t8_default_vertex.hxx:545`: `SC_ABORT`. -/
def successor (_v : Vertex) : Option Vertex := none

/-- `element_get_first_descendant`, `t8_default_vertex.cxx:245`. -/
def firstDescendant (_v : Vertex) (level : Nat) : Vertex := ⟨level⟩

/-- `element_get_last_descendant`, `t8_default_vertex.cxx:257`. -/
def lastDescendant (_v : Vertex) (level : Nat) : Vertex := ⟨level⟩

/-- `element_is_refinable`, `t8_default_common.hxx:295`. -/
def isRefinable (v : Vertex) : Bool := v.level < maxLevel

/-- `element_is_ancestor`, `t8_default_common.hxx:202`. -/
def isAncestor (v w : Vertex) : Bool := Default.isAncestor Vertex.level linearId v w

/-- `element_count_leaves`, `t8_default_common.hxx:281`. -/
def countLeaves (v : Vertex) (level : Nat) : BitVec 64 := Default.countLeavesFromLevel v.level level 0

/-- `element_MPI_Pack`, `t8_default_vertex.cxx:374`. -/
def pack (vs : List Vertex) : List Word := vs.flatMap (fun v => [Word.int8 v.level])

/-- `element_MPI_Pack_size`, `t8_default_vertex.cxx:387`: the number of `MPI_INT8_T` values provided for. -/
def packSize (count : Nat) : Nat := count

/-- `element_MPI_Unpack`, `t8_default_vertex.cxx:402`. -/
def unpack : Nat → List Word → Option (List Vertex × List Word)
  | 0, buf => some ([], buf)
  | n + 1, buf => do
    let (l, buf) ← unpackInt8 buf
    let (vs, buf) ← unpack n buf
    some (⟨l⟩ :: vs, buf)

end T8.Dvertex
