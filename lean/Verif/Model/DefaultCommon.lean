/-
Model of the functions that the default schemes of all element classes share:
`src/t8_schemes/t8_default/t8_default_common/t8_default_common.hxx`.

The functions of the C++ template that call functions of the underlying class take these as arguments.
-/
import Verif.Model.Standalone

namespace T8.Default

/-- `count_leaves_from_level`, `t8_default_common.hxx:83`. The result is a `t8_gloidx_t`, its value is
`.toInt`. -/
def countLeavesFromLevel (elementLevel refinementLevel dimension : Nat) : BitVec 64 :=
  if elementLevel > refinementLevel then 0
  else BitVec.twoPow 64 (dimension * (refinementLevel - elementLevel))

/-- `element_is_ancestor`, `t8_default_common.hxx:202`, of a class with the levels `level` and the linear ids
`linearId`. -/
def isAncestor {E : Type} (level : E → Nat) (linearId : E → Nat → BitVec 64) (a b : E) : Bool :=
  if level a > level b then false
  else linearId a (level a) == linearId b (level a)

/-- `element_get_num_siblings`, `t8_default_common.hxx:310`: the same number for all elements, also for the
root. -/
def numSiblings (dim : Nat) : Nat := 2 ^ dim

/-- `count_leaves_from_root`, `t8_default_common.hxx:324`, for all classes but the pyramid. -/
def countLeavesFromRoot (dim level : Nat) : BitVec 64 := countLeavesFromLevel 0 level dim

end T8.Default
