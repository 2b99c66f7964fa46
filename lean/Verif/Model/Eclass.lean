/-
Model of `src/t8_eclass/t8_eclass.c`: the element classes, their dimensions and their order.
-/
import Verif.Model.Loop

namespace T8

/-- `t8_eclass_t`, src/t8_eclass/t8_eclass.h:42-66, without the count and the invalid class. -/
inductive Eclass
  | vertex | line | quad | triangle | hex | tet | prism | pyramid
  deriving DecidableEq, Repr

/-- `t8_eclass_to_dimension`, src/t8_eclass/t8_eclass.h:92. -/
def Eclass.dim : Eclass → Nat
  | vertex => 0 | line => 1 | quad => 2 | triangle => 2 | hex => 3 | tet => 3 | prism => 3 | pyramid => 3

/-- `t8_eclass_num_vertices`, src/t8_eclass/t8_eclass.h:169. -/
def Eclass.numVertices : Eclass → Nat
  | vertex => 1 | line => 2 | quad => 4 | triangle => 3 | hex => 8 | tet => 4 | prism => 6 | pyramid => 5

/-- `t8_eclass_num_faces`, src/t8_eclass/t8_eclass.h:94. -/
def Eclass.numFaces : Eclass → Nat
  | vertex => 0 | line => 2 | quad => 4 | triangle => 3 | hex => 6 | tet => 4 | prism => 5 | pyramid => 5

/-- `t8_eclass_max_num_faces`, src/t8_eclass/t8_eclass.h:96. -/
def maxNumFaces : Nat → Nat
  | 0 => 0 | 1 => 2 | 2 => 4 | _ => 6

/-- `t8_eclass_compare`, src/t8_eclass/t8_eclass.c:95-126. `none` is a failing assertion. -/
def eclassCompare (a b : Eclass) : Option Int := do
  assertO (a.dim = b.dim)
  if a = b then return 0
  else if a.dim = 2 then return (if a = .triangle then -1 else 1)
  else
    assertO (a.dim = 3)
    match a with
    | .tet => return -1
    | .hex => return (if b = .tet then 1 else -1)
    | .prism => return (if b = .pyramid then -1 else 1)
    | _ =>
      assertO (a = .pyramid)
      return 1

end T8
