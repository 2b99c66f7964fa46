/-
Model of the default scheme for quadrilaterals and hexahedra:
`src/t8_schemes/t8_default/t8_default_quad/t8_default_quad.cxx` and `t8_default_hex/t8_default_hex.cxx`.

The elements are quadrants of p4est. Many functions of the two classes only call a function of p4est, which is a
library of its own and not part of the repository. The functions and tables of p4est that the classes use are therefore
an argument `P : P4est d` of the model; what p4est documents about them is stated in `Spec/P4est.lean`, and the
theorems hold for every `P` that does what is documented. The rest of the code is modelled as it is.

Coordinates (`p4est_qcoord_t`) are 32 bit integers, linear ids are 64 bit integers with the arithmetic of the machine; the
level (`int8_t`) is a natural number. The fields of a quadrant that record how it is embedded in a hexahedron
(`T8_QUAD_SET_TDIM` etc., `element_copy_surround`) are not modelled: no function of the classes depends on
them, except for the debug check `element_is_valid`. The constants of p4est are `P4EST_MAXLEVEL = 30` and
`P4EST_QMAXLEVEL = 29`, that is, a root length of 2^30 for quadrilaterals. `P8EST_OLD_QMAXLEVEL`, the maximum level of
hexahedra, is 18; the root length of hexahedra depends on the version of p4est, so it is a parameter.
-/
import Verif.Model.Dline
import Verif.Model.SimplexFaces

namespace T8.Cube
open T8.Standalone (Elem getLen Word unpackInt unpackInt8)

/-- The two classes. For hexahedra `M` is `P8EST_MAXLEVEL`, the exponent of the root length. -/
inductive Cls
  | quad
  | hex (M : Nat) (h : 18 ≤ M ∧ M ≤ 30)

/-- `P4EST_DIM`, `P8EST_DIM`. -/
@[reducible] def Cls.dim : Cls → Nat
  | quad => 2
  | hex _ _ => 3

/-- `P4EST_MAXLEVEL`, `P8EST_MAXLEVEL`: the root length is `2 ^ rootLevel`. -/
@[reducible] def Cls.rootLevel : Cls → Nat
  | quad => 30
  | hex M _ => M

/-- `get_maxlevel`, `t8_default_quad.cxx:45` and `t8_default_hex.cxx:44`. -/
@[reducible] def Cls.maxLevel : Cls → Nat
  | quad => 29
  | hex _ _ => 18

/-- The functions and tables of p4est that the two classes use. -/
structure P4est (d : Nat) where
  /-- `p4est_quadrant_is_equal` -/
  isEqual : Elem d → Elem d → Bool
  /-- `p4est_quadrant_compare` -/
  compare : Elem d → Elem d → Int
  /-- `p4est_quadrant_parent` -/
  parent : Elem d → Elem d
  /-- `p4est_quadrant_sibling` -/
  sibling : Elem d → Nat → Elem d
  /-- `p4est_quadrant_childrenpv` -/
  children : Elem d → List (Elem d)
  /-- `p4est_quadrant_child_id` -/
  childId : Elem d → Nat
  /-- `p4est_quadrant_ancestor_id` -/
  ancestorId : Elem d → Nat → Nat
  /-- `p4est_quadrant_is_familypv` -/
  isFamily : List (Elem d) → Bool
  /-- `p4est_quadrant_set_morton` -/
  setMorton : Nat → BitVec 64 → Elem d
  /-- `p4est_quadrant_linear_id` -/
  linearId : Elem d → Nat → BitVec 64
  /-- `p4est_quadrant_first_descendant` -/
  firstDescendant : Elem d → Nat → Elem d
  /-- `p4est_quadrant_last_descendant` -/
  lastDescendant : Elem d → Nat → Elem d
  /-- `p4est_quadrant_corner_descendant`: corner and level -/
  cornerDescendant : Elem d → Nat → Nat → Elem d
  /-- `p4est_quadrant_successor` -/
  successor : Elem d → Elem d
  /-- `p4est_nearest_common_ancestor` -/
  nca : Elem d → Elem d → Elem d
  /-- `p4est_quadrant_face_neighbor` -/
  faceNeighbor : Elem d → Nat → Elem d
  /-- `p4est_quadrant_is_inside_root` -/
  isInsideRoot : Elem d → Bool
  /-- `p4est_face_corners[face][k]` -/
  faceCorners : Nat → Nat → Nat
  /-- `p4est_corner_faces[corner][k]` -/
  cornerFaces : Nat → Nat → Nat
  /-- `p4est_face_dual[face]` -/
  faceDual : Nat → Nat

variable {d : Nat}

/-- `P4EST_ROOT_LEN`. -/
def rootLen (M : Nat) : BitVec 32 := BitVec.twoPow 32 M

/-- `P4EST_LAST_OFFSET (l)`: the largest coordinate of a quadrant of level `l`. -/
def lastOffset (M l : Nat) : BitVec 32 := rootLen M - getLen M l

/-! ### Elements -/

/-- `element_get_num_children`, `t8_default_quad.cxx:136`, `t8_default_hex.cxx:111`. -/
def numChildren (d : Nat) : Nat := 2 ^ d

/-- `element_get_child`, `t8_default_quad.cxx:180`, `t8_default_hex.cxx:148`. Coordinate `i` belongs to bit `i` of the child
number. -/
def child (M : Nat) (e : Elem d) (childid : Nat) : Elem d :=
  ⟨fun i => if childid &&& (1 <<< i.val) ≠ 0 then e.coords i ||| getLen M (e.level + 1) else e.coords i, e.level + 1⟩

/-- `set_to_root`, `t8_default_quad.cxx:766`, `t8_default_hex.cxx:653`. -/
def setToRoot (P : P4est d) : Elem d := P.setMorton 0 0

/-- `element_get_sibling`, `t8_default_quad.cxx:111`, `t8_default_hex.cxx:90`. -/
def sibling (P : P4est d) (e : Elem d) (sibid : Nat) : Elem d := P.sibling e sibid

/-- `element_is_ancestor`, `t8_default_common.hxx:202`. -/
def isAncestor (P : P4est d) (a b : Elem d) : Bool := Default.isAncestor Elem.level P.linearId a b

/-- `element_count_leaves`, `t8_default_common.hxx:280`. -/
def countLeaves (e : Elem d) (level : Nat) : BitVec 64 := Default.countLeavesFromLevel e.level level d

/-- `element_is_refinable`, `t8_default_common.hxx:294`. -/
def isRefinable (m : Nat) (e : Elem d) : Bool := e.level < m

/-- `element_get_vertex_integer_coords`, `t8_default_quad.cxx:669`, `t8_default_hex.cxx:555`. -/
def vertexCoords (M : Nat) (e : Elem d) (vertex : Nat) : Fin d → BitVec 32 :=
  fun i => e.coords i + (if vertex &&& (1 <<< i.val) ≠ 0 then 1 else 0) * getLen M e.level

/-! ### Faces -/

/-- `element_get_num_faces`, `t8_default_quad.cxx:123`, `t8_default_hex.cxx:98`. -/
def numFaces (d : Nat) : Nat := 2 * d

/-- `element_get_num_face_children`, `t8_default_quad.cxx:143`, `t8_default_hex.cxx:118`: 2 and 4. -/
def numFaceChildren : Cls → Nat
  | .quad => 2
  | .hex _ _ => 4

/-- `element_get_face_corner`, `t8_default_quad.cxx:151`, `t8_default_hex.cxx:126`. -/
def faceCorner (P : P4est d) (face corner : Nat) : Nat := P.faceCorners face corner

/-- `element_get_corner_face`, `t8_default_quad.cxx:170`, `t8_default_hex.cxx:137`. -/
def cornerFace (P : P4est d) (corner face : Nat) : Nat := P.cornerFaces corner face

/-- `element_get_children_at_face`, `t8_default_quad.cxx:321`, `t8_default_hex.cxx:230`: the child indices. -/
def childrenAtFaceIds (c : Cls) (P : P4est c.dim) (face : Nat) : List Nat :=
  match c with
  | .quad =>
    match face with
    | 0 => [0, 2]
    | 1 => [1, 3]
    | 2 => [0, 1]
    | 3 => [2, 3]
    | _ => []
  | .hex _ _ => (List.range 4).map (P.faceCorners face)

/-- `element_get_children_at_face`: the children. (The last child is written first, so that `elem` may be the first entry of
the array; each entry is written once.) -/
def childrenAtFace (c : Cls) (P : P4est c.dim) (e : Elem c.dim) (face : Nat) : List (Elem c.dim) :=
  (childrenAtFaceIds c P face).map (child c.rootLevel e)

/-- `element_face_get_child_face`, `t8_default_quad.cxx:387`, `t8_default_hex.cxx:280`. -/
def faceChildFace (face _faceChild : Nat) : Nat := face

/-- `element_face_get_parent_face`, `t8_default_quad.cxx:396`, `t8_default_hex.cxx:289`; `none` is `-1`. -/
def faceParentFace (c : Cls) (P : P4est c.dim) (e : Elem c.dim) (face : Nat) : Option Nat :=
  if e.level = 0 then some face
  else if (List.range (numFaceChildren c)).any (fun k => P.childId e == P.faceCorners face k) then some face
  else none

/-- `element_get_tree_face`, `t8_default_quad.cxx:543`, `t8_default_hex.cxx:309`. -/
def treeFace (face : Nat) : Nat := face

/-- `element_get_first_descendant_face`, `t8_default_quad.cxx:553`, `t8_default_hex.cxx:381`. -/
def firstDescendantFace (P : P4est d) (e : Elem d) (face level : Nat) : Elem d :=
  P.cornerDescendant e (P.faceCorners face 0) level

/-- `element_get_last_descendant_face`, `t8_default_quad.cxx:571`, `t8_default_hex.cxx:399`. -/
def lastDescendantFace (c : Cls) (P : P4est c.dim) (e : Elem c.dim) (face level : Nat) : Elem c.dim :=
  P.cornerDescendant e (P.faceCorners face (match c with | .quad => 1 | .hex _ _ => 3)) level

/-- `element_is_root_boundary` of quadrilaterals, `t8_default_quad.cxx:615`. -/
def isRootBoundaryQuad (M : Nat) (q : Elem 2) (face : Nat) : Bool :=
  let coord := if face >>> 1 ≠ 0 then q.coords 1 else q.coords 0
  coord == (if face &&& 1 ≠ 0 then lastOffset M q.level else 0)

/-- `element_is_root_boundary` of hexahedra, `t8_default_hex.cxx:452`. -/
def isRootBoundaryHex (M : Nat) (q : Elem 3) (face : Nat) : Bool :=
  let coord := if face >>> 2 ≠ 0 then q.coords 2 else if face >>> 1 ≠ 0 then q.coords 1 else q.coords 0
  coord == (if face &&& 1 ≠ 0 then lastOffset M q.level else 0)

/-- `element_is_root_boundary`. -/
def isRootBoundary : (c : Cls) → Elem c.dim → Nat → Bool
  | .quad, q, face => isRootBoundaryQuad 30 q face
  | .hex M _, q, face => isRootBoundaryHex M q face

/-- `element_get_face_neighbor_inside`, `t8_default_quad.cxx:633`, `t8_default_hex.cxx:471`: the neighbor and its face number if it
is inside of the tree, `none` if the return value is 0. -/
def faceNeighborInside (P : P4est d) (e : Elem d) (face : Nat) : Option (Elem d × Nat) :=
  if P.isInsideRoot (P.faceNeighbor e face) then some (P.faceNeighbor e face, P.faceDual face) else none

/-- `element_get_boundary_face` of quadrilaterals, `t8_default_quad.cxx:588`. -/
def boundaryFaceQuad (q : Elem 2) (face : Nat) : Dline.Line :=
  ⟨Simplex.rescale Dline.maxLevel 30 (if face >>> 1 ≠ 0 then q.coords 0 else q.coords 1), q.level⟩

/-- `element_extrude_face` of quadrilaterals, `t8_default_quad.cxx:492`. `none` is the abort in the `default` case. -/
def extrudeFaceQuad (l : Dline.Line) (rootFace : Nat) : Option (Elem 2 × Nat) :=
  let s := Simplex.rescale 30 Dline.maxLevel l.x
  match rootFace with
  | 0 => some (⟨fun i => if i = 0 then 0 else s, l.level⟩, rootFace)
  | 1 => some (⟨fun i => if i = 0 then lastOffset 30 l.level else s, l.level⟩, rootFace)
  | 2 => some (⟨fun i => if i = 0 then s else 0, l.level⟩, rootFace)
  | 3 => some (⟨fun i => if i = 0 then s else lastOffset 30 l.level, l.level⟩, rootFace)
  | _ => none

/-- The coordinate of a hexahedron times `(t8_linearidx_t) P4EST_ROOT_LEN / P8EST_ROOT_LEN`, a multiplication of 64 bit
integers whose result is stored in a coordinate. -/
def scaleUp (M : Nat) (x : BitVec 32) : BitVec 32 :=
  (x.signExtend 64 * (BitVec.twoPow 64 30 / BitVec.twoPow 64 M)).setWidth 32

/-- `element_get_boundary_face` of hexahedra, `t8_default_hex.cxx:416`. -/
def boundaryFaceHex (M : Nat) (q : Elem 3) (face : Nat) : Elem 2 :=
  ⟨fun i => if i = 0 then scaleUp M (if face >>> 1 ≠ 0 then q.coords 0 else q.coords 1)
    else scaleUp M (if face >>> 2 ≠ 0 then q.coords 1 else q.coords 2), q.level⟩

/-- `element_extrude_face` of hexahedra, `t8_default_hex.cxx:318`. (The `switch` has no default case; for other face numbers, which
an assertion excludes, the coordinates would not be written.) -/
def extrudeFaceHex (M : Nat) (b : Elem 2) (rootFace : Nat) : Option (Elem 3 × Nat) :=
  let x := Simplex.rescale M 30 (b.coords 0)
  let y := Simplex.rescale M 30 (b.coords 1)
  let last := lastOffset M b.level
  match rootFace with
  | 0 => some (⟨fun i => if i = 0 then 0 else if i = 1 then x else y, b.level⟩, rootFace)
  | 1 => some (⟨fun i => if i = 0 then last else if i = 1 then x else y, b.level⟩, rootFace)
  | 2 => some (⟨fun i => if i = 0 then x else if i = 1 then 0 else y, b.level⟩, rootFace)
  | 3 => some (⟨fun i => if i = 0 then x else if i = 1 then last else y, b.level⟩, rootFace)
  | 4 => some (⟨fun i => if i = 0 then x else if i = 1 then y else 0, b.level⟩, rootFace)
  | 5 => some (⟨fun i => if i = 0 then x else if i = 1 then y else last, b.level⟩, rootFace)
  | _ => none

/-- `element_transform_face` of quadrilaterals, `t8_default_quad.cxx:414`: the content of `elem2` afterwards, given the contents of
`elem1` and `elem2` before. `same` says whether the two pointers are equal. `none` is the abort in the `default` case. -/
def transformFace (same : Bool) (elem1 elem2 : Elem 2) (orientation : Nat) (sign isSmaller : Bool) : Option (Elem 2) :=
  let qin := elem1
  -- `p` points to `elem2`; this is its content
  let p := if same then elem1 else elem2
  let h := getLen 30 qin.level
  let x := qin.coords 0
  -- with `sign`, `q` is `p`, into which the swapped coordinates of `elem1` are written, but not the level
  let q : Elem 2 := if sign then ⟨fun i => if i = 0 then qin.coords 1 else x, p.level⟩ else qin
  let x := if sign then q.coords 0 else x
  -- `p->level = q->level`
  let level := q.level
  let o := if !isSmaller ∧ (orientation = 1 ∨ orientation = 2) ∧ !sign then 3 - orientation else orientation
  -- In each case `q->x` and `q->y` are read before they are overwritten through `p`, or `x` is used instead.
  match o with
  | 0 => some ⟨fun i => if i = 0 then q.coords 0 else q.coords 1, level⟩
  | 1 => some ⟨fun i => if i = 0 then rootLen 30 - q.coords 1 - h else x, level⟩
  | 2 => some ⟨fun i => if i = 0 then q.coords 1 else rootLen 30 - x - h, level⟩
  | 3 => some ⟨fun i => if i = 0 then rootLen 30 - q.coords 0 - h else rootLen 30 - q.coords 1 - h, level⟩
  | _ => none

/-! ### Message buffers -/

/-- `element_MPI_Pack`, `t8_default_quad.cxx:774`, `t8_default_hex.cxx:662`, for one element: the coordinates and the level. -/
def packOne : (c : Cls) → Elem c.dim → List Word
  | .quad, q => [Word.int (q.coords 0), Word.int (q.coords 1), Word.int8 q.level]
  | .hex _ _, q => [Word.int (q.coords 0), Word.int (q.coords 1), Word.int (q.coords 2), Word.int8 q.level]

/-- `element_MPI_Pack`. -/
def pack (c : Cls) (es : List (Elem c.dim)) : List Word := es.flatMap (packOne c)

/-- `element_MPI_Pack_size`, `t8_default_quad.cxx:791`, `t8_default_hex.cxx:681`: number of `MPI_INT` and of `MPI_INT8_T` values. -/
def packSize (c : Cls) (count : Nat) : Nat × Nat :=
  match c with
  | .quad => (count * 2, count)
  | .hex _ _ => (count * 3, count)

/-- `element_MPI_Unpack`, `t8_default_quad.cxx:812`, `t8_default_hex.cxx:702`, for one element. -/
def unpackOne : (c : Cls) → List Word → Option (Elem c.dim × List Word)
  | .quad, buf => do
    let (x, buf) ← unpackInt buf
    let (y, buf) ← unpackInt buf
    let (l, buf) ← unpackInt8 buf
    some (⟨fun i => if i = 0 then x else y, l⟩, buf)
  | .hex _ _, buf => do
    let (x, buf) ← unpackInt buf
    let (y, buf) ← unpackInt buf
    let (z, buf) ← unpackInt buf
    let (l, buf) ← unpackInt8 buf
    some (⟨fun i => if i = 0 then x else if i = 1 then y else z, l⟩, buf)

/-- `element_MPI_Unpack`. -/
def unpack (c : Cls) : Nat → List Word → Option (List (Elem c.dim) × List Word)
  | 0, buf => some ([], buf)
  | n + 1, buf => do
    let (e, buf) ← unpackOne c buf
    let (es, buf) ← unpack c n buf
    some (e :: es, buf)

end T8.Cube
