/-
Model of the default scheme for lines: `src/t8_schemes/t8_default/t8_default_line/t8_dline.h`,
`t8_dline_bits.c` and `t8_default_line.cxx`.

Coordinates are 32 bit integers (`BitVec 32`), linear ids are 64 bit integers with the arithmetic of the
machine. The level (`int8_t`) is a natural number, it never exceeds 30. `T8_ASSERT`s that only check the stated
preconditions are not part of the functions; they reappear as hypotheses of the theorems, with the
exception of the assertion of `t8_dline_child_id`, which excludes valid elements (`childIdDebug`).
-/
import Verif.Model.DefaultCommon
import Verif.Model.Dvertex

namespace T8.Dline
open T8.Standalone (Word unpackInt unpackInt8 activeBits)

/-- `T8_DLINE_MAXLEVEL`, `t8_dline.h:42`. -/
abbrev maxLevel : Nat := 30

/-- `t8_dline_t`, `t8_dline.h:54`. -/
structure Line where
  x : BitVec 32
  level : Nat
  deriving DecidableEq

/-- `T8_DLINE_ROOT_LEN`, `t8_dline.h:45`. -/
def rootLen : BitVec 32 := BitVec.twoPow 32 maxLevel

/-- `T8_DLINE_LEN (l)`, `t8_dline.h:48`. -/
def len (l : Nat) : BitVec 32 := BitVec.twoPow 32 (maxLevel - l)

/-- `set_to_root`, `t8_default_line.cxx:496`. -/
def root : Line := ⟨0, 0⟩

/-- `t8_dline_compare`, `t8_dline_bits.c:42`. The coordinates are converted to `t8_linearidx_t` (`uint64_t`),
which extends the sign. -/
def compare (e f : Line) : Int :=
  let id1 := e.x.signExtend 64
  let id2 := f.x.signExtend 64
  if id1 = id2 then (e.level : Int) - f.level
  else if id1 < id2 then -1 else if id1 ≠ id2 then 1 else 0

/-- `t8_dline_equal`, `t8_dline_bits.c:59`. -/
def isEqual (e f : Line) : Bool := e.level == f.level && e.x == f.x

/-- `t8_dline_parent`, `t8_dline_bits.c:65`. Precondition `0 < level`. -/
def parent (e : Line) : Line := ⟨e.x &&& ~~~(len e.level), e.level - 1⟩

/-- `t8_dline_ancestor`, `t8_dline_bits.c:81`. -/
def ancestor (e : Line) (level : Nat) : Line := ⟨e.x &&& ~~~(len level - 1), level⟩

/-- `t8_dline_child`, `t8_dline_bits.c:91`. Precondition `level < MAXLEVEL`, `childid < 2`. -/
def child (e : Line) (childid : Nat) : Line :=
  ⟨e.x + (if childid = 0 then 0 else len (e.level + 1)), e.level + 1⟩

/-- `t8_dline_face_neighbour`, `t8_dline_bits.c:109`. -/
def faceNeighbour (e : Line) (face : Nat) : Line × Nat :=
  (⟨if face = 0 then e.x - len e.level else e.x + len e.level, e.level⟩, 1 - face)

/-- `t8_dline_nearest_common_ancestor`, `t8_dline_bits.c:129`. -/
def nca (e f : Line) : Option Line := do
  let exclusiveOr := e.x ^^^ f.x
  let level := activeBits exclusiveOr
  assertO (level ≤ maxLevel)
  some ⟨e.x &&& ~~~(BitVec.twoPow 32 level - 1), min (maxLevel - level) (min e.level f.level)⟩

/-- `t8_dline_ancestor_id`, `t8_dline_bits.c:146`. -/
def ancestorId (e : Line) (level : Nat) : Int :=
  if level = 0 then 0 else if e.x &&& len level ≠ 0 then 1 else 0

/-- `t8_dline_child_id`, `t8_dline_bits.c:178`, without the assertion. -/
def childId (e : Line) : Int := (e.x.sshiftRight (maxLevel - e.level) &&& 1).toInt

/-- `t8_dline_child_id`, `t8_dline_bits.c:178`, in builds with assertions (line 180). -/
def childIdDebug (e : Line) : Option Int := do
  assertO (e.level < maxLevel)
  some (childId e)

/-- `t8_dline_face_parent_face`, `t8_dline_bits.c:164`; `none` is `-1`. -/
def faceParentFace (e : Line) (face : Nat) : Option Nat :=
  if e.level = 0 then some face
  else if childId e = face then some face else none

/-- `element_get_num_children`, `t8_default_line.cxx:343`. -/
def numChildren : Nat := 2

/-- `t8_dline_childrenpv`, `t8_dline_bits.c:186`. -/
def children (e : Line) : List Line := [⟨e.x, e.level + 1⟩, ⟨e.x + len (e.level + 1), e.level + 1⟩]

/-- `t8_dline_extrude_face`, `t8_dline_bits.c:201`. -/
def extrudeFace (b : Dvertex.Vertex) (rootFace : Nat) : Line × Nat :=
  (⟨if rootFace = 0 then 0 else rootLen - len b.level, b.level⟩, rootFace)

/-- `t8_dline_is_familypv`, `t8_dline_bits.c:215`. `none`: the array is too short. -/
def isFamily (fam : List Line) : Option Bool := do
  let f0 ← fam[0]?
  let f1 ← fam[1]?
  if f0.level = 0 ∨ f0.level ≠ f1.level then some false
  else if f0.x.sshiftRight (maxLevel - f0.level + 1) ≠ f1.x.sshiftRight (maxLevel - f0.level + 1) then some false
  else some (decide (f0.x + len f0.level = f1.x))

/-- `t8_dline_is_root_boundary`, `t8_dline_bits.c:232`. -/
def isRootBoundary (e : Line) (face : Nat) : Bool :=
  if face = 0 then e.x == 0 else e.x == rootLen - len e.level

/-- `t8_dline_is_inside_root`, `t8_dline_bits.c:248`. -/
def isInsideRoot (e : Line) : Bool := decide (0 ≤ e.x.toInt ∧ e.x.toInt < rootLen.toInt)

/-- `t8_dline_init_linear_id`, `t8_dline_bits.c:254`. -/
def initLinearId (level : Nat) (id : BitVec 64) : Option Line := do
  assertO (level ≤ maxLevel)
  assertO (id < (1 : BitVec 64) <<< level)
  some ⟨(id <<< (maxLevel - level)).setWidth 32, level⟩

/-- `t8_dline_successor`, `t8_dline_bits.c:266`, called by `element_construct_successor`,
`t8_default_line.cxx:267`, with the level of the element. -/
def successor (e : Line) (level : Nat) : Option Line := do
  assertO (1 ≤ level ∧ level ≤ e.level)
  assertO (e.x.toInt < (rootLen - len level).toInt)
  let h := len level - 1
  some ⟨(e.x &&& ~~~h) + len level, level⟩

/-- `t8_dline_transform_face`, `t8_dline_bits.c:282`. -/
def transformFace (e : Line) (orientation : Nat) : Line :=
  if orientation = 0 then ⟨e.x, e.level⟩ else ⟨rootLen - e.x - len e.level, e.level⟩

/-- `t8_dline_first_descendant`, `t8_dline_bits.c:311`. -/
def firstDescendant (e : Line) (level : Nat) : Line := ⟨e.x, level⟩

/-- `t8_dline_last_descendant`, `t8_dline_bits.c:320`. -/
def lastDescendant (e : Line) (level : Nat) : Line := ⟨e.x + len e.level - len level, level⟩

/-- `t8_dline_vertex_integer_coords`, `t8_dline_bits.c:329`. -/
def vertexCoord (e : Line) (vertex : Nat) : BitVec 32 := if vertex = 0 then e.x else e.x + len e.level

/-- `t8_dline_linear_id`, `t8_dline_bits.c:367`. -/
def linearId (e : Line) (level : Nat) : BitVec 64 := (e.x.sshiftRight (maxLevel - level)).signExtend 64

/-- `element_get_children_at_face`, `t8_default_line.cxx:114`: the child indices … -/
def childrenAtFaceIds (face : Nat) : List Nat := [face]

/-- … and the children. -/
def childrenAtFace (e : Line) (face : Nat) : List Line := [child e face]

/-- `element_face_get_child_face`, `t8_default_line.cxx:131`. -/
def faceChildFace (face : Nat) (_faceChild : Nat) : Nat := face

/-- `element_get_tree_face`, `t8_default_line.cxx:152`. -/
def treeFace (face : Nat) : Nat := face

/-- `element_get_boundary_face`, `t8_default_line.cxx:188`. -/
def boundaryFace (e : Line) (_face : Nat) : Option Dvertex.Vertex := Dvertex.setLinearId e.level 0

/-- `element_get_first_descendant_face`, `t8_default_line.cxx:203`. -/
def firstDescendantFace (e : Line) (face level : Nat) : Line :=
  if face = 0 then firstDescendant e level else lastDescendant e level

/-- `element_get_last_descendant_face`, `t8_default_line.cxx:223`. -/
def lastDescendantFace (e : Line) (face level : Nat) : Line := firstDescendantFace e face level

/-- `element_get_face_neighbor_inside`, `t8_default_line.cxx:245`; `none` is the return value 0. -/
def faceNeighborInside (e : Line) (face : Nat) : Option (Line × Nat) :=
  if isInsideRoot (faceNeighbour e face).1 then some (faceNeighbour e face) else none

/-- `element_get_num_faces`, `t8_default_line.cxx:329`. -/
def numFaces : Nat := 2

/-- `element_get_num_face_children`, `t8_default_line.cxx:350`. -/
def numFaceChildren : Nat := 1

/-- `element_is_refinable`, `t8_default_common.hxx:295`. -/
def isRefinable (e : Line) : Bool := e.level < maxLevel

/-- `element_is_ancestor`, `t8_default_common.hxx:202`. -/
def isAncestor (e f : Line) : Bool := Default.isAncestor Line.level linearId e f

/-- `element_count_leaves`, `t8_default_common.hxx:281`. -/
def countLeaves (e : Line) (level : Nat) : BitVec 64 := Default.countLeavesFromLevel e.level level 1

/-- `element_MPI_Pack`, `t8_default_line.cxx:448`. -/
def pack (es : List Line) : List Word := es.flatMap (fun e => [Word.int e.x, Word.int8 e.level])

/-- `element_MPI_Pack_size`, `t8_default_line.cxx:463`: number of `MPI_INT` and of `MPI_INT8_T` values that
the bound provides for. -/
def packSize (count : Nat) : Nat × Nat := (count, count)

/-- `element_MPI_Unpack`, `t8_default_line.cxx:482`. -/
def unpack : Nat → List Word → Option (List Line × List Word)
  | 0, buf => some ([], buf)
  | n + 1, buf => do
    let (x, buf) ← unpackInt buf
    let (l, buf) ← unpackInt8 buf
    let (es, buf) ← unpack n buf
    some (⟨x, l⟩ :: es, buf)

end T8.Dline
