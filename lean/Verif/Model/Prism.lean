/-
Model of the default scheme for prisms: `src/t8_schemes/t8_default/t8_default_prism/t8_dprism.h`,
`t8_dprism_bits.c` and `t8_default_prism.cxx`.

A prism is a triangle (Model/Simplex.lean) and a line (Model/Dline.lean) of the same level; most functions call those
of the two factors. Conventions as there: ids are 64 bit integers, `T8_ASSERT`s that only check the stated
preconditions are not part of the functions.
-/
import Verif.Model.SimplexFaces
import Verif.Model.Dline

namespace T8.Prism
open T8.Standalone (Word unpackInt unpackInt8)
open T8.Simplex (Cls)

/-- `T8_DPRISM_MAXLEVEL`, `t8_dprism.h:47`. -/
abbrev maxLevel : Nat := 21

/-- `T8_DPRISM_CHILDREN`, `t8_dprism.h:35`. -/
abbrev numChildren : Nat := 8

/-- `T8_DPRISM_FACES`, `t8_dprism.h:41`. -/
abbrev numFaces : Nat := 5

/-- `t8_dprism_t`, `t8_dprism.h:71`: the triangle `p.1` and the line `p.2`. -/
abbrev Prism : Type := Simplex.Elem 2 × Dline.Line

/-- `set_to_root`, `t8_default_prism.cxx:457`. -/
def root : Prism := (Simplex.root .tri, Dline.root)

/-- `t8_dprism_get_level`, `t8_dprism_bits.c:32`. -/
def level (p : Prism) : Nat := p.2.level

/-- `t8_dprism_equal`, `t8_dprism_bits.c:47`. -/
def isEqual (p q : Prism) : Bool := Dline.isEqual p.2 q.2 && Simplex.isEqual .tri p.1 q.1

/-- The first loop of `t8_dprism_linear_id`, `t8_dprism_bits.c:589`, with `n` steps left: the id, the divisor and the
number of prisms. -/
def triLoop : Nat → BitVec 64 → BitVec 64 → BitVec 64 → BitVec 64
  | 0, _, _, id => id
  | n + 1, triId, prisms, id => triLoop n (triId / 4) (prisms * 8) (id + triId % 4 * prisms)

/-- The second loop of `t8_dprism_linear_id`, `t8_dprism_bits.c:599`. -/
def lineLoop : Nat → BitVec 64 → BitVec 64 → BitVec 64 → BitVec 64 → BitVec 64
  | 0, _, _, _, id => id
  | n + 1, lineId, lines, shift, id => lineLoop n (lineId % lines) (lines / 2) (shift / 8) (id + lineId / lines * shift)

/-- `t8_dprism_linear_id`, `t8_dprism_bits.c:567`. -/
def linearId (p : Prism) (level : Nat) : BitVec 64 :=
  if level = 0 then 0
  else
    let linesAtLevel : BitVec 64 := BitVec.ofNat 64 (2 ^ (level - 1))
    let prismShift : BitVec 64 := 4 * BitVec.ofNat 64 (8 ^ (level - 1))
    let id := triLoop level (Simplex.linearId .tri p.1 level) 1 0
    lineLoop level (Dline.linearId p.2 level) linesAtLevel prismShift id

/-- `t8_dprism_compare`, `t8_dprism_bits.c:53`. -/
def compare (p q : Prism) : Int :=
  let maxlvl := max p.2.level q.2.level
  let id1 := linearId p maxlvl
  let id2 := linearId q maxlvl
  if id1 = id2 then (p.2.level : Int) - q.2.level
  else if id1 < id2 then -1 else if id1 ≠ id2 then 1 else 0

/-- The loop of `t8_dprism_init_linear_id`, `t8_dprism_bits.c:84`, from step `i` on for `n` steps: the ids of the
triangle and of the line. -/
def initLoop : Nat → Nat → BitVec 64 → BitVec 64 → BitVec 64 → BitVec 64 → BitVec 64 × BitVec 64
  | 0, _, _, _, triId, lineId => (triId, lineId)
  | n + 1, i, id, triangles, triId, lineId =>
    initLoop n (i + 1) (id / 8) (triangles * 4) (triId + id % 4 * triangles)
      (lineId + id % 8 / 4 * BitVec.ofNat 64 (2 ^ i))

/-- `t8_dprism_init_linear_id`, `t8_dprism_bits.c:75`. -/
def initLinearId (level : Nat) (id : BitVec 64) : Option Prism := do
  assertO (level ≤ maxLevel)
  assertO (id < BitVec.ofNat 64 (8 ^ level))
  let (triId, lineId) := initLoop (level + 1) 0 id 1 0 0
  let tri ← Simplex.initLinearId .tri level triId
  let line ← Dline.initLinearId level lineId
  some (tri, line)

/-- `element_set_linear_id`, `t8_default_prism.cxx:351`. -/
def setLinearId (level : Nat) (id : BitVec 64) : Option Prism := do
  assertO (level ≤ maxLevel)
  assertO (id < (1 : BitVec 64) <<< (3 * level))
  initLinearId level id

/-- `t8_dprism_parent`, `t8_dprism_bits.c:105`. Precondition `0 < level`. -/
def parent (p : Prism) : Prism := (Simplex.parent .tri p.1, Dline.parent p.2)

/-- `t8_dprism_child_id`, `t8_dprism_bits.c:117`. -/
def childId (p : Prism) : Int := (Simplex.childId .tri p.1 : Int) + 4 * Dline.childId p.2

/-- `t8_dprism_child`, `t8_dprism_bits.c:242`. Preconditions `childid < 8`, `level < MAXLEVEL`. -/
def child (p : Prism) (childid : Nat) : Prism :=
  (Simplex.child .tri p.1 (childid % 4), Dline.child p.2 (childid / 4))

/-- `t8_dprism_childrenpv`, `t8_dprism_bits.c:307`. -/
def children (p : Prism) : List Prism := (List.range 8).map (child p)

/-- `t8_dprism_is_familypv`, `t8_dprism_bits.c:128`. `none`: the array is too short. -/
def isFamily (fam : List Prism) : Option Bool := do
  let f ← (List.range 8).mapM (fun i => fam[i]?)
  let tris := f.map Prod.fst
  let lines := f.map Prod.snd
  let t0 ← Simplex.isFamily .tri (tris.take 4)
  let t1 ← Simplex.isFamily .tri (tris.drop 4)
  if !t0 then some false
  else if !t1 then some false
  else
    let pairs ← (List.range 4).mapM (fun i => do
      let p ← f[i]?
      let q ← f[i + 4]?
      let l ← Dline.isFamily [p.2, q.2]
      some (l && p.1.level == q.1.level && p.1.type == q.1.type && p.1.x 0 == q.1.x 0 && p.1.x 1 == q.1.x 1))
    if !(pairs.all id) then some false
    else some (f.all (fun p => p.2.level == p.1.level))

/-- `t8_dprism_nearest_common_ancestor`, `t8_dprism_bits.c:165`. -/
def nca (p q : Prism) : Option Prism := do
  let t ← Simplex.nca .tri p.1 q.1
  let l ← Dline.nca p.2 q.2
  if t.level ≠ l.level then
    let level := min t.level l.level
    if t.level > l.level then do
      let t ← Simplex.ancestor .tri t level
      some (t, l)
    else some (t, Dline.ancestor l level)
  else some (t, l)

/-- `t8_dprism_is_root_boundary`, `t8_dprism_bits.c:220`. -/
def isRootBoundary (p : Prism) (face : Nat) : Bool :=
  if face < 3 then Simplex.isRootBoundary .tri p.1 face
  else Dline.isRootBoundary p.2 (if face ≠ 3 then 1 else 0)

/-- `t8_dprism_is_inside_root`, `t8_dprism_bits.c:236`. -/
def isInsideRoot (p : Prism) : Bool := Simplex.isInsideRoot .tri p.1 && Dline.isInsideRoot p.2

/-- `t8_dprism_num_face_children`, `t8_dprism_bits.c:262`. -/
def numFaceChildren (face : Nat) : Nat := if face ≥ 3 then 4 else 2 * 2

/-- `t8_dprism_face_neighbour`, `t8_dprism_bits.c:271`. -/
def faceNeighbour (p : Prism) (face : Nat) : Prism × Nat :=
  if face < 3 then (((Simplex.faceNeighbour .tri p.1 face).1, p.2), 2 - face)
  else if face = 3 then ((p.1, (Dline.faceNeighbour p.2 0).1), 4)
  else ((p.1, (Dline.faceNeighbour p.2 1).1), 3)

/-- `element_get_face_neighbor_inside`, `t8_default_prism.cxx:334`: `none` if the neighbor is not inside of the root. -/
def faceNeighborInside (p : Prism) (face : Nat) : Option (Prism × Nat) :=
  if isInsideRoot (faceNeighbour p face).1 then some (faceNeighbour p face) else none

/-- `t8_dprism_face_corners`, `t8_dprism_bits.c:29`, and `t8_dprism_face_corner`, `t8_default_prism.cxx:288`; the entries
-1 left out. -/
def faceCorners : List (List Nat) := [[1, 2, 4, 5], [0, 2, 3, 5], [0, 1, 3, 4], [0, 1, 2], [3, 4, 5]]

/-- `t8_dprism_ancestor_id`, `t8_dprism_bits.c:318`. -/
def ancestorId (p : Prism) (level : Nat) : Int :=
  4 * Dline.ancestorId p.2 level + Simplex.ancestorId .tri p.1 level

/-- `children_at_face`, `t8_dprism_bits.c:323`. -/
def childrenAtFaceTable : List (List Nat) :=
  [[1, 3, 5, 7, 0, 3, 4, 7, 0, 1, 4, 5], [2, 3, 6, 7, 0, 3, 4, 7, 0, 2, 4, 6]]

/-- The child ids in `t8_dprism_children_at_face`, `t8_dprism_bits.c:326`. -/
def childIdsAtFace (p : Prism) (face : Nat) : List Nat :=
  if face < 3 then (List.range 4).map (fun i => Simplex.look childrenAtFaceTable p.1.type (face * 4 + i))
  else (List.range 4).map (fun i => face % 3 * 4 + i)

/-- `t8_dprism_children_at_face`, `t8_dprism_bits.c:326`. -/
def childrenAtFace (p : Prism) (face : Nat) : List Prism := (childIdsAtFace p face).map (child p)

/-- `t8_dprism_face_child_face`, `t8_dprism_bits.c:357`. -/
def faceChildFace (face : Nat) : Nat := face

/-- `t8_dprism_face_parent_face`, `t8_dprism_bits.c:366`; `none` is -1. -/
def faceParentFace (p : Prism) (face : Nat) : Option Nat :=
  if face < 3 ∧ Simplex.faceParentFace .tri p.1 face ≠ none then some face
  else if face ≥ 3 ∧ Dline.faceParentFace p.2 (face - 3) ≠ none then some face
  else none

/-- `t8_dprism_tree_face`, `t8_dprism_bits.c:382`. -/
def treeFace (face : Nat) : Nat := face

/-- The part of `p4est_quadrant_t` that the prism functions use: coordinates and level. -/
structure Quad where
  x : BitVec 32
  y : BitVec 32
  level : Nat
  deriving DecidableEq

/-- `P4EST_MAXLEVEL` of p4est: `P4EST_ROOT_LEN` is `1 << P4EST_MAXLEVEL`. -/
abbrev quadRootLevel : Nat := 30

/-- A boundary element: a quad (faces 0 to 2) or a triangle (faces 3 and 4). -/
inductive Boundary
  | quad (q : Quad)
  | tri (t : Simplex.Elem 2)

/-- `t8_dprism_boundary_face`, `t8_dprism_bits.c:189`. -/
def boundaryFace (p : Prism) (face : Nat) : Boundary :=
  let x (i : Fin 2) := Simplex.rescale quadRootLevel Cls.tri.maxLevel (p.1.x i)
  let y := Simplex.rescale quadRootLevel Dline.maxLevel p.2.x
  if face ≥ 3 then .tri p.1
  else if face = 0 then .quad ⟨x 1, y, p.1.level⟩
  else .quad ⟨x 0, y, p.1.level⟩

/-- `t8_dprism_extrude_face`, `t8_dprism_bits.c:391`, for the faces 0 to 2. -/
def extrudeQuad (q : Quad) (rootFace : Nat) : Prism :=
  let x := Simplex.rescale Cls.tri.maxLevel quadRootLevel q.x
  let line : Dline.Line := ⟨Simplex.rescale Dline.maxLevel quadRootLevel q.y, q.level⟩
  if rootFace = 0 then
    (⟨fun i => if i.val = 0 then Simplex.rootLen .tri - Simplex.len .tri q.level else x, q.level, 0⟩, line)
  else if rootFace = 1 then (⟨fun _ => x, q.level, 0⟩, line)
  else (⟨fun i => if i.val = 0 then x else 0, q.level, 0⟩, line)

/-- `t8_dprism_extrude_face`, `t8_dprism_bits.c:391`, for the faces 3 and 4. -/
def extrudeTri (t : Simplex.Elem 2) (rootFace : Nat) : Prism :=
  (t, ⟨if rootFace = 3 then 0 else Dline.rootLen - Dline.len t.level, t.level⟩)

/-- `element_extrude_face`, `t8_default_prism.cxx:236`: the element and the number of its face; `none` if the class of
the boundary element does not fit to the face. -/
def extrudeFace (b : Boundary) (rootFace : Nat) : Option (Prism × Nat) :=
  match b with
  | .quad q => if rootFace < 3 then some (extrudeQuad q rootFace, rootFace) else none
  | .tri t => if rootFace ≥ 3 then some (extrudeTri t rootFace, rootFace) else none

/-- The lower bits of a coordinate set to 0, `t8_dprism_bits.c:458-460`. -/
def zeroBits (x : BitVec 32) (n : Nat) : BitVec 32 := x.sshiftRight n <<< n

/-- `t8_dprism_successor`, `t8_dprism_bits.c:444`. -/
def successor (p : Prism) : Nat → Option Prism
  | 0 => none
  | l + 1 => do
    let level := l + 1
    assertO (level ≤ maxLevel)
    let succ : Prism := ({ p.1 with level := level }, { p.2 with level := level })
    let prismChildId := childId succ
    if prismChildId = 7 then do
      let succ ← successor p l
      some (⟨fun i => zeroBits (succ.1.x i) (Cls.tri.maxLevel - level + 1), level, succ.1.type⟩,
        ⟨zeroBits succ.2.x (Dline.maxLevel - level + 1), level⟩)
    else if (prismChildId + 1) % 4 = 0 then some (child (parent succ) (prismChildId + 1).toNat)
    else do
      let tri ← Simplex.successor .tri p.1 level
      some (tri, succ.2)

/-- `t8_dprism_first_descendant`, `t8_dprism_bits.c:479`, without the comparison of ids of debugging mode. -/
def firstDescendant (p : Prism) (level : Nat) : Option Prism := do
  let t ← Simplex.firstDescendant .tri p.1 level
  some (t, Dline.firstDescendant p.2 level)

/-- `t8_dprism_last_descendant`, `t8_dprism_bits.c:499`. -/
def lastDescendant (p : Prism) (level : Nat) : Option Prism := do
  let t ← Simplex.lastDescendant .tri p.1 level
  some (t, Dline.lastDescendant p.2 level)

/-- `t8_dprism_corner_descendant`, `t8_dprism_bits.c:511`. -/
def cornerDescendant (p : Prism) (corner level : Nat) : Option Prism := do
  let t ← Simplex.cornerDescendant .tri p.1 (corner % 3) level
  some (t, if corner < 3 then Dline.firstDescendant p.2 level else Dline.lastDescendant p.2 level)

/-- `element_get_first_descendant_face`, `t8_default_prism.cxx:297`. -/
def firstDescendantFace (p : Prism) (face level : Nat) : Option Prism :=
  cornerDescendant p (Simplex.look faceCorners face 0) level

/-- `element_get_last_descendant_face`, `t8_default_prism.cxx:309`. -/
def lastDescendantFace (p : Prism) (face level : Nat) : Option Prism :=
  cornerDescendant p (Simplex.look faceCorners face (if face < 3 then 3 else 2)) level

/-- `element_get_anchor`, `t8_default_prism.cxx:390`. -/
def anchor (p : Prism) : BitVec 32 × BitVec 32 × BitVec 32 :=
  let rootLen : BitVec 32 := BitVec.twoPow 32 maxLevel
  ((p.1.x 0).sdiv (Simplex.rootLen .tri) * rootLen, (p.1.x 1).sdiv (Simplex.rootLen .tri) * rootLen,
    p.2.x.sdiv Dline.rootLen * rootLen)

/-- `t8_dprism_vertex_integer_coords`, `t8_dprism_bits.c:525`. -/
def vertexCoords (p : Prism) (vertex : Nat) : BitVec 32 × BitVec 32 × BitVec 32 :=
  let byTri : BitVec 32 := BitVec.twoPow 32 (Cls.tri.maxLevel - maxLevel)
  let byLine : BitVec 32 := BitVec.twoPow 32 (Dline.maxLevel - maxLevel)
  let t := Simplex.integerCoords .tri p.1 (vertex % 3)
  ((t 0).sdiv byTri, (t 1).sdiv byTri, (Dline.vertexCoord p.2 (vertex / 3)).sdiv byLine)

/-- `element_is_refinable`, `t8_default_common.hxx:295`. -/
def isRefinable (p : Prism) : Bool := level p < maxLevel

/-- `element_is_ancestor`, `t8_default_common.hxx:202`. -/
def isAncestor (p q : Prism) : Bool := Default.isAncestor level linearId p q

/-- `element_count_leaves`, `t8_default_common.hxx:281`. -/
def countLeaves (p : Prism) (l : Nat) : BitVec 64 := Default.countLeavesFromLevel (level p) l 3

/-- `element_MPI_Pack`, `t8_default_prism.cxx:469`. -/
def pack (es : List Prism) : List Word :=
  es.flatMap (fun p => [Word.int p.2.x, Word.int (p.1.x 0), Word.int (p.1.x 1), Word.int8 p.1.type, Word.int8 p.2.level])

/-- `element_MPI_Pack_size`, `t8_default_prism.cxx:492`: number of `MPI_INT` and of `MPI_INT8_T` values. -/
def packSize (count : Nat) : Nat × Nat := (count * 3, count * 2)

/-- `element_MPI_Unpack`, `t8_default_prism.cxx:513`. -/
def unpack : Nat → List Word → Option (List Prism × List Word)
  | 0, buf => some ([], buf)
  | n + 1, buf => do
    let (z, buf) ← unpackInt buf
    let (x, buf) ← unpackInt buf
    let (y, buf) ← unpackInt buf
    let (type, buf) ← unpackInt8 buf
    let (level, buf) ← unpackInt8 buf
    let (es, buf) ← unpack n buf
    some ((⟨fun i => if i.val = 0 then x else y, level, type⟩, ⟨z, level⟩) :: es, buf)

end T8.Prism
