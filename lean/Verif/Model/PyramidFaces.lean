/-
Model of the face functions of the default scheme for pyramids: `t8_dpyramid_bits.c`, `t8_dpyramid_connectivity.c` in
`src/t8_schemes/t8_default/t8_default_pyramid`; the functions of `t8_default_pyramid.cxx` only call these. Line numbers
without a file refer to `t8_dpyramid_bits.c`. Conventions as in Model/Pyramid.lean.
-/
import Verif.Model.Pyramid
import Verif.Model.SimplexFaces
import Verif.Model.Prism

namespace T8.Pyramid
open T8.Simplex (look Cls)

/-- `t8_dpyramid_type_face_to_nface`, `t8_dpyramid_connectivity.c:101`. -/
def typeFaceToNface : List (List Nat) := [[2, 3, 2, 3, 4], [1, 0, 1, 0, 4]]

/-- `t8_dpyramid_face_childid_to_is_inside`, `t8_dpyramid_connectivity.c:105`: is the entry different from -1? -/
def faceChildidToIsInside : List (List Bool) :=
  [[false, true, true, true, false, false, false, false], [true, false, true, true, false, false, false, false],
    [true, true, false, true, false, false, false, false], [true, true, true, false, false, false, false, false]]

/-- `t8_dpyramid_type_face_to_children_at_face`, `t8_dpyramid_connectivity.c:111`. -/
def typeFaceToChildrenAtFace : List (List (List Nat)) :=
  [[[0, 3, 4, 9], [2, 5, 7, 9], [0, 1, 2, 9], [4, 6, 7, 9], [0, 2, 4, 7]],
    [[0, 7, 8, 9], [0, 1, 4, 6], [0, 5, 6, 9], [0, 2, 4, 8], [4, 6, 8, 9]]]

/-- `t8_dpyramid_type_face_to_child_face`, `t8_dpyramid_connectivity.c:115`. -/
def typeFaceToChildFace : List (List (List Nat)) :=
  [[[0, 1, 0, 0], [1, 0, 1, 1], [2, 1, 2, 2], [3, 0, 3, 3], [4, 4, 4, 4]],
    [[0, 2, 0, 0], [1, 3, 1, 1], [2, 2, 2, 2], [3, 3, 3, 3], [4, 4, 4, 4]]]

/-- `t8_dpyramid_tritype_rootface_to_tettype`, `t8_dpyramid_connectivity.c:123`. -/
def tritypeRootfaceToTettype : List (List Nat) := [[2, 1, 1, 2], [0, 0, 3, 3]]

/-- `t8_dpyramid_tritype_rootface_to_face`, `t8_dpyramid_connectivity.c:127`. -/
def tritypeRootfaceToFace : List (List Nat) := [[2, 0, 2, 0], [1, 0, 1, 0]]

/-- `t8_dpyramid_face_corner`, `t8_dpyramid_connectivity.c:131`, without the entries -1. -/
def faceCornerTable : List (List (List Nat)) :=
  [[[0, 2, 4], [1, 3, 4], [0, 1, 4], [2, 3, 4], [0, 1, 2, 3]], [[2, 3, 4], [0, 1, 4], [1, 3, 4], [0, 2, 4], [0, 1, 2, 3]]]

/-- `T8_DPYRAMID_ROOT_LEN`, `t8_dpyramid.h:28`. -/
def rootLen : BitVec 32 := BitVec.twoPow 32 maxLevel

/-- `t8_dpyramid_num_faces`, line 1106. -/
def numFaces (p : Elem) : Nat := if isPyra p then 5 else 4

/-- `t8_dpyramid_get_face_corner`, line 1390, for all corners of the face. -/
def faceCorners (p : Elem) (face : Nat) : List Nat :=
  if isPyra p then (faceCornerTable.getD (p.type - 6) []).getD face []
  else (Simplex.faceCorner .tet).getD face []

/-- `t8_dpyramid_face_shape`, line 1375: is the face a quadrilateral, not a triangle? -/
def faceIsQuad (p : Elem) (face : Nat) : Bool := isPyra p && face == 4

/-! ### Neighbors -/

/-- `t8_dpyramid_tet_pyra_face_connection`, line 792. -/
def tetPyraFaceConnection (p : Elem) (face : Nat) : Bool :=
  let cubeId := computeCubeid p p.level
  if (cubeId = 2 ∧ face ≠ 1) ∨ (cubeId = 6 ∧ face ≠ 2) then p.type == 0
  else if (cubeId = 1 ∧ face ≠ 1) ∨ (cubeId = 5 ∧ face ≠ 2) then p.type == 3
  else if cubeId = 3 then face != 0
  else if cubeId = 4 then face != 3
  else false

/-- The loop of `t8_dpyramid_tet_boundary`, lines 833-841, from level `i` down to `bottom + 1`. -/
def tetBoundaryLoop (p : Elem) (face bottom : Nat) : Nat → Nat → Bool
  | 0, _ => true
  | i + 1, type =>
    if bottom < i + 1 then
      let cubeId := computeCubeid p (i + 1)
      let beyId := look (Simplex.typeCidToBeyid .tet) type cubeId
      if (faceChildidToIsInside.getD face []).getD beyId false then
        tetBoundaryLoop p face bottom i (look (Simplex.cidTypeToParenttype .tet) cubeId type)
      else false
    else true

/-- `t8_dpyramid_tet_boundary`, line 817: is the neighbor of a tetrahedron of type 0 or 3 a pyramid? -/
def tetBoundary (p : Elem) (face : Nat) : Bool :=
  if (p.level : Int) = p.switch then tetPyraFaceConnection p face
  else
    let a := ancestor p p.switch.toNat
    tetPyraFaceConnection a face && tetBoundaryLoop p face a.level p.level p.type

/-- `t8_dpyramid_face_neighbour`, line 594: coordinates, level and type of the neighbor, and the number of the face seen
from there. The function does not set `switch_shape_at_level`. -/
def faceNeighbour (p : Elem) (face : Nat) : Simplex.Elem 3 × Nat :=
  let length := len p.level
  let x := p.tet.x
  if isPyra p then
    let type := if face = 0 ∨ face = 1 then 3 else if face = 2 ∨ face = 3 then 0 else if p.type = 6 then 7 else 6
    let y : Fin 3 → BitVec 32 :=
      if face = 1 then (if p.type = 6 then Simplex.addAt x 0 length else Simplex.subAt x 1 length)
      else if face = 3 then (if p.type = 6 then Simplex.addAt x 1 length else Simplex.subAt x 0 length)
      else if face = 4 then (if p.type = 6 then Simplex.subAt x 2 length else Simplex.addAt x 2 length)
      else x
    (⟨y, p.level, type⟩, look typeFaceToNface (p.type - 6) face)
  else if p.type ≠ 0 ∧ p.type ≠ 3 then Simplex.faceNeighbour .tet p.tet face
  else if tetBoundary p face then
    if p.type = 0 then
      if face = 0 then (⟨Simplex.addAt x 0 length, p.level, 7⟩, 3)
      else if face = 1 then (⟨x, p.level, 7⟩, 2)
      else if face = 2 then (⟨x, p.level, 6⟩, 2)
      else (⟨Simplex.subAt x 1 length, p.level, 6⟩, 3)
    else
      if face = 0 then (⟨Simplex.addAt x 1 length, p.level, 7⟩, 1)
      else if face = 1 then (⟨x, p.level, 7⟩, 0)
      else if face = 2 then (⟨x, p.level, 6⟩, 0)
      else (⟨Simplex.subAt x 0 length, p.level, 6⟩, 1)
  else Simplex.faceNeighbour .tet p.tet face

/-- `t8_dpyramid_is_inside_root`, line 878. -/
def isInsideRoot (p : Simplex.Elem 3) : Bool :=
  if p.level = 0 then p.type == 6 && p.x 0 == 0 && p.x 1 == 0 && p.x 2 == 0
  else
    let x := (p.x 0).toInt
    let y := (p.x 1).toInt
    let z := (p.x 2).toInt
    let r := rootLen.toInt
    if 0 ≤ z ∧ z < r ∧ z ≤ x ∧ x < r ∧ z ≤ y ∧ y < r then
      if (x = z ∧ (p.type = 3 ∨ p.type = 5)) ∨ (y = z ∧ (p.type = 0 ∨ p.type = 4)) then false else true
    else false

/-- `t8_dpyramid_face_neighbor_inside`, line 903, called by `element_get_face_neighbor_inside`: `some none` if the
neighbor is not inside of the root, `none` if an assertion fails. -/
def faceNeighborInside (p : Elem) (face : Nat) : Option (Option (Elem × Nat)) :=
  let n := faceNeighbour p face
  if isInsideRoot n.1 then (setSwitch ⟨n.1, -1⟩).map (fun q => some (q, n.2)) else some none

/-- `t8_dpyramid_is_root_boundary`, line 331. -/
def isRootBoundary (p : Elem) (face : Nat) : Bool :=
  let touching := rootLen - len p.level
  let x := p.tet.x 0
  let y := p.tet.x 1
  let z := p.tet.x 2
  if !isInsideRoot p.tet then false
  else if p.type = 0 then (face == 1 && x == z) || (face == 0 && x == touching)
  else if p.type = 1 then (face == 2 && y == z) || (face == 0 && x == touching)
  else if p.type = 2 then (face == 2 && x == z) || (face == 0 && y == touching)
  else if p.type = 3 then (face == 1 && y == z) || (face == 0 && y == touching)
  else if p.type = 4 ∨ p.type = 5 then false
  else if p.type = 6 then
    if face = 0 then x == z else if face = 1 then x == touching else if face = 2 then y == z
    else if face = 3 then y == touching else z == 0
  else false

/-- `t8_dpyramid_tree_face`, line 848 (`none` for -1). -/
def treeFace (p : Elem) (face : Nat) : Option Nat :=
  if isRootBoundary p face then
    if isPyra p then some face
    else if face = 0 ∧ (p.type = 3 ∨ p.type = 2) then some 3
    else if face = 0 ∧ (p.type = 0 ∨ p.type = 1) then some 1
    else if (face = 1 ∧ p.type = 3) ∨ (face = 2 ∧ p.type = 1) then some 2
    else if (face = 1 ∧ p.type = 0) ∨ (face = 2 ∧ p.type = 2) then some 0
    else none
  else none

/-! ### Parents and children -/

/-- `t8_dpyramid_face_parent_face`, line 706 (`none` for -1). -/
def faceParentFace (p : Elem) (face : Nat) : Option Nat :=
  if p.level = 0 then some face
  else if isPyra p then
    if ((typeFaceToChildrenAtFace.getD ((parent p).type - 6) []).getD face []).contains (childId p) then some face
    else none
  else if (p.level : Int) > p.switch then Simplex.faceParentFace .tet p.tet face
  else
    let childId := childId p
    if p.type = 0 ∧ tetparentType p = 6 then
      if childId = 3 ∧ face = 1 then some 0 else if childId = 5 ∧ face = 0 then some 1 else none
    else if p.type = 3 ∧ tetparentType p = 6 then
      if childId = 1 ∧ face = 1 then some 2 else if childId = 6 ∧ face = 0 then some 3 else none
    else if p.type = 0 ∧ tetparentType p = 7 then
      if childId = 1 ∧ face = 3 then some 1 else if childId = 7 ∧ face = 2 then some 0 else none
    else if p.type = 3 ∧ tetparentType p = 7 then
      if childId = 2 ∧ face = 3 then some 3 else if childId = 5 ∧ face = 2 then some 2 else none
    else none

/-- The child ids of `t8_dpyramid_children_at_face`, line 1322. -/
def childIdsAtFace (p : Elem) (face : Nat) : List Nat :=
  if isPyra p then (typeFaceToChildrenAtFace.getD (p.type - 6) []).getD face []
  else Simplex.childIdsAtFace .tet p.tet face

/-- `t8_dpyramid_children_at_face`, line 1322. -/
def childrenAtFace (p : Elem) (face : Nat) : List Elem :=
  if isPyra p then (childIdsAtFace p face).map (child p)
  else (Simplex.childrenAtFace .tet p.tet face).map (fun t => ⟨t, p.switch⟩)

/-- `t8_dpyramid_face_child_face`, line 1360. -/
def faceChildFace (p : Elem) (face faceChild : Nat) : Nat :=
  if isPyra p then ((typeFaceToChildFace.getD (p.type - 6) []).getD face []).getD faceChild 0
  else Simplex.faceChildFace .tet p.tet face faceChild

/-! ### Descendants -/

/-- The loop of `t8_dpyramid_corner_descendant`, lines 957-960: `n` more steps; `d` is the output, `tmp` the copy. -/
def cornerLoop (childId : Nat) : Nat → Option Elem → Elem → Option Elem
  | 0, d, _ => d
  | n + 1, _, tmp => cornerLoop childId n (some (child tmp childId)) (child tmp childId)

/-- `t8_dpyramid_corner_descendant`, line 942. `none`: an assertion fails or the output is not written. -/
def cornerDescendant (p : Elem) (corner level : Nat) : Option Elem :=
  if corner = 0 then firstDescendant p level
  else if corner = 1 ∨ corner = 2 then
    cornerLoop (look (Simplex.parenttypeBeyidToIloc .tet) p.type corner) (level - p.level) none p
  else lastDescendant p level

/-- `coord |= offset`. -/
def orAt (x : Fin 3 → BitVec 32) (k : Nat) (h : BitVec 32) : Fin 3 → BitVec 32 :=
  fun i => if i.val = k then x i ||| h else x i

/-- `t8_dpyramid_first_descendant_face`, line 968. -/
def firstDescendantFace (p : Elem) (face level : Nat) : Option Elem :=
  if !isPyra p then cornerDescendant p (Simplex.firstFaceCorner .tet face) level
  else if p.level = maxLevel then some p
  else if (p.type = 6 ∧ (face = 0 ∨ face = 2 ∨ face = 4)) ∨ (p.type = 7 ∧ face ≠ 4) then
    let d := child p 0
    some { d with tet := { d.tet with level := level } }
  else
    let offset := len p.level - len level
    let x := p.tet.x
    let y := if p.type = 6 ∧ face = 1 then orAt x 0 offset else if p.type = 6 ∧ face = 3 then orAt x 1 offset
      else if p.type = 7 ∧ face = 4 then orAt x 2 offset else x
    some ⟨⟨y, level, p.type⟩, p.switch⟩

/-- `t8_dpyramid_last_descendant_face`, line 1032. -/
def lastDescendantFace (p : Elem) (face level : Nat) : Option Elem :=
  if !isPyra p then cornerDescendant p (Simplex.lastFaceCorner .tet face) level
  else
    let offset := len p.level - len level
    let x := p.tet.x
    if (p.type = 6 ∧ face ≠ 4) ∨ (p.type = 7 ∧ (face = 0 ∨ face = 2 ∨ face = 4)) then lastDescendant p level
    else
      let y := if p.type = 7 ∧ face = 1 then orAt (orAt x 0 offset) 2 offset
        else if p.type = 7 ∧ face = 3 then orAt (orAt x 1 offset) 2 offset
        else if p.type = 6 ∧ face = 4 then orAt (orAt x 0 offset) 1 offset else x
      some ⟨⟨y, level, p.type⟩, p.switch⟩

/-! ### Boundary elements -/

/-- `T8_DTRI_ROOT_BY_DPYRAMID_ROOT`, `t8_dpyramid.h:47`. -/
def triRatio : BitVec 32 := BitVec.twoPow 32 (Cls.tri.maxLevel - maxLevel)

/-- `t8_dpyramid_boundary_face`, line 1130. The result for face 4 is a quadrant of p4est. -/
def boundaryFace (p : Elem) (face : Nat) : Prism.Boundary :=
  let tx := p.tet.x 0 * triRatio
  let ty := p.tet.x 1 * triRatio
  let tz := p.tet.x 2 * triRatio
  if face = 4 then
    .quad ⟨Simplex.rescale Prism.quadRootLevel maxLevel (p.tet.x 0), Simplex.rescale Prism.quadRootLevel maxLevel (p.tet.x 1),
      p.level⟩
  else if isPyra p then
    .tri ⟨fun i => if i.val = 0 then (if face = 0 ∨ face = 1 then ty else tx) else tz, p.level, 0⟩
  else if (face = 1 ∧ p.type = 0) ∨ (face = 2 ∧ p.type = 2) then
    .tri ⟨fun i => if i.val = 0 then ty else tz, p.level, if p.type = 0 then 1 else 0⟩
  else if face = 0 ∧ (p.type = 0 ∨ p.type = 1) then
    .tri ⟨fun i => if i.val = 0 then ty else tz, p.level, if p.type = 0 then 1 else 0⟩
  else
    .tri ⟨fun i => if i.val = 0 then tx else tz, p.level, if p.type = 3 then 1 else 0⟩

/-- `t8_dpyramid_extrude_face`, line 1193, for triangles. -/
def extrudeTri (t : Simplex.Elem 2) (rootFace : Nat) : Option (Elem × Nat) :=
  let z := Simplex.rescale maxLevel Cls.tri.maxLevel (t.x 1)
  let w := Simplex.rescale maxLevel Cls.tri.maxLevel (t.x 0)
  let touching := rootLen - len t.level
  let x : Fin 3 → BitVec 32 := fun i =>
    if i.val = 2 then z
    else if rootFace = 0 then (if i.val = 0 then z else w)
    else if rootFace = 1 then (if i.val = 0 then touching else w)
    else if rootFace = 2 then (if i.val = 0 then w else z)
    else (if i.val = 0 then w else touching)
  if t.x 1 = (t.x 0 &&& t.x 1) ∧ t.type = 0 then some (⟨⟨x, t.level, 6⟩, -1⟩, rootFace)
  else
    (setSwitch ⟨⟨x, t.level, look tritypeRootfaceToTettype t.type rootFace⟩, -1⟩).map
      (fun p => (p, look tritypeRootfaceToFace t.type rootFace))

/-- `t8_dpyramid_extrude_face`, line 1193: the element and the number of its face; `none` if an assertion fails or if
the class of the boundary element does not fit to the face. -/
def extrudeFace (b : Prism.Boundary) (rootFace : Nat) : Option (Elem × Nat) :=
  match b with
  | .quad q =>
    if rootFace = 4 then
      some (⟨⟨fun i => if i.val = 0 then Simplex.rescale maxLevel Prism.quadRootLevel q.x
        else if i.val = 1 then Simplex.rescale maxLevel Prism.quadRootLevel q.y else 0, q.level, 6⟩, -1⟩, rootFace)
    else none
  | .tri t => if rootFace < 4 then extrudeTri t rootFace else none

end T8.Pyramid
