/-
Model of the face functions of the default schemes for triangles and tetrahedra: `t8_dtri_bits.c`,
`t8_dtet_connectivity.c`, `t8_default_tri.cxx`, `t8_default_tet.cxx` in `src/t8_schemes/t8_default`. Conventions as in
Model/Simplex.lean. `none` is a failed assertion or, for the face of the parent, the value -1.
-/
import Verif.Model.Simplex
import Verif.Model.Dline

namespace T8.Simplex

/-- `T8_DTRI_FACES`, `t8_dtri.h:38`; `T8_DTET_FACES`, `t8_dtet.h:38`. -/
def Cls.numFaces : Cls → Nat
  | .tri => 3 | .tet => 4

/-- `T8_DTRI_FACE_CHILDREN`, `t8_dtri.h:41`; `T8_DTET_FACE_CHILDREN`, `t8_dtet.h:41`. -/
def Cls.numFaceChildren : Cls → Nat
  | .tri => 2 | .tet => 4

/-- `t8_dtet_type_face_to_boundary`, `t8_dtet_connectivity.c:119`: the category (`none` for -1). -/
def faceCategory : List (List (Option Nat)) :=
  [[some 1, some 1, some 2, some 2], [some 1, none, none, none], [none, none, some 1, none], [none, none, none, none],
    [none, some 2, none, none], [none, none, none, some 2]]

/-- `t8_dtet_type_face_to_boundary`, `t8_dtet_connectivity.c:119`: the type of the triangle. -/
def faceBoundaryType : List (List Nat) :=
  [[0, 0, 0, 0], [1, 0, 0, 0], [0, 0, 1, 1], [1, 1, 0, 0], [0, 1, 1, 1], [1, 1, 1, 1]]

/-- `t8_dtet_face_child_id_by_type`, `t8_dtet_connectivity.c:128`. -/
def faceChildIdByType : List (List (List Nat)) :=
  [[[1, 4, 5, 7], [0, 4, 6, 7], [0, 1, 2, 7], [0, 1, 3, 4]], [[1, 4, 5, 7], [0, 5, 6, 7], [0, 1, 3, 7], [0, 1, 2, 5]],
    [[3, 4, 5, 7], [0, 4, 6, 7], [0, 1, 3, 7], [0, 2, 3, 4]], [[1, 5, 6, 7], [0, 4, 6, 7], [0, 1, 3, 7], [0, 1, 2, 6]],
    [[3, 5, 6, 7], [0, 4, 5, 7], [0, 1, 3, 7], [0, 2, 3, 5]], [[3, 5, 6, 7], [0, 4, 6, 7], [0, 2, 3, 7], [0, 1, 3, 6]]]

/-- `t8_dtet_parent_type_type_to_face`, `t8_dtet_connectivity.c:138` (`none` for -1). -/
def parentTypeTypeToFace : List (List (Option Nat)) :=
  [[none, some 0, some 2, none, some 1, some 3], [some 0, none, some 3, some 1, none, some 2],
    [some 1, some 3, none, some 0, some 2, none], [none, some 2, some 0, none, some 3, some 1],
    [some 2, none, some 1, some 3, none, some 0], [some 3, some 1, none, some 2, some 0, none]]

/-- `t8_dtri_type_cid_to_beyid`, `t8_dtri_connectivity.c:60`, `t8_dtet_connectivity.c:72`. -/
def typeCidToBeyid : Cls → List (List Nat)
  | .tri => [[0, 1, 3, 2], [0, 3, 1, 2]]
  | .tet => [[0, 1, 4, 7, 5, 2, 6, 3], [0, 1, 5, 2, 4, 7, 6, 3], [0, 5, 1, 2, 4, 6, 7, 3], [0, 4, 1, 7, 5, 6, 2, 3],
      [0, 4, 5, 6, 1, 7, 2, 3], [0, 5, 4, 6, 1, 2, 7, 3]]

/-- `t8_dtri_face_corner`, `t8_dtet_face_corner`: rows of `t8_face_vertex_to_tree_vertex`,
`src/t8_eclass/t8_eclass.h:104` and `:106`. -/
def faceCorner : Cls → List (List Nat)
  | .tri => [[1, 2], [0, 2], [0, 1]]
  | .tet => [[1, 2, 3], [0, 2, 3], [0, 1, 3], [0, 1, 2]]

/-- `coords[k] -= h`. -/
def subAt {d : Nat} (x : Fin d → BitVec 32) (k : Nat) (h : BitVec 32) : Fin d → BitVec 32 :=
  fun i => if i.val = k then x i - h else x i

variable (c : Cls)

/-- `t8_dtri_face_neighbour`, `t8_dtri_bits.c:692`: the neighbor and the number of the face seen from there. -/
def faceNeighbour : (c : Cls) → Elem c.dim → Nat → Elem c.dim × Nat
  | .tri, e, face =>
    let h := len .tri e.level
    let x := if face = 0 then addAt e.x e.type h else if face = 2 then subAt e.x (1 - e.type) h else e.x
    (⟨x, e.level, 1 - e.type⟩, 2 - face)
  | .tet, e, face =>
    let h := len .tet e.level
    let even := e.type % 2 = 0
    if face = 1 ∨ face = 2 then
      let up := (even ↔ face % 2 = 0)
      (⟨e.x, e.level, (if up then e.type + 6 + 1 else e.type + 6 - 1) % 6⟩, face)
    else if face = 0 then
      (⟨addAt e.x (e.type / 2) h, e.level, (e.type + 6 + if even then 4 else 2) % 6⟩, 3)
    else
      (⟨subAt e.x ((e.type + 6 + 3) % 6 / 2) h, e.level, (e.type + 6 + if even then 2 else 4) % 6⟩, 3 - face)

/-- `t8_dtri_is_inside_root`, `t8_dtri_bits.c:1147`, without the comparison of debugging mode with the geometric
ancestor test. -/
def isInsideRoot : (c : Cls) → Elem c.dim → Bool
  | .tri, e =>
    if e.level = 0 then e.type == 0 && e.x 0 == 0 && e.x 1 == 0
    else
      decide (0 ≤ (e.x 0).toInt) && decide ((e.x 0).toInt < (rootLen .tri).toInt) && decide (0 ≤ (e.x 1).toInt) &&
      decide ((e.x 1 - e.x 0).toInt ≤ 0) && (if e.x 1 = e.x 0 then e.type == 0 else true)
  | .tet, e =>
    if e.level = 0 then e.type == 0 && e.x 0 == 0 && e.x 1 == 0 && e.x 2 == 0
    else
      decide (0 ≤ (e.x 0).toInt) && decide ((e.x 0).toInt < (rootLen .tet).toInt) && decide (0 ≤ (e.x 1).toInt) &&
      decide (0 ≤ (e.x 2).toInt) &&
      decide ((e.x 2 - e.x 0).toInt ≤ 0) && decide ((e.x 1 - e.x 2).toInt ≤ 0) &&
      (if e.x 2 = e.x 0 then decide (e.type < 3) else true) &&
      (if e.x 1 = e.x 2 then e.type == 0 || decide (4 ≤ e.type) else true) &&
      (if e.x 0 = e.x 1 ∧ e.x 1 = e.x 2 then e.type == 0 else true)

/-- `element_get_face_neighbor_inside`, `t8_default_tri.cxx:400`, `t8_default_tet.cxx:385`: `none` if the neighbor is
not inside of the root. -/
def faceNeighborInside (e : Elem c.dim) (face : Nat) : Option (Elem c.dim × Nat) :=
  let n := faceNeighbour c e face
  if isInsideRoot c n.1 then some n else none

/-- The child ids in `t8_dtri_children_at_face`, `t8_dtri_bits.c:818`. -/
def childIdsAtFace : (c : Cls) → Elem c.dim → Nat → List Nat
  | .tri, e, face => [if face = 0 then 1 + e.type else 0, if face = 2 then 1 + e.type else 3]
  | .tet, e, face => (faceChildIdByType.getD e.type []).getD face []

/-- `t8_dtri_children_at_face`, `t8_dtri_bits.c:818`. -/
def childrenAtFace (e : Elem c.dim) (face : Nat) : List (Elem c.dim) := (childIdsAtFace c e face).map (child c e)

/-- `t8_dtri_tree_face`, `t8_dtri_bits.c:863`. -/
def treeFace : (c : Cls) → Elem c.dim → Nat → Int
  | .tri, _, face => face
  | .tet, e, face =>
    if e.type = 0 then face else if e.type = 1 then 0 else if e.type = 2 then 1 else if e.type = 3 then -1
    else if e.type = 4 then 2 else 3

/-- `t8_dtri_root_face_to_face`, `t8_dtri_bits.c:910`. -/
def rootFaceToFace : (c : Cls) → Elem c.dim → Nat → Option Nat
  | .tri, e, rootFace => if e.type = 0 then some rootFace else none
  | .tet, e, rootFace =>
    if e.type = 0 then some rootFace
    else if e.type = 1 then (if rootFace = 0 then some 0 else none)
    else if e.type = 2 then (if rootFace = 1 then some 2 else none)
    else if e.type = 4 then (if rootFace = 2 then some 1 else none)
    else if e.type = 5 then (if rootFace = 3 then some 3 else none)
    else none

/-- `t8_dtri_face_child_face`, `t8_dtri_bits.c:958`. -/
def faceChildFace : (c : Cls) → Elem c.dim → Nat → Nat → Nat
  | .tri, _, face, _ => face
  | .tet, e, face, faceChild =>
    if face = 1 ∨ face = 2 then
      let faceType := look faceBoundaryType e.type face
      if (faceType = 0 ∧ faceChild = 2) ∨ (faceType = 1 ∧ faceChild = 1) then face ^^^ 3 else face
    else face

/-- `t8_dtri_face_parent_face`, `t8_dtri_bits.c:994`. -/
def faceParentFace : (c : Cls) → Elem c.dim → Nat → Option Nat
  | .tri, e, face =>
    if e.level = 0 then some face
    else
      let cid := computeCubeid .tri e e.level
      let parentType := look (cidTypeToParenttype .tri) cid e.type
      if parentType ≠ e.type then none
      else
        let childId := look (typeCidToBeyid .tri) e.type cid
        if face ≠ childId then some face else none
  | .tet, e, face =>
    if e.level = 0 then some face
    else
      let cid := computeCubeid .tet e e.level
      let parentType := look (cidTypeToParenttype .tet) cid e.type
      let childId := look (typeCidToBeyid .tet) e.type cid
      if parentType = e.type ∧ face ≠ childId then some face
      else if (parentTypeTypeToFace.getD parentType []).getD e.type none = some face then
        some (if face = 1 ∨ face = 2 then face ^^^ 3 else face)
      else none

/-- `t8_dtri_is_root_boundary`, `t8_dtri_bits.c:1186`. -/
def isRootBoundary : (c : Cls) → Elem c.dim → Nat → Bool
  | .tri, e, face =>
    if e.type = 0 then
      if face = 0 then e.x 0 == rootLen .tri - len .tri e.level
      else if face = 1 then e.x 0 == e.x 1
      else e.x 1 == 0
    else false
  | .tet, e, face =>
    if e.type = 0 then
      if face = 0 then e.x 0 == rootLen .tet - len .tet e.level
      else if face = 1 then e.x 0 == e.x 2
      else if face = 2 then e.x 1 == e.x 2
      else e.x 1 == 0
    else if e.type = 1 then face == 0 && e.x 0 == rootLen .tet - len .tet e.level
    else if e.type = 2 then face == 2 && e.x 0 == e.x 2
    else if e.type = 3 then false
    else if e.type = 4 then face == 1 && e.x 1 == e.x 2
    else face == 3 && e.x 1 == 0

/-- The corner that `element_get_first_descendant_face` uses, `t8_default_tri.cxx:328`, `t8_default_tet.cxx:299`. -/
def firstFaceCorner (face : Nat) : Nat := look (faceCorner c) face 0

/-- The corner that `element_get_last_descendant_face` uses, `t8_default_tri.cxx:342`, `t8_default_tet.cxx:313`. -/
def lastFaceCorner : Cls → Nat → Nat
  | .tri, face => look (faceCorner .tri) face 1
  | .tet, face => max (look (faceCorner .tet) face 1) (look (faceCorner .tet) face 2)

/-- `element_get_first_descendant_face`, `t8_default_tri.cxx:328`, `t8_default_tet.cxx:299`. -/
def firstDescendantFace (e : Elem c.dim) (face level : Nat) : Option (Elem c.dim) :=
  cornerDescendant c e (firstFaceCorner c face) level

/-- `element_get_last_descendant_face`, `t8_default_tri.cxx:342`, `t8_default_tet.cxx:313`. -/
def lastDescendantFace (e : Elem c.dim) (face level : Nat) : Option (Elem c.dim) :=
  cornerDescendant c e (lastFaceCorner c face) level

/-! ### Boundary elements -/

/-- `element_get_boundary_face`, `t8_default_tri.cxx:355`; `T8_DLINE_ROOT_BY_DTRI_ROOT`, `t8_dtri.h:60`. -/
def boundaryFaceTri (e : Elem 2) (face : Nat) : Dline.Line :=
  let ratio : BitVec 32 := BitVec.twoPow 32 (Dline.maxLevel - Cls.tri.maxLevel)
  if (face = 0 ∧ e.type = 0) ∨ (face = 2 ∧ e.type = 1) then ⟨e.x 1 * ratio, e.level⟩ else ⟨e.x 0 * ratio, e.level⟩

/-- `((int64_t) x * A) / B` with the root lengths `A = 2 ^ a`, `B = 2 ^ b`, for coordinates that are not negative. -/
def rescale (a b : Nat) (x : BitVec 32) : BitVec 32 :=
  ((x.setWidth 64 * BitVec.twoPow 64 a) / BitVec.twoPow 64 b).setWidth 32

/-- `element_extrude_face`, `t8_default_tri.cxx:280`. The result of `rootFaceToFace` is part of the result. -/
def extrudeFaceTri (b : Dline.Line) (rootFace : Nat) : Elem 2 × Option Nat :=
  let s := rescale Cls.tri.maxLevel Dline.maxLevel b.x
  let t : Elem 2 :=
    if rootFace = 0 then
      ⟨fun i => if i.val = 0 then rootLen .tri - len .tri b.level else s, b.level, 0⟩
    else if rootFace = 1 then ⟨fun _ => s, b.level, 0⟩
    else ⟨fun i => if i.val = 0 then s else 0, b.level, 0⟩
  (t, rootFaceToFace .tri t rootFace)

/-- `element_get_boundary_face`, `t8_default_tet.cxx:330`; `T8_DTRI_ROOT_BY_DTET_ROOT`, `t8_dtet.h:61`. The third
category of the code does not occur. -/
def boundaryFaceTet (e : Elem 3) (face : Nat) : Option (Elem 2) := do
  let ratio : BitVec 32 := BitVec.twoPow 32 (Cls.tri.maxLevel - Cls.tet.maxLevel)
  let cat ← (faceCategory.getD e.type []).getD face none
  let type := look faceBoundaryType e.type face
  if cat = 1 then some ⟨fun i => (if i.val = 0 then e.x 2 else e.x 1) * ratio, e.level, type⟩
  else some ⟨fun i => (if i.val = 0 then e.x 0 else e.x 2) * ratio, e.level, type⟩

/-- `element_extrude_face`, `t8_default_tet.cxx:256`. -/
def extrudeFaceTet (b : Elem 2) (rootFace : Nat) : Elem 3 × Option Nat :=
  let sx := rescale Cls.tet.maxLevel Cls.tri.maxLevel (b.x 0)
  let sy := rescale Cls.tet.maxLevel Cls.tri.maxLevel (b.x 1)
  let t : Elem 3 :=
    if rootFace = 0 then
      ⟨fun i => if i.val = 0 then rootLen .tet - len .tet b.level else if i.val = 1 then sy else sx, b.level,
        if b.type = 0 then 0 else 1⟩
    else if rootFace = 1 then ⟨fun i => if i.val = 1 then sy else sx, b.level, if b.type = 0 then 0 else 2⟩
    else if rootFace = 2 then ⟨fun i => if i.val = 0 then sx else sy, b.level, if b.type = 0 then 0 else 4⟩
    else ⟨fun i => if i.val = 0 then sx else if i.val = 1 then 0 else sy, b.level, if b.type = 0 then 0 else 5⟩
  (t, rootFaceToFace .tet t rootFace)

/-- `t8_dtri_transform_face`, `t8_dtri_bits.c:1067`. Precondition `orientation ≤ 2`. -/
def transformFace (e : Elem 2) (orientation : Nat) (sign isSmallerFace : Bool) : Elem 2 :=
  let h := len .tri e.level
  let y := if sign then (if e.type = 0 then e.x 0 - e.x 1 else e.x 0 - e.x 1 - h) else e.x 1
  let x := e.x 0
  let orientation := if !isSmallerFace && decide (orientation ≠ 0) && !sign then 3 - orientation else orientation
  if orientation = 0 then ⟨fun i => if i.val = 0 then x else y, e.level, e.type⟩
  else if orientation = 1 then
    ⟨fun i => if i.val = 0 then rootLen .tri - h - y else if e.type = 0 then x - y else x - y - h, e.level, e.type⟩
  else
    ⟨fun i => if i.val = 0 then (if e.type = 0 then rootLen .tri - h + y - x else rootLen .tri + y - x)
      else rootLen .tri - h - x, e.level, e.type⟩

end T8.Simplex
