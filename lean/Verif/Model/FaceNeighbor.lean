/-
Model of the face neighbors of elements across the faces of trees:
`t8_forest_element_neighbor_eclass` and `t8_forest_element_face_neighbor` (src/t8_forest/t8_forest.cxx:1415-1522), on a
replicated coarse mesh whose face connections come from the stash (`t8_cmesh_commit_replicated_new`,
src/t8_cmesh/t8_cmesh_internal/t8_cmesh_commit.cxx:134-194), with the default scheme.

An element is a value of one of the eight classes (`Element`); the functions of the default scheme are those of the models of
the classes. `none` is an abort, a failing assertion or an element of the wrong class. Trees are given by their number in
the coarse mesh. Numbers of trees are unbounded.
-/
import Verif.Model.Cube
import Verif.Model.PyramidFaces
import Verif.Model.Eclass
import Verif.Model.Stash

namespace T8.Neighbor

/-! ### Tables of the classes -/

/-- `t8_eclass_face_types`, src/t8_eclass/t8_eclass.h:205 (`none` for -1). -/
def faceType : Eclass → Nat → Option Eclass
  | .vertex, _ => none
  | .line, f => if f < 2 then some .vertex else none
  | .quad, f => if f < 4 then some .line else none
  | .triangle, f => if f < 3 then some .line else none
  | .hex, f => if f < 6 then some .quad else none
  | .tet, f => if f < 4 then some .triangle else none
  | .prism, f => if f < 3 then some .quad else if f < 5 then some .triangle else none
  | .pyramid, f => if f < 4 then some .triangle else if f < 5 then some .quad else none

/-- `t8_face_vertex_to_tree_vertex`, src/t8_eclass/t8_eclass.h:100. -/
def faceVertices : Eclass → List (List Nat)
  | .vertex => []
  | .line => [[0], [1]]
  | .quad => [[0, 2], [1, 3], [0, 1], [2, 3]]
  | .triangle => [[1, 2], [0, 2], [0, 1]]
  | .hex => [[0, 2, 4, 6], [1, 3, 5, 7], [0, 1, 4, 5], [2, 3, 6, 7], [0, 1, 2, 3], [4, 5, 6, 7]]
  | .tet => [[1, 2, 3], [0, 2, 3], [0, 1, 3], [0, 1, 2]]
  | .prism => [[1, 2, 4, 5], [0, 2, 3, 5], [0, 1, 3, 4], [0, 1, 2], [3, 4, 5]]
  | .pyramid => [[0, 2, 4], [1, 3, 4], [0, 1, 4], [2, 3, 4], [0, 1, 2, 3]]

/-- `t8_eclass_face_orientation`, src/t8_eclass/t8_eclass.h:154, without the entries -1. -/
def faceOrientation : Eclass → List Nat
  | .vertex => [0]
  | .line => [0, 0]
  | .quad => [0, 0, 0, 0]
  | .triangle => [0, 0, 0]
  | .hex => [0, 1, 1, 0, 0, 1]
  | .tet => [0, 1, 0, 1]
  | .prism => [1, 0, 1, 0, 1]
  | .pyramid => [0, 1, 1, 0, 0]

/-! ### The default scheme -/

/-- The two versions of p4est; `M` is `P8EST_MAXLEVEL`, see Model/Cube.lean. -/
structure P4ests where
  M : Nat
  hM : 18 ≤ M ∧ M ≤ 30
  quad : Cube.P4est 2
  hex : Cube.P4est 3

/-- An element of the default scheme. -/
inductive Element
  | vertex (v : Dvertex.Vertex)
  | line (l : Dline.Line)
  | quad (q : Standalone.Elem 2)
  | triangle (t : Simplex.Elem 2)
  | hex (h : Standalone.Elem 3)
  | tet (t : Simplex.Elem 3)
  | prism (p : Prism.Prism)
  | pyramid (p : Pyramid.Elem)

namespace Element

/-- The class of the tree that an element belongs to. -/
def eclass : Element → Eclass
  | vertex _ => .vertex | line _ => .line | quad _ => .quad | triangle _ => .triangle
  | hex _ => .hex | tet _ => .tet | prism _ => .prism | pyramid _ => .pyramid

/-- `element_get_level` of the classes. -/
def level : Element → Nat
  | vertex v => v.level | line l => l.level | quad q => q.level | triangle t => t.level
  | hex h => h.level | tet t => t.level | prism p => Prism.level p | pyramid p => p.level

/-- `element_get_num_faces` of the classes: in the refinement of a pyramid there are pyramids and tetrahedra. -/
def numFaces : Element → Nat
  | pyramid p => Pyramid.numFaces p
  | e => e.eclass.numFaces

/-- `element_is_root_boundary`, t8_scheme.hxx. For vertices: `t8_default_vertex.cxx:215`. -/
def isRootBoundary (S : P4ests) : Element → Nat → Bool
  | vertex _, _ => true
  | line l, f => Dline.isRootBoundary l f
  | quad q, f => Cube.isRootBoundary .quad q f
  | triangle t, f => Simplex.isRootBoundary .tri t f
  | hex h, f => Cube.isRootBoundary (.hex S.M S.hM) h f
  | tet t, f => Simplex.isRootBoundary .tet t f
  | prism p, f => Prism.isRootBoundary p f
  | pyramid p, f => Pyramid.isRootBoundary p f

/-- `element_get_face_neighbor_inside`, t8_scheme.hxx: `some none` if the neighbor is not inside of the tree. Vertices
abort. -/
def neighborInside (S : P4ests) : Element → Nat → Option (Option (Element × Nat))
  | vertex _, _ => none
  | line l, f => some ((Dline.faceNeighborInside l f).map fun r => (line r.1, r.2))
  | quad q, f => some ((Cube.faceNeighborInside S.quad q f).map fun r => (quad r.1, r.2))
  | triangle t, f => some ((Simplex.faceNeighborInside .tri t f).map fun r => (triangle r.1, r.2))
  | hex h, f => some ((Cube.faceNeighborInside S.hex h f).map fun r => (hex r.1, r.2))
  | tet t, f => some ((Simplex.faceNeighborInside .tet t f).map fun r => (tet r.1, r.2))
  | prism p, f => some ((Prism.faceNeighborInside p f).map fun r => (prism r.1, r.2))
  | pyramid p, f => (Pyramid.faceNeighborInside p f).map fun o => o.map fun r => (pyramid r.1, r.2)

/-- `element_get_tree_face`, t8_scheme.hxx:684. -/
def treeFace : Element → Nat → Int
  | vertex _, _ => -1
  | line _, f => Dline.treeFace f
  | quad _, f => Cube.treeFace f
  | triangle t, f => Simplex.treeFace .tri t f
  | hex _, f => Cube.treeFace f
  | tet t, f => Simplex.treeFace .tet t f
  | prism _, f => Prism.treeFace f
  | pyramid p, f => match Pyramid.treeFace p f with
    | some g => g
    | none => -1

/-- The quads and triangles at the faces of prisms and pyramids. -/
def ofBoundary : Prism.Boundary → Element
  | .quad q => quad ⟨fun i => if i.val = 0 then q.x else q.y, q.level⟩
  | .tri t => triangle t

/-- The same in the other direction. -/
def toBoundary : Element → Option Prism.Boundary
  | quad q => some (.quad ⟨q.coords 0, q.coords 1, q.level⟩)
  | triangle t => some (.tri t)
  | _ => none

/-- `element_get_boundary_face`, t8_scheme.hxx. -/
def boundaryFace (S : P4ests) : Element → Nat → Option Element
  | vertex _, _ => none
  | line l, f => (Dline.boundaryFace l f).map vertex
  | quad q, f => some (line (Cube.boundaryFaceQuad q f))
  | triangle t, f => some (line (Simplex.boundaryFaceTri t f))
  | hex h, f => some (quad (Cube.boundaryFaceHex S.M h f))
  | tet t, f => (Simplex.boundaryFaceTet t f).map triangle
  | prism p, f => some (ofBoundary (Prism.boundaryFace p f))
  | pyramid p, f => some (ofBoundary (Pyramid.boundaryFace p f))

/-- `element_transform_face`, t8_scheme.hxx:713, with the same element in both roles. -/
def transformFace (b : Element) (orientation : Nat) (sign isSmaller : Bool) : Option Element :=
  match b with
  | vertex v => some (vertex (Dvertex.transformFace v v))
  | line l => some (line (Dline.transformFace l orientation))
  | quad q => (Cube.transformFace true q q orientation sign isSmaller).map quad
  | triangle t => some (triangle (Simplex.transformFace t orientation sign isSmaller))
  | _ => none

end Element

/-- `element_extrude_face`, t8_scheme.hxx, of the class `c`. -/
def extrudeFace (S : P4ests) (c : Eclass) (b : Element) (rootFace : Nat) : Option (Element × Nat) :=
  match c, b with
  | .line, .vertex v => let r := Dline.extrudeFace v rootFace; some (.line r.1, r.2)
  | .quad, .line l => (Cube.extrudeFaceQuad l rootFace).map fun r => (.quad r.1, r.2)
  | .triangle, .line l => let r := Simplex.extrudeFaceTri l rootFace; r.2.map fun f => (.triangle r.1, f)
  | .hex, .quad q => (Cube.extrudeFaceHex S.M q rootFace).map fun r => (.hex r.1, r.2)
  | .tet, .triangle t => let r := Simplex.extrudeFaceTet t rootFace; r.2.map fun f => (.tet r.1, f)
  | .prism, b => do
    let b ← b.toBoundary
    (Prism.extrudeFace b rootFace).map fun r => (.prism r.1, r.2)
  | .pyramid, b => do
    let b ← b.toBoundary
    (Pyramid.extrudeFace b rootFace).map fun r => (.pyramid r.1, r.2)
  | _, _ => none

/-! ### The coarse mesh -/

/-- `t8_cmesh_tree_to_face_encode`, src/t8_cmesh/t8_cmesh_internal/t8_cmesh_trees.cxx:909; the result is an `int8_t`. -/
def encode (dim : Nat) (face orientation : Int) : BitVec 8 := BitVec.ofInt 8 (orientation * maxNumFaces dim + face)

/-- `t8_cmesh_tree_to_face_decode`, t8_cmesh_trees.cxx:933: face and orientation. -/
def decode (dim : Nat) (ttf : BitVec 8) : Int × Int :=
  (ttf.toInt.tmod (maxNumFaces dim : Int), ttf.toInt.tdiv (maxNumFaces dim : Int))

/-- A replicated committed coarse mesh: the classes of the trees, and for each tree and face the entries `face_neighbor`
and `ttf`. -/
structure Cmesh where
  dim : Nat
  classes : List Eclass
  faceNeigh : Int → Int → Int
  ttf : Int → Int → BitVec 8

/-- `t8_cmesh_trees_set_all_boundary`, t8_cmesh_trees.cxx:413. -/
def Cmesh.allBoundary (dim : Nat) (classes : List Eclass) : Cmesh where
  dim := dim
  classes := classes
  faceNeigh t _ := t
  ttf _ f := BitVec.ofInt 8 f

/-- Assignment to an array entry. -/
def setAt {α : Type} (a : Int → Int → α) (t f : Int) (v : α) : Int → Int → α := fun t' f' => if t' = t ∧ f' = f then v else a t' f'

/-- The body of the loop over the face connections, t8_cmesh_commit.cxx:181-192. -/
def Cmesh.join (m : Cmesh) (j : Stash.JoinFace) : Cmesh :=
  { m with
    faceNeigh := setAt (setAt m.faceNeigh j.id1 j.face1 j.id2) j.id2 j.face2 j.id1
    ttf := setAt (setAt m.ttf j.id1 j.face1 (encode m.dim j.face2 j.orientation)) j.id2 j.face2 (encode m.dim j.face1 j.orientation) }

/-- The face connections in `t8_cmesh_commit_replicated_new`, t8_cmesh_commit.cxx:178-192. -/
def Cmesh.commit (dim : Nat) (classes : List Eclass) (joins : List Stash.JoinFace) : Cmesh :=
  joins.foldl Cmesh.join (allBoundary dim classes)

/-- `t8_cmesh_tree_face_is_boundary`, src/t8_cmesh/t8_cmesh.cxx:952, for local trees. -/
def Cmesh.faceIsBoundary (m : Cmesh) (t face : Int) : Bool := m.faceNeigh t face == t && (m.ttf t face).toInt == face

/-- `t8_cmesh_get_face_neighbor`, t8_cmesh.cxx:1063, for local trees: tree, face and orientation. -/
def Cmesh.faceNeighbor (m : Cmesh) (t face : Int) : Option (Int × Int × Int) :=
  if m.faceIsBoundary t face then none
  else some (m.faceNeigh t face, decode m.dim (m.ttf t face))

/-- `t8_cmesh_get_tree_class`, t8_cmesh.cxx:988. -/
def Cmesh.treeClass (m : Cmesh) (t : Int) : Option Eclass := if 0 ≤ t then m.classes[t.toNat]? else none

/-- `t8_cmesh_get_tree_face_neighbor_eclass`, t8_cmesh.cxx:1132: `some none` for `T8_ECLASS_INVALID`. -/
def Cmesh.faceNeighborClass (m : Cmesh) (t face : Int) : Option (Option Eclass) :=
  match m.faceNeighbor t face with
  | none => some none
  | some (t', _, _) => (m.treeClass t').map some

/-! ### The forest -/

/-- `t8_forest_element_neighbor_eclass`, src/t8_forest/t8_forest.cxx:1416. -/
def neighborEclass (S : P4ests) (m : Cmesh) (t : Int) (e : Element) (face : Nat) : Option (Option Eclass) := do
  let c ← m.treeClass t
  if !e.isRootBoundary S face then some (some c)
  else
    assertO (0 ≤ e.treeFace face ∧ e.treeFace face < c.numFaces)
    m.faceNeighborClass t (e.treeFace face)

/-- `is_smaller` in `t8_forest_element_face_neighbor`, t8_forest.cxx:1491-1514. -/
def isSmaller (c nc : Eclass) (face dualFace : Int) : Option Bool := do
  let cmp ← eclassCompare c nc
  if cmp = -1 then some true
  else if cmp = 1 then some false
  else
    assertO (cmp = 0)
    some (decide (face ≤ dualFace))

/-- `t8_forest_element_face_neighbor`, t8_forest.cxx:1443: tree, neighbor and its face; `some none` for -1. -/
def faceNeighbor (S : P4ests) (m : Cmesh) (t : Int) (e : Element) (nc : Eclass) (face : Nat) :
    Option (Option (Int × Element × Nat)) := do
  let c ← m.treeClass t
  let inside ← if nc = c then e.neighborInside S face else some none
  match inside with
  | some (n, g) => some (some (t, n, g))
  | none =>
    let treeFace := e.treeFace face
    match m.faceNeighbor t treeFace with
    | none => some none
    | some (t', dualFace, orientation) =>
      let boundaryClass ← faceType c treeFace.toNat
      let b ← e.boundaryFace S face
      assertO (b.eclass = boundaryClass)
      let smaller ← isSmaller c nc treeFace dualFace
      let s1 ← (faceOrientation c)[treeFace.toNat]?
      let s2 ← (faceOrientation nc)[dualFace.toNat]?
      let b ← b.transformFace orientation.toNat (s1 == s2) smaller
      let (n, g) ← extrudeFace S nc b dualFace.toNat
      some (some (t', n, g))

end T8.Neighbor
