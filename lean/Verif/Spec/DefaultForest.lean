/-
The element classes of the default scheme as families over the class, and the face neighbors in a forest over a committed coarse mesh:
`t8_forest_element_neighbor_eclass` followed by `t8_forest_element_face_neighbor` (src/t8_forest/t8_forest.cxx:1415-1522), as
`t8_forest_element_owners_at_neigh_face` (t8_forest.cxx:2747) and `t8_forest_search` with the callback of the ghost layer use them.

The functions about faces of pyramids are those of `Pyramid.faceSchemeRepaired`: the number of children at a face of a tetrahedron or
of a square is 4 there, see C14. Vertices have no faces.
-/
import Verif.Spec.FaceGluing
import Verif.Spec.Balance
import Verif.Lemmas.FaceClass

namespace T8.Neighbor
open Element

/-- The refinement trees of the classes. -/
def treeOf (S : P4ests) : Eclass → RTree
  | .vertex => Dvertex.tree
  | .line => Dline.tree
  | .quad => Cube.Cls.quad.tree
  | .triangle => Simplex.tree .tri
  | .hex => (Cube.Cls.hex S.M S.hM).tree
  | .tet => Simplex.tree .tet
  | .prism => Prism.tree
  | .pyramid => Pyramid.tree

/-- An element of the class as an element of the default scheme. -/
def emb (S : P4ests) : (c : Eclass) → (treeOf S c).E → Element
  | .vertex => Element.vertex
  | .line => Element.line
  | .quad => Element.quad
  | .triangle => Element.triangle
  | .hex => Element.hex
  | .tet => Element.tet
  | .prism => Element.prism
  | .pyramid => Element.pyramid

/-- The elements of one class. -/
def proj (S : P4ests) (c : Eclass) (e : Element) : Option (treeOf S c).E :=
  match c, e with
  | .vertex, .vertex v => some v
  | .line, .line v => some v
  | .quad, .quad v => some v
  | .triangle, .triangle v => some v
  | .hex, .hex v => some v
  | .tet, .tet v => some v
  | .prism, .prism v => some v
  | .pyramid, .pyramid v => some v
  | _, _ => none

/-- The default scheme. -/
def schemeOf (S : P4ests) : (c : Eclass) → Scheme (treeOf S c)
  | .vertex => Dvertex.scheme
  | .line => Dline.scheme
  | .quad => Cube.Cls.quad.scheme S.quad
  | .triangle => Simplex.scheme .tri
  | .hex => (Cube.Cls.hex S.M S.hM).scheme S.hex
  | .tet => Simplex.scheme .tet
  | .prism => Prism.scheme
  | .pyramid => Pyramid.scheme

/-- Vertices do not have faces. -/
def vertexFaces : FaceScheme Dvertex.tree where
  numFaces _ := 0
  numFaceChildren _ _ := 0
  childrenAtFace _ _ := []
  childIdsAtFace _ _ := []
  childFace _ _ _ := 0
  firstDescendantFace e _ _ := e
  lastDescendantFace e _ _ := e

/-- The functions of the default scheme about faces. -/
def facesOf (S : P4ests) : (c : Eclass) → FaceScheme (treeOf S c)
  | .vertex => vertexFaces
  | .line => Dline.faceScheme
  | .quad => Cube.Cls.quad.faceScheme S.quad
  | .triangle => Simplex.faceScheme .tri
  | .hex => (Cube.Cls.hex S.M S.hM).faceScheme S.hex
  | .tet => Simplex.faceScheme .tet
  | .prism => Prism.faceScheme
  | .pyramid => Pyramid.faceSchemeRepaired

/-- Face `g` of `x` lies in face `f` of `e`, as sets of points. -/
def InOf (S : P4ests) : (c : Eclass) → (treeOf S c).E → Nat → (treeOf S c).E → Nat → Prop
  | .vertex => fun _ _ _ _ => False
  | .line => Dline.InFace
  | .quad => Cube.Cls.quad.InFace
  | .triangle => Simplex.InFace .tri
  | .hex => (Cube.Cls.hex S.M S.hM).InFace
  | .tet => Simplex.InFace .tet
  | .prism => Prism.InFace
  | .pyramid => Pyramid.InFace

/-- `element_face_get_parent_face`. -/
def parentFaceOf (S : P4ests) : (c : Eclass) → (treeOf S c).E → Nat → Option Nat
  | .vertex => fun _ _ => none
  | .line => Dline.faceParentFace
  | .quad => fun e f => Cube.faceParentFace .quad S.quad e f
  | .triangle => Simplex.faceParentFace .tri
  | .hex => fun e f => Cube.faceParentFace (.hex S.M S.hM) S.hex e f
  | .tet => Simplex.faceParentFace .tet
  | .prism => Prism.faceParentFace
  | .pyramid => Pyramid.faceParentFace

/-- `element_get_face_neighbor_inside`. -/
def insideOf (S : P4ests) : (c : Eclass) → (treeOf S c).E → Nat → Option ((treeOf S c).E × Nat)
  | .vertex => fun _ _ => none
  | .line => Dline.faceNeighborInside
  | .quad => fun e f => Cube.faceNeighborInside S.quad e f
  | .triangle => Simplex.faceNeighborInside .tri
  | .hex => fun e f => Cube.faceNeighborInside S.hex e f
  | .tet => Simplex.faceNeighborInside .tet
  | .prism => Prism.faceNeighborInside
  | .pyramid => Pyramid.inside

/-- `element_get_max_num_faces`: t8_default_line.cxx:336, t8_default_quad.cxx:130, t8_default_tri.cxx:105, t8_default_hex.cxx:105,
t8_default_tet.cxx:104, t8_default_prism.cxx:168, t8_default_vertex.cxx:107 and t8_dpyramid_bits.c:1118. -/
def maxNumFacesOf (S : P4ests) : (c : Eclass) → (treeOf S c).E → Nat
  | .pyramid => Pyramid.numFaces
  | .vertex => fun _ => 0 | .line => fun _ => 2 | .quad => fun _ => 4 | .triangle => fun _ => 3
  | .hex => fun _ => 6 | .tet => fun _ => 4 | .prism => fun _ => 5

/-- `t8_forest_element_neighbor_eclass` followed by `t8_forest_element_face_neighbor`: tree, neighbor and its face. -/
def neighborIn (S : P4ests) (m : Cmesh) (t : Int) (e : Element) (face : Nat) : Option (Int × Element × Nat) :=
  match neighborEclass S m t e face with
  | some (some nc) => (faceNeighbor S m t e nc face).join
  | _ => none

/-- The class of tree `g`. -/
def classOf (classes : List Eclass) (g : Nat) : Eclass := classes.getD g .vertex

/-- The refinement trees of a forest over a coarse mesh. -/
@[reducible] def forestTrees (S : P4ests) (classes : List Eclass) (g : Nat) : RTree := treeOf S (classOf classes g)

/-- The face neighbors in a forest over the committed coarse mesh with the given classes of trees and face connections. -/
def forestNeighbor (S : P4ests) (dim : Nat) (classes : List Eclass) (joins : List Stash.JoinFace) :
    BalanceSpec.Neighbors (forestTrees S classes) := fun g e f =>
  match neighborIn S (Cmesh.commit dim classes joins) g (emb S _ e) f with
  | none => none
  | some (t, n, k) => (proj S (classOf classes t.toNat) n).map fun n => ⟨t.toNat, n, k⟩

end T8.Neighbor
