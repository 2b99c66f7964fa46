/-
Specification for the face neighbors across trees: the elements of the eight classes and their faces at the boundary of the
tree as sets of points, and what a sensible list of face connections is.
-/
import Verif.Model.FaceNeighbor
import Verif.Props.CubeFaces
import Verif.Props.PyramidFaces
import Verif.Props.PrismFaces
import Verif.Props.SimplexFaces
import Verif.Props.Dvertex

namespace T8.Neighbor

/-- Both versions of p4est do what is documented. -/
def P4ests.Documented (S : P4ests) : Prop := S.quad.Documented .quad ∧ S.hex.Documented (.hex S.M S.hM)

/-- The deepest level of the classes. -/
def maxLevel : Eclass → Nat
  | .vertex => Dvertex.maxLevel | .line => Dline.maxLevel
  | .quad => Cube.Cls.quad.maxLevel | .triangle => Simplex.Cls.tri.maxLevel
  | .hex => 18 | .tet => Simplex.Cls.tet.maxLevel | .prism => Prism.maxLevel | .pyramid => Pyramid.maxLevel

/-- The element is an element of the refinement of its tree. -/
def Element.Valid (S : P4ests) : Element → Prop
  | .vertex v => Dvertex.Valid v
  | .line l => Dline.Valid l
  | .quad q => Cube.Valid .quad q
  | .triangle t => Simplex.Valid .tri t
  | .hex h => Cube.Valid (.hex S.M S.hM) h
  | .tet t => Simplex.Valid .tet t
  | .prism p => Prism.Valid p
  | .pyramid p => Pyramid.Valid p

/-- Face `f` of the element lies in face `F` of the tree. -/
def Element.InRootFace (S : P4ests) : Element → Nat → Nat → Prop
  | .vertex _, _, _ => False
  | .line l, f, F => Dline.Face l f ⊆ Dline.Face Dline.root F
  | .quad q, f, F => Standalone.Face 30 q f ⊆ Standalone.Face 30 (Standalone.root 2) F
  | .triangle t, f, F => Simplex.Face .tri t f ⊆ Simplex.Face .tri (Simplex.root .tri) F
  | .hex h, f, F => Standalone.Face S.M h f ⊆ Standalone.Face S.M (Standalone.root 3) F
  | .tet t, f, F => Simplex.Face .tet t f ⊆ Simplex.Face .tet (Simplex.root .tet) F
  | .prism p, f, F => Prism.Face p f ⊆ Prism.Face Prism.root F
  | .pyramid p, f, F => Pyramid.Face p f ⊆ Pyramid.Face Pyramid.root F

/-- The two sides of a face connection. -/
def sides (j : Stash.JoinFace) : List (Int × Int) := [(j.id1, j.face1), (j.id2, j.face2)]

/-- One direction of a face connection: from side `(t, F)` to side `(t', F')` with the orientation `o`. -/
def Joined (joins : List Stash.JoinFace) (t F t' F' o : Int) : Prop :=
  ∃ j ∈ joins, j.orientation = o ∧ ((j.id1 = t ∧ j.face1 = F ∧ j.id2 = t' ∧ j.face2 = F') ∨
    (j.id2 = t ∧ j.face2 = F ∧ j.id1 = t' ∧ j.face1 = F'))

/-- The face connections of a conforming mesh of dimension `dim`: they join existing faces of the same class, with an
orientation that is a corner of the face, and no face is joined twice. -/
structure Conforming (dim : Nat) (classes : List Eclass) (joins : List Stash.JoinFace) : Prop where
  dim_le : dim ≤ 3
  dim_eq : ∀ c ∈ classes, c.dim = dim
  faces : ∀ j ∈ joins, ∃ c1 c2 b, 0 ≤ j.id1 ∧ classes[j.id1.toNat]? = some c1 ∧ 0 ≤ j.id2 ∧ classes[j.id2.toNat]? = some c2 ∧
    0 ≤ j.face1 ∧ j.face1 < c1.numFaces ∧ 0 ≤ j.face2 ∧ j.face2 < c2.numFaces ∧
    faceType c1 j.face1.toNat = some b ∧ faceType c2 j.face2.toNat = some b ∧
    0 ≤ j.orientation ∧ j.orientation < b.numVertices
  once : (joins.flatMap sides).Nodup

end T8.Neighbor
