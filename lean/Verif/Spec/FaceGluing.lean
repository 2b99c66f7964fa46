/-
Specification of the gluing of two trees at a face, in terms of the corners of the trees: which points of the two faces are
the same point of the mesh.
-/
import Verif.Spec.FaceNeighbor

namespace T8.Neighbor

/-- The first two coordinates of a point. -/
def to2 (p : Fin 3 → Nat) : Fin 2 → Nat := fun i => p i.castSucc

/-- A point lies in face `f` of the element. Points have three coordinates, in elements of a lower dimension the first ones
count. -/
def Element.InFace (S : P4ests) : Element → Nat → (Fin 3 → Nat) → Prop
  | .vertex _, _, _ => False
  | .line l, f, p => p 0 ∈ Dline.Face l f
  | .quad q, f, p => to2 p ∈ Standalone.Face 30 q f
  | .triangle t, f, p => to2 p ∈ Simplex.Face .tri t f
  | .hex h, f, p => p ∈ Standalone.Face S.M h f
  | .tet t, f, p => p ∈ Simplex.Face .tet t f
  | .prism x, f, p => (to2 p, p 2) ∈ Prism.Face x f
  | .pyramid x, f, p => p ∈ Pyramid.Face x f

/-- The root elements. -/
def rootOf : Eclass → Element
  | .vertex => .vertex ⟨0⟩
  | .line => .line Dline.root
  | .quad => .quad (Standalone.root 2)
  | .triangle => .triangle (Simplex.root .tri)
  | .hex => .hex (Standalone.root 3)
  | .tet => .tet (Simplex.root .tet)
  | .prism => .prism Prism.root
  | .pyramid => .pyramid Pyramid.root

/-- The length of the trees in the direction of coordinate `k`; it depends on the coordinate for prisms only, whose third coordinate
is that of a line. -/
def rootLength (S : P4ests) (c : Eclass) (k : Nat) : Nat :=
  match c with
  | .vertex => 0 | .line => 2 ^ 30 | .quad => 2 ^ 30 | .triangle => 2 ^ 29 | .hex => 2 ^ S.M | .tet => 2 ^ 21
  | .prism => if k = 2 then 2 ^ 30 else 2 ^ 29
  | .pyramid => 2 ^ 21

/-- The corners of the reference trees of edge length 1, in the numbering of t8code. -/
def unitCorner : Eclass → List (List Nat)
  | .vertex => [[0, 0, 0]]
  | .line => [[0, 0, 0], [1, 0, 0]]
  | .quad => [[0, 0, 0], [1, 0, 0], [0, 1, 0], [1, 1, 0]]
  | .triangle => [[0, 0, 0], [1, 0, 0], [1, 1, 0]]
  | .hex => [[0, 0, 0], [1, 0, 0], [0, 1, 0], [1, 1, 0], [0, 0, 1], [1, 0, 1], [0, 1, 1], [1, 1, 1]]
  | .tet => [[0, 0, 0], [1, 0, 0], [1, 0, 1], [1, 1, 1]]
  | .prism => [[0, 0, 0], [1, 0, 0], [1, 1, 0], [0, 0, 1], [1, 0, 1], [1, 1, 1]]
  | .pyramid => [[0, 0, 0], [1, 0, 0], [0, 1, 0], [1, 1, 0], [1, 1, 1]]

/-- The coordinate `k` of corner `v` of the reference tree. -/
def unit (c : Eclass) (v k : Nat) : Nat := ((unitCorner c).getD v []).getD k 0

/-- The position of a point of face `F` of the tree inside of the face: one of the coordinates for faces that are lines, two
for faces that are triangles or quads, scaled to the root line (`2^30`), triangle (`2^29`) or quad (`2^30`). -/
def faceCoord (S : P4ests) (c : Eclass) (F : Nat) (p : Fin 3 → Nat) : Nat × Nat :=
  match c with
  | .vertex => (0, 0)
  | .line => (0, 0)
  | .quad => (if F / 2 = 0 then p 1 else p 0, 0)
  | .triangle => (2 * if F = 0 then p 1 else p 0, 0)
  | .hex => (2 ^ (30 - S.M) * (if F / 2 = 0 then p 1 else p 0), 2 ^ (30 - S.M) * if F / 2 = 2 then p 1 else p 2)
  | .tet => (2 ^ 8 * (if F = 0 then p 2 else p 0), 2 ^ 8 * if F = 3 then p 2 else p 1)
  | .prism => if F < 3 then (2 * (if F = 0 then p 1 else p 0), p 2) else (p 0, p 1)
  | .pyramid => if F < 4 then (2 ^ 8 * (if F < 2 then p 1 else p 0), 2 ^ 8 * p 2) else (2 ^ 9 * p 0, 2 ^ 9 * p 1)

/-- The symmetry of the face that sends corner 0 to corner `o`, and that changes the sense of rotation if `flip`. (In lines,
this sense is determined by `o`.) -/
def symmetry (b : Eclass) (o : Nat) (flip : Bool) (x : Int × Int) : Int × Int :=
  match b with
  | .line => (if o = 0 then x.1 else 2 ^ 30 - x.1, x.2)
  | .quad => Standalone.squareSymmetry (2 ^ 30) o flip x
  | .triangle => Simplex.triSymmetry (2 ^ 29) o flip x
  | _ => x

/-- The sense of rotation of the face as seen from the inside of the tree: the determinant of the directions from corner 0 of the
face to its corners 1 and 2 and to a corner of the tree (the sum over all corners, those in the face do not count). -/
def sense (c : Eclass) (F : Nat) : Int :=
  let v (i : Nat) : Nat := ((faceVertices c).getD F []).getD i 0
  let d (w k : Nat) : Int := (unit c w k : Int) - unit c (v 0) k
  let det (w : Nat) : Int :=
    d (v 1) 0 * (d (v 2) 1 * d w 2 - d (v 2) 2 * d w 1) - d (v 1) 1 * (d (v 2) 0 * d w 2 - d (v 2) 2 * d w 0) +
      d (v 1) 2 * (d (v 2) 0 * d w 1 - d (v 2) 1 * d w 0)
  ((List.range (unitCorner c).length).map det).sum

/-- Two trees on opposite sides of a common face see its corners in opposite senses of rotation. So if both faces have the same
sense, each seen from the inside of its own tree, then the sense changes from one to the other. -/
def flip (c : Eclass) (F : Nat) (c' : Eclass) (F' : Nat) : Bool := decide ((0 < sense c F) ↔ (0 < sense c' F'))

/-- The order of the classes, t8_cmesh.h:342: "triangle < quad, tet < hex < prism < pyramid". (The comment at `t8_cmesh_set_join` has
the hexahedron before the tetrahedron; they do not have faces of the same class.) -/
def rankOf : Eclass → Nat
  | .triangle => 0 | .quad => 1 | .tet => 0 | .hex => 1 | .prism => 2 | .pyramid => 3 | _ => 0

/-- Face `F` of a tree of class `c` is the main face with respect to face `F'` of a tree of class `c'`, t8_cmesh.h:342: "Either
both trees have the same element class, then the face with the lower face number is the main_face or the trees belong to
different classes in which case the face belonging to the tree with the lower class [...] is the main_face." -/
def Main (c : Eclass) (F : Nat) (c' : Eclass) (F' : Nat) : Prop := rankOf c < rankOf c' ∨ (c = c' ∧ F ≤ F')

/-- The point `p` of face `F` and the point `p'` of face `F'` are the same point of the mesh, t8_cmesh.h:342: "face corner 0 of the
main_face connects to a face corner k in the other face. The face orientation is defined as the number k." -/
def Glued (S : P4ests) (b c : Eclass) (F : Nat) (c' : Eclass) (F' o : Nat) (p p' : Fin 3 → Nat) : Prop :=
  let x : Int × Int := ((faceCoord S c F p).1, (faceCoord S c F p).2)
  let x' : Int × Int := ((faceCoord S c' F' p').1, (faceCoord S c' F' p').2)
  (Main c F c' F' → x' = symmetry b o (flip c F c' F') x) ∧ (¬ Main c F c' F' → x = symmetry b o (flip c F c' F') x')

end T8.Neighbor
