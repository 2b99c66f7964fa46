import Verif.Model.CadGeometry
import Mathlib.Algebra.BigOperators.Group.Finset.Basic

/-!
# Specification: curved trees

The numbering of the edges and faces of the reference elements, what it means that curves and surfaces fit to the vertices of a tree, and the points of the
reference element on an edge or a face.  The tables are written down again here, from the pictures in the documentation.
-/

namespace T8.CadGeometry.Spec
open T8 T8.CadGeometry

/-- The corners of the reference elements. -/
def corner : Eclass → Nat → Pt
  | .hex, v => ![(v % 2 : Nat), (v / 2 % 2 : Nat), (v / 4 : Nat)]
  | .prism, v => [![0, 0, 0], ![1, 0, 0], ![1, 1, 0], ![0, 0, 1], ![1, 0, 1], ![1, 1, 1]].getD v 0
  | .tet, v => [![0, 0, 0], ![1, 0, 0], ![1, 0, 1], ![1, 1, 1]].getD v 0
  | _, _ => 0

/-- The two vertices of the edges. -/
def ends : Eclass → List (Nat × Nat)
  | .hex => [(0, 1), (2, 3), (4, 5), (6, 7), (0, 2), (1, 3), (4, 6), (5, 7), (0, 4), (1, 5), (2, 6), (3, 7)]
  | .tet => [(0, 1), (0, 2), (0, 3), (1, 2), (1, 3), (2, 3)]
  | .prism => [(1, 2), (0, 2), (0, 1), (4, 5), (3, 5), (3, 4), (1, 4), (2, 5), (0, 3)]
  | _ => []

/-- First vertex of an edge. -/
def tail (c : Eclass) (e : Nat) : Nat := ((ends c).getD e (0, 0)).1

/-- Second vertex of an edge. -/
def head (c : Eclass) (e : Nat) : Nat := ((ends c).getD e (0, 0)).2

/-- The vertices of the faces. -/
def faceCorners : Eclass → List (List Nat)
  | .hex => [[0, 2, 4, 6], [1, 3, 5, 7], [0, 1, 4, 5], [2, 3, 6, 7], [0, 1, 2, 3], [4, 5, 6, 7]]
  | .tet => [[1, 2, 3], [0, 2, 3], [0, 1, 3], [0, 1, 2]]
  | .prism => [[1, 2, 4, 5], [0, 2, 3, 5], [0, 1, 3, 4], [0, 1, 2], [3, 4, 5]]
  | _ => []

/-- The vertices of a face. -/
def cornersOf (c : Eclass) (f : Nat) : List Nat := (faceCorners c).getD f []

/-- Edge `e` belongs to face `f`. -/
def Borders (c : Eclass) (e f : Nat) : Prop := tail c e ∈ cornersOf c f ∧ head c e ∈ cornersOf c f

instance (c : Eclass) (e f : Nat) : Decidable (Borders c e f) := by unfold Borders; infer_instance

/-- The point of the reference element that divides edge `e` in the ratio `t : 1 - t`. -/
def onEdge (c : Eclass) (e : Nat) (t : ℝ) : Pt := (1 - t) • corner c (tail c e) + t • corner c (head c e)

/-- The parameter of a curve between the parameters at the vertices of an edge. -/
def between (T : Tree) (e : Nat) (t : ℝ) : ℝ := (1 - t) * T.edgeParams e 0 0 + t * T.edgeParams e 1 0

/-- The curves and surfaces that are linked to edges and faces pass through the vertices of the tree at the stored parameters.  No edge has a curve and a
surface, and no edge of a linked face has a surface of its own. -/
structure Fits (G : Cad) (T : Tree) (c : Eclass) : Prop where
  /-- curves pass through the vertices -/
  curve : ∀ e < (ends c).length, 0 < T.edges e →
    G.curve (T.edges e) (T.edgeParams e 0 0) = T.V (tail c e) ∧ G.curve (T.edges e) (T.edgeParams e 1 0) = T.V (head c e)
  /-- surfaces of edges pass through the vertices -/
  edgeSurface : ∀ e < (ends c).length, 0 < T.edges (e + (ends c).length) →
    G.surf (T.edges (e + (ends c).length)) (T.edgeParams e 0) = T.V (tail c e) ∧
      G.surf (T.edges (e + (ends c).length)) (T.edgeParams e 1) = T.V (head c e)
  /-- surfaces of faces pass through the vertices -/
  faceSurface : ∀ f < (faceCorners c).length, 0 < T.faces f → ∀ i < (cornersOf c f).length,
    G.surf (T.faces f) (T.faceParams f i) = T.V ((cornersOf c f).getD i 0)
  /-- not a curve and a surface -/
  one : ∀ e < (ends c).length, 0 < T.edges e → T.edges (e + (ends c).length) ≤ 0
  /-- not two surfaces -/
  oneSurface : ∀ f < (faceCorners c).length, 0 < T.faces f → ∀ e < (ends c).length, Borders c e f → T.edges (e + (ends c).length) ≤ 0

/-- The curves lie in the surfaces, where the CAD kernel converts the parameters: hexahedra. -/
structure Converts (G : Cad) (T : Tree) (c : Eclass) : Prop where
  /-- the converted parameter belongs to the same point -/
  inside : ∀ f < (faceCorners c).length, 0 < T.faces f → ∀ e < (ends c).length, Borders c e f → 0 < T.edges e → ∀ t : ℝ, 0 ≤ t → t ≤ 1 →
    G.surf (T.faces f) (G.toFace (T.edges e) (T.faces f) (between T e t) (T.faceParams f 0)) = G.curve (T.edges e) (between T e t)
  /-- the parameters of the vertices are converted to the stored ones -/
  nodes : ∀ f < (faceCorners c).length, 0 < T.faces f → ∀ e < (ends c).length, 0 < T.edges e → ∀ i < (cornersOf c f).length,
    ∀ j < (cornersOf c f).length, (cornersOf c f).getD i 0 = tail c e → (cornersOf c f).getD j 0 = head c e →
      G.toFace (T.edges e) (T.faces f) (T.edgeParams e 0 0) (T.faceParams f 0) = T.faceParams f i ∧
      G.toFace (T.edges e) (T.faces f) (T.edgeParams e 1 0) (T.faceParams f 0) = T.faceParams f j

/-- The curves lie in the surfaces, where the parameters are interpolated: tetrahedra and prisms. -/
def Inside (G : Cad) (T : Tree) (c : Eclass) : Prop :=
  ∀ f < (faceCorners c).length, 0 < T.faces f → ∀ e < (ends c).length, 0 < T.edges e → ∀ i < (cornersOf c f).length,
    ∀ j < (cornersOf c f).length, (cornersOf c f).getD i 0 = tail c e → (cornersOf c f).getD j 0 = head c e → ∀ t : ℝ, 0 ≤ t → t ≤ 1 →
      G.surf (T.faces f) ((1 - t) • T.faceParams f i + t • T.faceParams f j) = G.curve (T.edges e) (between T e t)

/-- Where two linked faces meet there is a curve. -/
def Seamed (T : Tree) (c : Eclass) : Prop :=
  ∀ f < (faceCorners c).length, ∀ g < (faceCorners c).length, f ≠ g → 0 < T.faces f → 0 < T.faces g →
    ∀ e < (ends c).length, Borders c e f → Borders c e g → 0 < T.edges e

/-- Where edge `e` belongs: on its curve, on its surface, or on the straight line between the vertices. -/
noncomputable def edgeTarget (G : Cad) (T : Tree) (c : Eclass) (e : Nat) (t : ℝ) : Pt :=
  if 0 < T.edges e then G.curve (T.edges e) (between T e t)
  else if 0 < T.edges (e + (ends c).length) then
    G.surf (T.edges (e + (ends c).length)) ((1 - t) • T.edgeParams e 0 + t • T.edgeParams e 1)
  else (1 - t) • T.V (tail c e) + t • T.V (head c e)

/-- The point is in the reference element. -/
def Inner : Eclass → Pt → Prop
  | .hex, r => ∀ i, 0 ≤ r i ∧ r i ≤ 1
  | .tet, r => 0 ≤ r 1 ∧ r 1 ≤ r 2 ∧ r 2 ≤ r 0 ∧ r 0 ≤ 1
  | .prism, r => 0 ≤ r 1 ∧ r 1 ≤ r 0 ∧ r 0 ≤ 1 ∧ 0 ≤ r 2 ∧ r 2 ≤ 1
  | _, _ => False

/-- The plane of a face. -/
def InPlane : Eclass → Nat → Pt → Prop
  | .hex, f, r => if f = 0 then r 0 = 0 else if f = 1 then r 0 = 1 else if f = 2 then r 1 = 0 else if f = 3 then r 1 = 1
      else if f = 4 then r 2 = 0 else r 2 = 1
  | .tet, f, r => if f = 0 then r 0 = 1 else if f = 1 then r 0 = r 2 else if f = 2 then r 1 = r 2 else r 1 = 0
  | .prism, f, r => if f = 0 then r 0 = 1 else if f = 1 then r 0 = r 1 else if f = 2 then r 1 = 0 else if f = 3 then r 2 = 0 else r 2 = 1
  | _, _, _ => False

/-- The weight of vertex `v` at a point of the reference element: the function that is multilinear (hexahedra), linear (tetrahedra) or linear times linear
(prisms) and is 1 at `v` and 0 at the other vertices. -/
def weight : Eclass → Nat → Pt → ℝ
  | .hex, v, r => (if v % 2 = 1 then r 0 else 1 - r 0) * (if v / 2 % 2 = 1 then r 1 else 1 - r 1) * (if v / 4 = 1 then r 2 else 1 - r 2)
  | .tet, v, r => [1 - r 0, r 0 - r 2, r 2 - r 1, r 1].getD v 0
  | .prism, v, r => [1 - r 0, r 0 - r 1, r 1].getD (v % 3) 0 * (if v / 3 = 1 then r 2 else 1 - r 2)
  | _, _, _ => 0

/-- The parameters on face `f` between those of its vertices. -/
def faceBetween (T : Tree) (c : Eclass) (f : Nat) (r : Pt) : Prm :=
  ∑ i ∈ Finset.range (cornersOf c f).length, weight c ((cornersOf c f).getD i 0) r • T.faceParams f i

end T8.CadGeometry.Spec
