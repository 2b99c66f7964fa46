import Verif.Model.CadPlanar

/-!
# Specification: curved quads and triangles
-/

namespace T8.CadGeometry.Planar
open T8 T8.CadGeometry

/-- The corners of the reference elements. -/
def corner : Eclass → Nat → Prm
  | .quad, v => [![0, 0], ![1, 0], ![0, 1], ![1, 1]].getD v 0
  | _, v => [![0, 0], ![1, 0], ![1, 1]].getD v 0

/-- The two vertices of the edges, from the pictures in t8_geometry_cad.cxx:306 and 522. -/
def ends : Eclass → List (Nat × Nat)
  | .quad => [(0, 2), (1, 3), (0, 1), (2, 3)]
  | .triangle => [(1, 2), (0, 2), (0, 1)]
  | _ => []

/-- First vertex of an edge. -/
def tail (c : Eclass) (e : Nat) : Nat := ((ends c).getD e (0, 0)).1

/-- Second vertex of an edge. -/
def head (c : Eclass) (e : Nat) : Nat := ((ends c).getD e (0, 0)).2

/-- The point of the reference element that divides edge `e` in the ratio `t : 1 - t`. -/
def onEdge (c : Eclass) (e : Nat) (t : ℝ) : Prm := (1 - t) • corner c (tail c e) + t • corner c (head c e)

/-- The parameter of a curve between the parameters at the vertices of an edge. -/
def between (T : Tree) (e : Nat) (t : ℝ) : ℝ := (1 - t) * T.edgeParams e 0 0 + t * T.edgeParams e 1 0

/-- The curves and surfaces of the edges pass through the vertices of the tree at the stored parameters. -/
structure Fits (G : Cad) (T : Tree) (c : Eclass) : Prop where
  /-- curves pass through the vertices -/
  curve : ∀ e < (ends c).length, 0 < T.edges e →
    G.curve (T.edges e) (T.edgeParams e 0 0) = T.V (tail c e) ∧ G.curve (T.edges e) (T.edgeParams e 1 0) = T.V (head c e)
  /-- surfaces of edges pass through the vertices -/
  edgeSurface : ∀ e < (ends c).length, ¬ 0 < T.edges e → 0 < T.edges (e + (ends c).length) →
    G.surf (T.edges (e + (ends c).length)) (T.edgeParams e 0) = T.V (tail c e) ∧
      G.surf (T.edges (e + (ends c).length)) (T.edgeParams e 1) = T.V (head c e)

/-- The curves of the edges lie in the surface of the face, and the kernel converts their parameters. -/
structure Converts (G : Cad) (T : Tree) (c : Eclass) : Prop where
  /-- the converted parameter belongs to the same point -/
  inside : ∀ e < (ends c).length, 0 < T.edges e → ∀ t : ℝ, 0 ≤ t → t ≤ 1 →
    G.surf (T.faces 0) (G.toFace (T.edges e) (T.faces 0) (between T e t) (T.faceParams 0 0)) = G.curve (T.edges e) (between T e t)
  /-- the parameters of the vertices are converted to the stored ones -/
  nodes : ∀ e < (ends c).length, 0 < T.edges e →
    G.toFace (T.edges e) (T.faces 0) (T.edgeParams e 0 0) (T.faceParams 0 0) = T.faceParams 0 (tail c e) ∧
      G.toFace (T.edges e) (T.faces 0) (T.edgeParams e 1 0) (T.faceParams 0 0) = T.faceParams 0 (head c e)

/-- Where edge `e` belongs: on its curve, on its surface, or on the straight line between the vertices. -/
noncomputable def edgeTarget (G : Cad) (T : Tree) (c : Eclass) (e : Nat) (t : ℝ) : Pt :=
  if 0 < T.edges e then G.curve (T.edges e) (between T e t)
  else if 0 < T.edges (e + (ends c).length) then
    G.surf (T.edges (e + (ends c).length)) ((1 - t) • T.edgeParams e 0 + t • T.edgeParams e 1)
  else (1 - t) • T.V (tail c e) + t • T.V (head c e)

/-- The parameters of the face between those of its vertices. -/
def faceBetween (T : Tree) : Eclass → Prm → Prm
  | .quad, r => ((1 - r 0) * (1 - r 1)) • T.faceParams 0 0 + (r 0 * (1 - r 1)) • T.faceParams 0 1 + ((1 - r 0) * r 1) • T.faceParams 0 2 +
      (r 0 * r 1) • T.faceParams 0 3
  | _, r => (1 - r 0) • T.faceParams 0 0 + (r 0 - r 1) • T.faceParams 0 1 + r 1 • T.faceParams 0 2

/-- The point is in the reference triangle. -/
def InTriangle (r : Prm) : Prop := 0 ≤ r 1 ∧ r 1 ≤ r 0 ∧ r 0 ≤ 1

end T8.CadGeometry.Planar
