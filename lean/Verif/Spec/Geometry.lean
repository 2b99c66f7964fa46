/-
Specification for the coordinates of the elements: the corners of the elements as points of their tree, and what it means
that the vertices of two trees fit together at a common face.
-/
import Verif.Spec.FaceGluing
import Verif.Model.Geometry

namespace T8.Geometry
open Neighbor

/-- Corner `v` of an element, in the integer coordinates of its class (see `rootLength`). -/
def cornerPoint (S : P4ests) : Element → Nat → Fin 3 → Nat
  | .vertex _, _, _ => 0
  | .line l, v, k => if k.val = 0 then l.x.toNat + v * 2 ^ (30 - l.level) else 0
  | .quad q, v, k => if h : k.val < 2 then (q.coords ⟨k.val, h⟩).toNat + v / 2 ^ k.val % 2 * 2 ^ (30 - q.level) else 0
  | .triangle t, v, k => if h : k.val < 2 then Simplex.corner .tri t v (⟨k.val, h⟩ : Fin 2) else 0
  | .hex e, v, k => (e.coords k).toNat + v / 2 ^ k.val % 2 * 2 ^ (S.M - e.level)
  | .tet t, v, k => Simplex.corner .tet t v k
  | .prism p, v, k =>
    if h : k.val < 2 then Simplex.corner .tri p.1 (v % 3) (⟨k.val, h⟩ : Fin 2) else p.2.x.toNat + v / 3 * 2 ^ (30 - p.2.level)
  | .pyramid p, v, k => Pyramid.corner p v k

/-- A point of the tree in the coordinates of the reference tree of length 1. -/
def toRef (S : P4ests) (c : Eclass) (p : Fin 3 → Nat) : Point := fun k => (p k : ℚ) / (rootLength S c k.val : ℚ)

/-- Corner `i` of face `F` of a tree of class `c`, as a point of the tree. -/
def rootFaceCorner (S : P4ests) (c : Eclass) (F i : Nat) : Fin 3 → Nat :=
  fun k => rootLength S c k.val * unit c (((faceVertices c).getD F []).getD i 0) k.val

/-- The vertices of two joined trees fit together: corners of the two faces that are the same point of the mesh have the same
coordinates. -/
def Matched (S : P4ests) (b c : Eclass) (F : Nat) (c' : Eclass) (F' o : Nat) (V V' : Nat → Point) : Prop :=
  ∀ i j, i < b.numVertices → j < b.numVertices →
    Glued S b c F c' F' o (rootFaceCorner S c F i) (rootFaceCorner S c' F' j) →
    V (((faceVertices c).getD F []).getD i 0) = V' (((faceVertices c').getD F' []).getD j 0)

end T8.Geometry
