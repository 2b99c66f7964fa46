/-
Specification for the face connections found from the coordinates of the vertices: two faces are connected if they have the same
vertices.
-/
import Verif.Model.JoinByVertices
import Verif.Spec.Geometry

namespace T8.JoinByVertices
open Neighbor Geometry

variable (I : Input)

/-- A face of the mesh: the numbers of tree and face exist. -/
def Input.IsFace (x : Nat × Nat) : Prop := ∃ c, I.classes[x.1]? = some c ∧ x.2 < c.numFaces

/-- The vertices of a face, as points, in the order of the table `t8_face_vertex_to_tree_vertex`. -/
def Input.points (x : Nat × Nat) : List Point :=
  match I.classes[x.1]? with
  | some c => ((faceVertices c).getD x.2 []).map (I.V x.1)
  | none => []

/-- Two faces have the same vertices. -/
def SameFace (x y : Nat × Nat) : Prop := ∀ p, p ∈ I.points x ↔ p ∈ I.points y

/-- A mesh whose trees have the same dimension, whose faces have different vertices, and with at most two trees at a face. -/
structure Proper (dim : Nat) : Prop where
  dim_le : dim ≤ 3
  dim_eq : ∀ c ∈ I.classes, c.dim = dim
  nodup : ∀ x, I.IsFace x → (I.points x).Nodup
  manifold : ∀ x y z, I.IsFace x → I.IsFace y → I.IsFace z → x ≠ y → x ≠ z → SameFace I x y → SameFace I x z → y = z

/-- The tolerance identifies vertices if and only if they are equal. -/
def Separated (A : Arith) : Prop := ∀ x y p q, I.IsFace x → I.IsFace y → p ∈ I.points x → q ∈ I.points y →
  ((∀ k, A.close I.minCoord I.maxCoord (p k) (q k) = true) ↔ p = q)

/-- The orientation as defined at t8_cmesh.h:342: corner 0 of the main face is corner `o` of the other face. (If both faces have the
same class of tree and the same number, then each of them can be taken as the main face.) -/
def IsOrientation (x y : Nat × Nat) (o : Nat) : Prop := ∃ c c', I.classes[x.1]? = some c ∧ I.classes[y.1]? = some c' ∧
  ((Main c x.2 c' y.2 ∧ ∃ p, (I.points x)[0]? = some p ∧ (I.points y)[o]? = some p) ∨
    (Main c' y.2 c x.2 ∧ ∃ p, (I.points y)[0]? = some p ∧ (I.points x)[o]? = some p))

/-- The trees at both sides of each face lie on opposite sides of it: the corners of the faces are matched by one of the symmetries
that the definition of the orientation allows. In meshes of dimension one and two this is no restriction (`C60_oriented`). -/
def Oriented (S : P4ests) : Prop := ∀ x y c c' b, I.IsFace x → I.IsFace y → x ≠ y → SameFace I x y → I.classes[x.1]? = some c →
  I.classes[y.1]? = some c' → faceType c x.2 = some b → ∃ o < b.numVertices, Matched S b c x.2 c' y.2 o (I.V x.1) (I.V y.1)

end T8.JoinByVertices
