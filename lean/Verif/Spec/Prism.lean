/-
Specification: prisms of the default scheme as point sets. A prism is the product of a triangle (Spec/Simplex.lean) and
of a line (Spec/Dline.lean) of the same level. The coordinates of the triangle and of the line have different scales
(`2^29` and `2^30` for the root).
-/
import Verif.Model.Prism
import Verif.Spec.Simplex
import Verif.Spec.Dline

namespace T8.Prism

/-- `e` is an element of the tree: triangle and line are elements of their trees and have the same level, at most 21. -/
def Valid (e : Prism) : Prop :=
  Simplex.Valid .tri e.1 ∧ Dline.Valid e.2 ∧ e.1.level = e.2.level ∧ e.2.level ≤ maxLevel

/-- The points of a prism. -/
def Points (e : Prism) : Set ((Fin 2 → Nat) × Nat) := {p | p.1 ∈ Simplex.Points .tri e.1 ∧ p.2 ∈ Dline.Points e.2}

/-- The faces: 0 to 2 are the products of the faces of the triangle with the line, 3 and 4 the triangles at the ends of
the line. -/
def Face (e : Prism) (f : Nat) : Set ((Fin 2 → Nat) × Nat) :=
  if f < 3 then {p | p.1 ∈ Simplex.Face .tri e.1 f ∧ p.2 ∈ Dline.Points e.2}
  else {p | p.1 ∈ Simplex.Points .tri e.1 ∧ p.2 ∈ Dline.Face e.2 (f - 3)}

/-- A quad of the tree of p4est: inside of the root square of length `2^30`, at a multiple of its edge length. -/
def Quad.Valid (q : Quad) : Prop :=
  q.level ≤ quadRootLevel ∧ (q.x.toNat < 2 ^ quadRootLevel ∧ 2 ^ (quadRootLevel - q.level) ∣ q.x.toNat) ∧
    (q.y.toNat < 2 ^ quadRootLevel ∧ 2 ^ (quadRootLevel - q.level) ∣ q.y.toNat)

/-- The points of the square. -/
def Quad.Points (q : Quad) : Set (Nat × Nat) :=
  {p | (q.x.toNat ≤ p.1 ∧ p.1 ≤ q.x.toNat + 2 ^ (quadRootLevel - q.level)) ∧
    (q.y.toNat ≤ p.2 ∧ p.2 ≤ q.y.toNat + 2 ^ (quadRootLevel - q.level))}

/-- The points of the faces 0 to 2 of the root in the coordinates of the quad: a coordinate of the triangle, rescaled,
and the coordinate of the line. -/
def faceMap (g : Nat) (p : (Fin 2 → Nat) × Nat) : Nat × Nat := (2 * (if g = 0 then p.1 1 else p.1 0), p.2)

end T8.Prism
