/-
Specification: the elements of the refinement of a pyramid in the default scheme, as point sets.

A pyramid of type 6 stands on the bottom face of its cube and has its apex at the corner opposite to the anchor; a
pyramid of type 7 hangs from the top face and has its apex at the anchor. The tetrahedra are those of Spec/Simplex.lean.
-/
import Verif.Model.Pyramid
import Verif.Spec.Simplex

namespace T8.Pyramid

/-- `e` is an element of the tree: the root, or one of the 10 children of a pyramid or of the 8 children of a
tetrahedron of the tree. -/
inductive Valid : Elem → Prop
  | root : Valid root
  | child (e : Elem) (i : Nat) : Valid e → e.level < 21 → i < (if 6 ≤ e.type then 10 else 8) → Valid (child e i)

/-- The points of an element: with the coordinates relative to the anchor, `x ≥ z` and `y ≥ z` for pyramids of type 6,
`x ≤ z` and `y ≤ z` for pyramids of type 7. -/
def Points (e : Elem) : Set (Fin 3 → Nat) :=
  if 6 ≤ e.type then
    {p | (∀ i, (e.tet.x i).toNat ≤ p i ∧ p i ≤ (e.tet.x i).toNat + 2 ^ (21 - e.level)) ∧
      ∀ i : Fin 3, i ≠ 2 →
        if e.type = 6 then p 2 + (e.tet.x i).toNat ≤ p i + (e.tet.x 2).toNat
        else p i + (e.tet.x 2).toNat ≤ p 2 + (e.tet.x i).toNat}
  else Simplex.Points .tet e.tet

/-- The corners of a pyramid: 0 to 3 those of the square face, 4 the apex. -/
def pyraCorner (e : Elem) (v : Nat) : Fin 3 → Nat := fun i =>
  (e.tet.x i).toNat + 2 ^ (21 - e.level) *
    (if v < 4 then (if i.val < 2 then v / 2 ^ i.val % 2 else if e.type = 6 then 0 else 1) else if e.type = 6 then 1 else 0)

end T8.Pyramid
