/-
Specification: the faces of the elements of the refinement of a pyramid, as point sets.

With the coordinates relative to the anchor and `h` for the edge length, the faces 0 to 3 of a pyramid of type 6 lie in the
planes `x = z`, `x = h`, `y = z`, `y = h`, and the square face 4 lies in `z = 0`; those of a pyramid of type 7 lie in
`y = z`, `y = 0`, `x = z`, `x = 0`, and the square face lies in `z = h`. The faces of the tetrahedra are those of
Spec/Simplex.lean.
-/
import Verif.Spec.Pyramid

namespace T8.Pyramid

/-- The planes of the faces of the pyramids; `q`: the coordinates relative to the anchor. -/
def OnPlane (type f : Nat) (h : Int) (q : Fin 3 → Int) : Prop :=
  if type = 6 then
    if f = 0 then q 0 = q 2 else if f = 1 then q 0 = h else if f = 2 then q 1 = q 2 else if f = 3 then q 1 = h else q 2 = 0
  else
    if f = 0 then q 1 = q 2 else if f = 1 then q 1 = 0 else if f = 2 then q 0 = q 2 else if f = 3 then q 0 = 0 else q 2 = h

/-- The face number `f` of an element. -/
def Face (e : Elem) (f : Nat) : Set (Fin 3 → Nat) :=
  if 6 ≤ e.type then
    {p | p ∈ Points e ∧ OnPlane e.type f (2 ^ (21 - e.level)) (fun i => (p i : Int) - ((e.tet.x i).toNat : Int))}
  else Simplex.Face .tet e.tet f

/-- The corners of an element, in the numbering of the code. -/
def corner (e : Elem) (k : Nat) : Fin 3 → Nat := if 6 ≤ e.type then pyraCorner e k else Simplex.corner .tet e.tet k

/-- Face `g` of `x` lies in face `f` of `e`. -/
def InFace (x : Elem) (g : Nat) (e : Elem) (f : Nat) : Prop :=
  g < (if 6 ≤ x.type then 5 else 4) ∧ f < (if 6 ≤ e.type then 5 else 4) ∧ Face x g ⊆ Face e f

/-- The triangle that face `g < 4` of the root pyramid is, scaled to the length of the root triangle: the first coordinate
is `y` for the faces 0 and 1, `x` for the faces 2 and 3, the second coordinate is `z`. -/
def faceMapTri (g : Nat) (p : Fin 3 → Nat) : Fin 2 → Nat :=
  fun i => 2 ^ 8 * if i.val = 0 then (if g < 2 then p 1 else p 0) else p 2

/-- The square that face 4 of the root pyramid is, scaled to the length of the root quad. -/
def faceMapQuad (p : Fin 3 → Nat) : Nat × Nat := (2 ^ 9 * p 0, 2 ^ 9 * p 1)

end T8.Pyramid
