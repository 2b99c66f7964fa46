/-
Specification: triangles and tetrahedra of the default scheme as point sets.

Every simplex of type `t` is one of the `d!` simplices into which a cube is divided by the order of the
coordinates: with the coordinates `q` of a point relative to the anchor of the cube, it consists of the points
with `h ≥ q (a₁) ≥ … ≥ q (a_d) ≥ 0`, where `a₁, …, a_d` is the order of the axes that belongs to the type.
-/
import Verif.Model.Simplex
import Verif.Spec.Hypercube
import Mathlib.Data.Set.Basic

namespace T8.Simplex

/-- The order of the axes of a type. -/
def axes : Cls → Nat → List Nat
  | .tri, 0 => [0, 1]
  | .tri, _ => [1, 0]
  | .tet, 0 => [0, 2, 1]
  | .tet, 1 => [0, 1, 2]
  | .tet, 2 => [1, 0, 2]
  | .tet, 3 => [1, 2, 0]
  | .tet, 4 => [2, 1, 0]
  | .tet, _ => [2, 0, 1]

variable (c : Cls)

/-- The place of axis `i` in the order of a type, counted from 1. -/
def rank (t : Nat) (i : Fin c.dim) : Nat := (axes c t).idxOf i.val + 1

/-- The cube of an element. -/
def Elem.cube {d : Nat} (e : Elem d) : Standalone.Elem d := ⟨e.x, e.level⟩

/-- The length of the edges of the cube. -/
def size (l : Nat) : Nat := 2 ^ (c.maxLevel - l)

/-- The points of an element. -/
def Points (e : Elem c.dim) : Set (Fin c.dim → Nat) :=
  {p | (∀ i, (e.x i).toNat ≤ p i ∧ p i ≤ (e.x i).toNat + size c e.level) ∧
    ∀ i j, rank c e.type i < rank c e.type j → p j + (e.x i).toNat ≤ p i + (e.x j).toNat}

/-- The corner number `k`: the first `k` axes in the order of the type are maximal. -/
def corner (e : Elem c.dim) (k : Nat) : Fin c.dim → Nat :=
  fun i => (e.x i).toNat + if rank c e.type i ≤ k then size c e.level else 0

/-- `e` is an element of the tree: its cube is one of the cubes of its level (`Standalone.Valid`), its type is a
type, and it lies inside of the root. -/
def Valid (e : Elem c.dim) : Prop :=
  Standalone.Valid c.maxLevel e.cube ∧ e.type < c.numTypes ∧ Points c e ⊆ Points c (root c)

/-- The face number `f`, opposite to the corner number `f`: relative to the anchor, the coordinates of the axes number
`f` and `f + 1` agree, where the axis number 0 stands for the edge length and the axis number `d + 1` for zero. -/
def Face (e : Elem c.dim) (f : Nat) : Set (Fin c.dim → Nat) :=
  {p | p ∈ Points c e ∧
    (f = 0 → ∀ i, rank c e.type i = 1 → p i = (e.x i).toNat + size c e.level) ∧
    (f = c.dim → ∀ i, rank c e.type i = c.dim → p i = (e.x i).toNat) ∧
    ∀ i j, rank c e.type i = f → rank c e.type j = f + 1 → p i + (e.x j).toNat = p j + (e.x i).toNat}

/-- The line that face `g` of the root triangle is: the end points of the line are the corners of the face in their
order, scaled to the length of the root line. -/
def faceMapTri (g : Nat) (p : Fin 2 → Nat) : Nat := 2 * if g = 0 then p 1 else p 0

/-- The triangle that face `g` of the root tetrahedron is: the corners of the root triangle are the corners of the
face in their order, scaled to the length of the root triangle. -/
def faceMapTet (g : Nat) (p : Fin 3 → Nat) : Fin 2 → Nat :=
  fun i => 2 ^ 8 * if i.val = 0 then (if g = 0 then p 2 else p 0) else (if g = 3 then p 2 else p 1)

/-- The barycentric coordinates of a point of the triangle with the corners `(0, 0)`, `(R, 0)`, `(R, R)`, times `R`. -/
def triWeight (R : Int) (p : Int × Int) (i : Nat) : Int := if i = 0 then R - p.1 else if i = 1 then p.1 - p.2 else p.2

/-- The symmetry of the triangle that sends corner 0 to corner `o` and keeps the sense of rotation (corner `i` goes to
`i + o`) or changes it (corner `i` goes to `o - i`, modulo 3): corner `j` of the image has the coordinate of its
preimage. -/
def triSymmetry (R : Int) (o : Nat) (sign : Bool) (p : Int × Int) : Int × Int :=
  let w (j : Nat) : Int := triWeight R p (if sign then (o + 3 - j) % 3 else (j + 3 - o) % 3)
  (w 1 + w 2, w 2)

end T8.Simplex
