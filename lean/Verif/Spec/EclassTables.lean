import Mathlib.Data.Fin.VecNotation
import Verif.Model.Eclass

/-!
# Specification: the reference elements

The reference elements are convex hulls of points.  Faces and edges are defined with affine functions that support them, without any table.
-/

namespace T8.Tables
open T8

/-- Points with integer coordinates. -/
abbrev IPt := Fin 3 → Int

/-- The vertices of the reference elements, as in the pictures of the documentation: squares and cubes in the order of the coordinates, simplices as halves and
sixths of them. -/
def refVertices : Eclass → List IPt
  | .vertex => [![0, 0, 0]]
  | .line => [![0, 0, 0], ![1, 0, 0]]
  | .quad => [![0, 0, 0], ![1, 0, 0], ![0, 1, 0], ![1, 1, 0]]
  | .triangle => [![0, 0, 0], ![1, 0, 0], ![1, 1, 0]]
  | .hex => [![0, 0, 0], ![1, 0, 0], ![0, 1, 0], ![1, 1, 0], ![0, 0, 1], ![1, 0, 1], ![0, 1, 1], ![1, 1, 1]]
  | .tet => [![0, 0, 0], ![1, 0, 0], ![1, 0, 1], ![1, 1, 1]]
  | .prism => [![0, 0, 0], ![1, 0, 0], ![1, 1, 0], ![0, 0, 1], ![1, 0, 1], ![1, 1, 1]]
  | .pyramid => [![0, 0, 0], ![1, 0, 0], ![0, 1, 0], ![1, 1, 0], ![1, 1, 1]]

/-- Vertex `v` of the reference element. -/
def ref (c : Eclass) (v : Nat) : IPt := (refVertices c).getD v ![0, 0, 0]

/-- Number of vertices of the reference element. -/
def card (c : Eclass) : Nat := (refVertices c).length

/-- Scalar product. -/
def dot (a b : IPt) : Int := a 0 * b 0 + a 1 * b 1 + a 2 * b 2

/-- Cross product. -/
def cross (a b : IPt) : IPt := ![a 1 * b 2 - a 2 * b 1, a 2 * b 0 - a 0 * b 2, a 0 * b 1 - a 1 * b 0]

/-- The vertices in `S` are those where an affine function attains its minimum 0. -/
def Supported (c : Eclass) (S : List Nat) : Prop :=
  ∃ (a : IPt) (b : Int), ∀ v < card c, (v ∈ S → dot a (ref c v) + b = 0) ∧ (v ∉ S → 0 < dot a (ref c v) + b)

/-- Some vertex of the element is not in `S`. -/
def Proper (c : Eclass) (S : List Nat) : Prop := ∃ v < card c, v ∉ S

/-- The faces of codimension one: the maximal proper supported sets of vertices. -/
def IsFacet (c : Eclass) (S : List Nat) : Prop :=
  (∃ v < card c, v ∈ S) ∧ Supported c S ∧ Proper c S ∧
    ∀ S', Supported c S' → Proper c S' → (∀ v < card c, v ∈ S → v ∈ S') → ∀ v < card c, v ∈ S' → v ∈ S

/-- The edges of the reference element: supported pairs of vertices. -/
def IsEdge (c : Eclass) (v w : Nat) : Prop := v < card c ∧ w < card c ∧ v ≠ w ∧ Supported c [v, w]

end T8.Tables
