import Mathlib.Algebra.Module.Pi
import Mathlib.LinearAlgebra.Span.Defs
import Verif.Model.Lagrange

/-!
# Specification: nodes and polynomials of Lagrange geometries
-/

namespace T8.Lagrange
open T8

/-- The classes and degrees that are implemented. -/
def Implemented (c : Eclass) (d : Nat) : Prop := (c = .line ∨ c = .triangle ∨ c = .quad ∨ c = .hex) ∧ (d = 1 ∨ d = 2)

/-- The positions of the nodes in the reference elements in units of 1/2, from the pictures in t8_geometry_lagrange.hxx:164-313. -/
def grid : Eclass → List (Nat × Nat × Nat)
  | .line => [(0, 0, 0), (2, 0, 0), (1, 0, 0)]
  | .triangle => [(0, 0, 0), (2, 0, 0), (2, 2, 0), (2, 1, 0), (1, 1, 0), (1, 0, 0)]
  | .quad => [(0, 0, 0), (2, 0, 0), (0, 2, 0), (2, 2, 0), (0, 1, 0), (2, 1, 0), (1, 0, 0), (1, 2, 0), (1, 1, 0)]
  | .hex => [(0, 0, 0), (2, 0, 0), (0, 2, 0), (2, 2, 0), (0, 0, 2), (2, 0, 2), (0, 2, 2), (2, 2, 2),
      (0, 2, 1), (0, 0, 1), (0, 1, 0), (0, 1, 2), (0, 1, 1), (2, 0, 1), (2, 2, 1), (2, 1, 0), (2, 1, 2), (2, 1, 1),
      (1, 0, 0), (1, 0, 2), (1, 0, 1), (1, 2, 0), (1, 2, 2), (1, 2, 1), (1, 1, 0), (1, 1, 2), (1, 1, 1)]
  | _ => []

/-- The number of nodes. -/
def numNodes : Eclass → Nat → Nat
  | .line, d => if d = 1 then 2 else 3
  | .triangle, d => if d = 1 then 3 else 6
  | .quad, d => if d = 1 then 4 else 9
  | .hex, d => if d = 1 then 8 else 27
  | _, _ => 0

/-- The position of node `n` in the reference element. -/
noncomputable def node (c : Eclass) (n : Nat) : Pt :=
  let g := (grid c).getD n (0, 0, 0)
  ![(g.1 : ℝ) / 2, (g.2.1 : ℝ) / 2, (g.2.2 : ℝ) / 2]

/-- A monomial. -/
def mono (e : Nat × Nat × Nat) : Pt → ℝ := fun r => r 0 ^ e.1 * r 1 ^ e.2.1 * r 2 ^ e.2.2

/-- The exponents of the polynomials of degree `d`: the sum of the exponents is bounded for triangles, each exponent for the others. -/
def Exponent : Eclass → Nat → Nat × Nat × Nat → Prop
  | .line, d, e => e.1 ≤ d ∧ e.2.1 = 0 ∧ e.2.2 = 0
  | .triangle, d, e => e.1 + e.2.1 ≤ d ∧ e.2.2 = 0
  | .quad, d, e => e.1 ≤ d ∧ e.2.1 ≤ d ∧ e.2.2 = 0
  | .hex, d, e => e.1 ≤ d ∧ e.2.1 ≤ d ∧ e.2.2 ≤ d
  | _, _, _ => False

/-- The polynomials of degree `d`. -/
def Poly (c : Eclass) (d : Nat) : Submodule ℝ (Pt → ℝ) := Submodule.span ℝ {m | ∃ e, Exponent c d e ∧ m = mono e}

/-- The faces of the reference elements. -/
def OnFace : Eclass → Nat → Pt → Prop
  | .triangle, f, r => r 2 = 0 ∧ (f = 0 ∧ r 0 = 1 ∨ f = 1 ∧ r 0 = r 1 ∨ f = 2 ∧ r 1 = 0)
  | .quad, f, r => r 2 = 0 ∧ (f = 0 ∧ r 0 = 0 ∨ f = 1 ∧ r 0 = 1 ∨ f = 2 ∧ r 1 = 0 ∨ f = 3 ∧ r 1 = 1)
  | .hex, f, r => f = 0 ∧ r 0 = 0 ∨ f = 1 ∧ r 0 = 1 ∨ f = 2 ∧ r 1 = 0 ∨ f = 3 ∧ r 1 = 1 ∨ f = 4 ∧ r 2 = 0 ∨ f = 5 ∧ r 2 = 1
  | _, _, _ => False

end T8.Lagrange
