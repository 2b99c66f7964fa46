import Mathlib.Data.Real.Basic
import Mathlib.Data.Fin.VecNotation
import Mathlib.Algebra.BigOperators.Group.List.Basic
import Verif.Model.Eclass

/-!
# Model: Lagrange geometries

`t8_geometry_lagrange` and the faces of `t8_lagrange_element`, src/t8_geometry/t8_geometry_implementations/t8_geometry_lagrange.cxx.  `double` is `ℝ`, aborts are
`none`.
-/

namespace T8.Lagrange
open T8

/-- A point of space or of a reference element. -/
abbrev Pt := Fin 3 → ℝ

/-- `t8_geom_s2_basis`, line 160: line, degree 1. -/
noncomputable def s2 (xi : ℝ) : List ℝ :=
  [1 - xi,
   xi]

/-- `t8_geom_s3_basis`, line 168: line, degree 2. -/
noncomputable def s3 (xi : ℝ) : List ℝ :=
  [(1 - xi) * (1 - 2 * xi),
   xi * (2 * xi - 1),
   4 * xi * (1 - xi)]

/-- `t8_geom_t3_basis`, line 181: triangle, degree 1. -/
noncomputable def t3 (xi eta : ℝ) : List ℝ :=
  [1 - xi,
   xi - eta,
   eta]

/-- `t8_geom_t6_basis`, line 190: triangle, degree 2. -/
noncomputable def t6 (xi eta : ℝ) : List ℝ :=
  [1 - 3 * xi + 2 * xi * xi,
   -xi + eta + 2 * xi * xi + 2 * eta * eta - 4 * xi * eta,
   -eta + 2 * eta * eta,
   -4 * eta * eta + 4 * xi * eta,
   4 * eta - 4 * xi * eta,
   4 * xi - 4 * eta - 4 * xi * xi + 4 * xi * eta]

/-- `t8_geom_q4_basis`, line 207: quad, degree 1. -/
noncomputable def q4 (xi eta : ℝ) : List ℝ :=
  [(1 - xi) * (1 - eta),
   xi * (1 - eta),
   eta * (1 - xi),
   xi * eta]

/-- `t8_geom_q9_basis`, line 222: quad, degree 2. -/
noncomputable def q9 (xi eta : ℝ) : List ℝ :=
  [4 * (eta - 1) * (eta - 1 / 2) * (xi - 1) * (xi - 1 / 2),
   4 * xi * (eta - 1) * (eta - 1 / 2) * (xi - 1 / 2),
   4 * eta * (eta - 1 / 2) * (xi - 1) * (xi - 1 / 2),
   4 * eta * xi * (eta - 1 / 2) * (xi - 1 / 2),
   -8 * eta * (eta - 1) * (xi - 1) * (xi - 1 / 2),
   -8 * eta * xi * (eta - 1) * (xi - 1 / 2),
   -8 * xi * (eta - 1) * (eta - 1 / 2) * (xi - 1),
   -8 * eta * xi * (eta - 1 / 2) * (xi - 1),
   16 * eta * xi * (eta - 1) * (xi - 1)]

/-- `t8_geom_h8_basis`, line 242: hexahedron, degree 1. -/
noncomputable def h8 (xi eta zeta : ℝ) : List ℝ :=
  [(1 - xi) * (1 - eta) * (1 - zeta),
   xi * (1 - eta) * (1 - zeta),
   (1 - xi) * eta * (1 - zeta),
   xi * eta * (1 - zeta),
   (1 - xi) * (1 - eta) * zeta,
   xi * (1 - eta) * zeta,
   (1 - xi) * eta * zeta,
   xi * eta * zeta]

/-- `t8_geom_h27_basis`, line 262: hexahedron, degree 2. -/
noncomputable def h27 (xi eta zeta : ℝ) : List ℝ :=
  [8 * (eta - 1) * (eta - 1 / 2) * (xi - 1) * (xi - 1 / 2) * (zeta - 1) * (zeta - 1 / 2),
   8 * xi * (eta - 1) * (eta - 1 / 2) * (xi - 1 / 2) * (zeta - 1) * (zeta - 1 / 2),
   8 * eta * (eta - 1 / 2) * (xi - 1) * (xi - 1 / 2) * (zeta - 1) * (zeta - 1 / 2),
   8 * eta * xi * (eta - 1 / 2) * (xi - 1 / 2) * (zeta - 1) * (zeta - 1 / 2),
   8 * zeta * (eta - 1) * (eta - 1 / 2) * (xi - 1) * (xi - 1 / 2) * (zeta - 1 / 2),
   8 * xi * zeta * (eta - 1) * (eta - 1 / 2) * (xi - 1 / 2) * (zeta - 1 / 2),
   8 * eta * zeta * (eta - 1 / 2) * (xi - 1) * (xi - 1 / 2) * (zeta - 1 / 2),
   8 * eta * xi * zeta * (eta - 1 / 2) * (xi - 1 / 2) * (zeta - 1 / 2),
   -16 * eta * zeta * (eta - 1 / 2) * (xi - 1) * (xi - 1 / 2) * (zeta - 1),
   -16 * zeta * (eta - 1) * (eta - 1 / 2) * (xi - 1) * (xi - 1 / 2) * (zeta - 1),
   -16 * eta * (eta - 1) * (xi - 1) * (xi - 1 / 2) * (zeta - 1) * (zeta - 1 / 2),
   -16 * eta * zeta * (eta - 1) * (xi - 1) * (xi - 1 / 2) * (zeta - 1 / 2),
   32 * eta * zeta * (eta - 1) * (xi - 1) * (xi - 1 / 2) * (zeta - 1),
   -16 * xi * zeta * (eta - 1) * (eta - 1 / 2) * (xi - 1 / 2) * (zeta - 1),
   -16 * eta * xi * zeta * (eta - 1 / 2) * (xi - 1 / 2) * (zeta - 1),
   -16 * eta * xi * (eta - 1) * (xi - 1 / 2) * (zeta - 1) * (zeta - 1 / 2),
   -16 * eta * xi * zeta * (eta - 1) * (xi - 1 / 2) * (zeta - 1 / 2),
   32 * eta * xi * zeta * (eta - 1) * (xi - 1 / 2) * (zeta - 1),
   -16 * xi * (eta - 1) * (eta - 1 / 2) * (xi - 1) * (zeta - 1) * (zeta - 1 / 2),
   -16 * xi * zeta * (eta - 1) * (eta - 1 / 2) * (xi - 1) * (zeta - 1 / 2),
   32 * xi * zeta * (eta - 1) * (eta - 1 / 2) * (xi - 1) * (zeta - 1),
   -16 * eta * xi * (eta - 1 / 2) * (xi - 1) * (zeta - 1) * (zeta - 1 / 2),
   -16 * eta * xi * zeta * (eta - 1 / 2) * (xi - 1) * (zeta - 1 / 2),
   32 * eta * xi * zeta * (eta - 1 / 2) * (xi - 1) * (zeta - 1),
   32 * eta * xi * (eta - 1) * (xi - 1) * (zeta - 1) * (zeta - 1 / 2),
   32 * eta * xi * zeta * (eta - 1) * (xi - 1) * (zeta - 1 / 2),
   -64 * eta * xi * zeta * (eta - 1) * (xi - 1) * (zeta - 1)]

/-- `t8_geom_compute_basis`, lines 89-137. -/
noncomputable def basis (c : Eclass) (degree : Nat) (r : Pt) : Option (List ℝ) :=
  match c, degree with
  | .line, 1 => some (s2 (r 0))
  | .line, 2 => some (s3 (r 0))
  | .triangle, 1 => some (t3 (r 0) (r 1))
  | .triangle, 2 => some (t6 (r 0) (r 1))
  | .quad, 1 => some (q4 (r 0) (r 1))
  | .quad, 2 => some (q9 (r 0) (r 1))
  | .hex, 1 => some (h8 (r 0) (r 1) (r 2))
  | .hex, 2 => some (h27 (r 0) (r 1) (r 2))
  | _, _ => none

/-- `t8_geom_evaluate`, lines 49-67: the sum of basis functions times coordinates of the nodes. -/
noncomputable def evaluate (c : Eclass) (degree : Nat) (nodes : Nat → Pt) (r : Pt) : Option Pt :=
  (basis c degree r).map fun b i => (b.zipIdx.map fun p => p.1 * nodes p.2 i).foldl (· + ·) 0

/-- `get_face_nodes`, lines 332-381. -/
def faceNodes : Eclass → Nat → Option (List (List Nat))
  | .line, 1 => some [[0], [1]]
  | .line, 2 => some [[0], [1], [2]]
  | .triangle, 1 => some [[1, 2], [2, 0], [0, 1]]
  | .triangle, 2 => some [[1, 2, 3], [2, 0, 4], [0, 1, 5]]
  | .quad, 1 => some [[2, 0], [1, 3], [0, 1], [3, 2]]
  | .quad, 2 => some [[2, 0, 4], [1, 3, 5], [0, 1, 6], [3, 2, 7]]
  | .hex, 1 => some [[2, 0, 6, 4], [1, 3, 5, 7], [0, 1, 4, 5], [3, 2, 7, 6], [2, 3, 0, 1], [4, 5, 6, 7]]
  | .hex, 2 => some [[2, 0, 6, 4, 8, 9, 10, 11, 12], [1, 3, 5, 7, 13, 14, 15, 16, 17], [0, 1, 4, 5, 9, 13, 18, 19, 20],
      [3, 2, 7, 6, 14, 8, 21, 22, 23], [2, 3, 0, 1, 10, 15, 21, 18, 24], [4, 5, 6, 7, 11, 16, 19, 22, 25]]
  | _, _ => none

/-- `face_classes`, lines 382-414, for the classes that occur in `faceNodes`. -/
def faceClass : Eclass → Eclass
  | .line => .vertex
  | .triangle => .line
  | .quad => .line
  | .hex => .quad
  | c => c

/-- `get_node_coords` and `decompose`, lines 420-449: the nodes of face `f`. -/
def faceElement (c : Eclass) (degree : Nat) (nodes : Nat → Pt) (f : Nat) : Option (Nat → Pt) :=
  (faceNodes c degree).map fun F i => nodes ((F.getD f []).getD i 0)

/-- `map_on_face`, lines 459-523: from the reference element of a face of class `c` to face `f` of the reference element of class `onto`.  Faces that are not
treated leave the result uninitialized, which is `none`. -/
def mapOnFace (c onto : Eclass) (f : Nat) (r : Pt) : Option Pt :=
  let xi := r 0
  let eta := r 1
  match c, onto with
  | .line, .triangle => [![1, xi, 0], ![1 - xi, 1 - xi, 0], ![xi, 0, 0]][f]?
  | .line, .quad => [![0, 1 - xi, 0], ![1, xi, 0], ![xi, 0, 0], ![1 - xi, 1, 0]][f]?
  | .quad, .hex => [![0, 1 - xi, eta], ![1, xi, eta], ![xi, 0, eta], ![1 - xi, 1, eta], ![xi, 1 - eta, 0], ![xi, eta, 1]][f]?
  | _, _ => none

end T8.Lagrange
