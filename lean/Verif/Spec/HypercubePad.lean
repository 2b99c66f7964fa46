/-
Specification for the meshes of `t8_cmesh_new_hypercube_pad_ext`: the vertices of the trees are points of a grid, the box is the image
of the grid under the multilinear map through its corners, and two trees are joined at a face if it is the same face of the grid.
-/
import Verif.Model.HypercubePad
import Verif.Spec.Geometry
import Mathlib.Algebra.BigOperators.Group.Finset.Basic

namespace T8.HypercubePad
open Neighbor

/-- A point of the grid. -/
abbrev GridPoint := Fin 3 → Int

section Interpolation
variable {K : Type} [Field K]

/-- The multilinear map that sends the corners of the grid box with `n k` cubes in direction `k` to the vertices of the boundary. -/
def interp (dim : Nat) (n : Fin 3 → Nat) (boundary : Nat → Fin 3 → K) (p : GridPoint) : Fin 3 → K :=
  fun j => ∑ w ∈ Finset.range (2 ^ dim), (∏ k : Fin 3, if dim ≤ k.val then 1 else
    if w / 2 ^ k.val % 2 = 0 then 1 - (p k : K) / (n k : K) else (p k : K) / (n k : K)) * boundary w j

end Interpolation

/-- Vertex `v` of tree number `s` of a cube, as a number of a corner of the cube, see the pictures at t8_cmesh_examples.h:187-197 and
`t8_cmesh_new_hypercube`. -/
def subVertex (c : Eclass) (s v : Nat) : Nat :=
  match c with
  | .triangle => ([[0, 1, 3], [0, 3, 2]].getD s []).getD v 0
  | .tet => ([[0, 1, 5, 7], [0, 3, 1, 7], [0, 2, 3, 7], [0, 6, 2, 7], [0, 4, 6, 7], [0, 5, 4, 7]].getD s []).getD v 0
  | .prism => ([[0, 1, 3, 4, 5, 7], [0, 3, 2, 4, 7, 6]].getD s []).getD v 0
  | _ => v

/-- Corner `w` of the unit cube. -/
def cubeCorner (w : Nat) : GridPoint := fun k => ((w / 2 ^ k.val % 2 : Nat) : Int)

/-- The cubes are numbered along the x-axis first, then along the y-axis. -/
def cubeOf (nx ny q : Nat) : GridPoint :=
  fun k => if k = 0 then ((q % nx : Nat) : Int) else if k = 1 then ((q / nx % ny : Nat) : Int) else ((q / (nx * ny) : Nat) : Int)

/-- Vertex `v` of tree `t` as a point of the grid. -/
def gridVertex (c : Eclass) (nx ny t v : Nat) : GridPoint :=
  cubeOf nx ny (t / treesPerCube c) + cubeCorner (subVertex c (t % treesPerCube c) v)

/-- The vertices of face `F` of tree `t`. -/
def gridFace (c : Eclass) (nx ny t F : Nat) : List GridPoint := ((faceVertices c).getD F []).map (gridVertex c nx ny t)

/-- The translations that the periodic directions allow. -/
def Period (n : Fin 3 → Nat) (per : Fin 3 → Bool) (L : GridPoint) : Prop :=
  ∀ k, ∃ z : Int, L k = z * n k ∧ (per k = false → z = 0)

/-- Both faces are the same after the translation `L`. -/
def SameFace (c : Eclass) (nx ny t F t' F' : Nat) (L : GridPoint) : Prop := ∀ p, p ∈ gridFace c nx ny t F ↔ p - L ∈ gridFace c nx ny t' F'

/-- The vertices that are stored for a tree: two opposite ones for the axis-aligned geometry, see t8_geometry_linear_axis_aligned.hxx, and
all of them otherwise. -/
def storedVertices (c : Eclass) (aligned : Bool) : List Nat := if aligned then [0, c.numVertices - 1] else List.range c.numVertices

/-- The counts of cubes and the periodicity in the directions that the class does not have. -/
structure Counts (dim nx ny nz : Nat) (px py pz : Bool) : Prop where
  x : 0 < nx ∧ (dim < 1 → nx = 1 ∧ px = false)
  y : 0 < ny ∧ (dim < 2 → ny = 1 ∧ py = false)
  z : 0 < nz ∧ (dim < 3 → nz = 1 ∧ pz = false)

end T8.HypercubePad
