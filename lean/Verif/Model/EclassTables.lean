import Verif.Model.FaceNeighbor

/-!
# Model: tables of the element classes

The tables of src/t8_eclass/t8_eclass.h that are not in Model/Eclass.lean and Model/FaceNeighbor.lean.  Rows are written as in the initializers; entries that
are not listed there are 0, as in C.
-/

namespace T8.Tables
open T8

/-- Access to a table; entries that are not listed are 0. -/
def entry (t : List (List Int)) (i j : Nat) : Int := (t.getD i []).getD j 0

/-- `t8_eclass_num_edges`, t8_eclass.h:171. -/
def numEdges : Eclass → Nat
  | .vertex => 0 | .line => 1 | .quad => 4 | .triangle => 3 | .hex => 12 | .tet => 6 | .prism => 9 | .pyramid => 8

/-- `t8_face_edge_to_tree_edge`, t8_eclass.h:111-120. -/
def faceEdges : Eclass → List (List Int)
  | .vertex => [[-1]]
  | .line => [[0]]
  | .quad => [[0], [1], [2], [3]]
  | .triangle => [[0], [1], [2]]
  | .hex => [[8, 10, 4, 6], [9, 11, 5, 7], [8, 9, 0, 2], [10, 11, 1, 3], [4, 5, 0, 1], [6, 7, 2, 3]]
  | .tet => [[3, 4, 5], [1, 2, 5], [0, 2, 4], [0, 1, 3]]
  | .prism => [[0, 7, 3, 6], [1, 8, 4, 7], [2, 6, 5, 8], [0, 1, 2], [3, 4, 5]]
  | .pyramid => [[-1]]

/-- `t8_face_to_edge_neighbor`, t8_eclass.h:122-131. -/
def faceToEdgeNeighbor : Eclass → List (List Int)
  | .vertex => [[-1]]
  | .line => [[-1]]
  | .quad => [[2, 3], [2, 3], [0, 1], [0, 1]]
  | .triangle => [[2, 1], [2, 0], [1, 0]]
  | .hex => [[0, 1, 2, 3], [0, 1, 2, 3], [4, 5, 6, 7], [4, 5, 6, 7], [8, 9, 10, 11], [8, 9, 10, 11]]
  | .tet => [[0, 1, 2], [0, 3, 4], [1, 3, 5], [2, 4, 5]]
  | .prism => [[1, 2, 4, 5], [0, 2, 3, 5], [0, 1, 3, 4], [6, 7, 8], [6, 7, 8]]
  | .pyramid => [[-1]]

/-- `t8_edge_vertex_to_tree_vertex`, t8_eclass.h:133-142. -/
def edgeVertices : Eclass → List (List Int)
  | .vertex => [[-1]]
  | .line => [[0], [1]]
  | .quad => [[0, 2], [1, 3], [0, 1], [2, 3]]
  | .triangle => [[1, 2], [0, 2], [0, 1]]
  | .hex => [[0, 1], [2, 3], [4, 5], [6, 7], [0, 2], [1, 3], [4, 6], [5, 7], [0, 4], [1, 5], [2, 6], [3, 7]]
  | .tet => [[0, 1], [0, 2], [0, 3], [1, 2], [1, 3], [2, 3]]
  | .prism => [[1, 2], [0, 2], [0, 1], [4, 5], [3, 5], [3, 4], [1, 4], [2, 5], [0, 3]]
  | .pyramid => [[-1]]

/-- `t8_edge_to_face`, t8_eclass.h:144-153. -/
def edgeToFace : Eclass → List (List Int)
  | .vertex => [[-1]]
  | .line => [[0]]
  | .quad => [[0], [1], [2], [3]]
  | .triangle => [[0], [1], [2]]
  | .hex => [[2, 4], [3, 4], [2, 5], [3, 5], [0, 4], [1, 4], [0, 5], [1, 5], [0, 2], [1, 2], [0, 3], [1, 3]]
  | .tet => [[2, 3], [1, 3], [1, 2], [0, 3], [0, 2], [0, 1]]
  | .prism => [[0, 3], [1, 3], [2, 3], [0, 4], [1, 4], [2, 4], [0, 2], [0, 1], [1, 2]]
  | .pyramid => [[-1]]

/-- `t8_reference_face_normal_tet`, t8_eclass.h:166. -/
def tetNormals : List (List Int) := [[-1, 0, 0], [1, 0, -1], [0, -1, 1], [0, 1, 0]]

/-- `t8_eclass_vtk_to_t8_corner_number`, t8_eclass.h:175-184, without the entries -1. -/
def vtkToT8 : Eclass → List Nat
  | .vertex => [0]
  | .line => [0, 1]
  | .quad => [0, 1, 3, 2]
  | .triangle => [0, 1, 2]
  | .hex => [0, 1, 3, 2, 4, 5, 7, 6]
  | .tet => [0, 2, 1, 3]
  | .prism => [0, 2, 1, 3, 5, 4]
  | .pyramid => [0, 1, 3, 2, 4]

/-- `t8_eclass_t8_to_vtk_corner_number`, t8_eclass.h:186-195, without the entries -1. -/
def t8ToVtk : Eclass → List Nat
  | .vertex => [0]
  | .line => [0, 1]
  | .quad => [0, 1, 3, 2]
  | .triangle => [0, 1, 2]
  | .hex => [0, 1, 3, 2, 4, 5, 7, 6]
  | .tet => [0, 2, 1, 3]
  | .prism => [0, 2, 1, 3, 5, 4]
  | .pyramid => [0, 1, 3, 2, 4]

/-- `t8_eclass_boundary_count`, t8_eclass.h:208-217; columns are the classes in their order. -/
def boundaryCount : Eclass → List Nat
  | .vertex => [0, 0, 0, 0, 0, 0, 0, 0]
  | .line => [2, 0, 0, 0, 0, 0, 0, 0]
  | .quad => [4, 4, 0, 0, 0, 0, 0, 0]
  | .triangle => [3, 3, 0, 0, 0, 0, 0, 0]
  | .hex => [8, 12, 6, 0, 0, 0, 0, 0]
  | .tet => [4, 6, 0, 4, 0, 0, 0, 0]
  | .prism => [6, 9, 3, 2, 0, 0, 0, 0]
  | .pyramid => [5, 8, 1, 4, 0, 0, 0, 0]

end T8.Tables
