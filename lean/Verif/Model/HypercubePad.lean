/-
Model of `t8_cmesh_new_hypercube_pad_ext`, src/t8_cmesh/t8_cmesh_examples.cxx:895-1541, and of the functions that it uses: a box
is divided into `polygons_x` times `polygons_y` times `polygons_z` cubes, and each cube into trees.

Simplifications: `double` numbers are elements of an arbitrary ordered field `K`, without rounding. The norm of a vector is a
parameter. A division by zero (in `double` arithmetic: infinity or not a number) ends the computation with `none`, and so do failing
assertions and `SC_ABORTF`. The integer types are `Nat` and `Int`. The arrays of vertices and vectors, with three entries for each,
become functions from the number of the vertex or vector. The mesh is the list of calls of `t8_cmesh_set_tree_vertices` and the list
of face connections that `t8_cmesh_set_join` stores; commit and partition are not part of this model.
-/
import Verif.Model.Loop
import Verif.Model.FaceNeighbor
import Verif.Model.Stash
import Mathlib.Algebra.Order.Field.Basic
import Mathlib.Algebra.Module.Pi

namespace T8.HypercubePad
open Neighbor

/-! ### Tables -/

/-- `t8_face_edge_to_tree_edge`, src/t8_eclass/t8_eclass.h:111-120, for quads and hexahedra. -/
def faceEdges : Eclass → List (List Nat)
  | .quad => [[0], [1], [2], [3]]
  | .hex => [[8, 10, 4, 6], [9, 11, 5, 7], [8, 9, 0, 2], [10, 11, 1, 3], [4, 5, 0, 1], [6, 7, 2, 3]]
  | _ => []

/-- `t8_face_to_edge_neighbor`, src/t8_eclass/t8_eclass.h:122-131, for quads and hexahedra. -/
def faceToEdgeNeighbor : Eclass → List (List Nat)
  | .quad => [[2, 3], [2, 3], [0, 1], [0, 1]]
  | .hex => [[0, 1, 2, 3], [0, 1, 2, 3], [4, 5, 6, 7], [4, 5, 6, 7], [8, 9, 10, 11], [8, 9, 10, 11]]
  | _ => []

/-- `t8_edge_vertex_to_tree_vertex`, src/t8_eclass/t8_eclass.h:133-142, for quads and hexahedra. -/
def edgeVertices : Eclass → List (List Nat)
  | .quad => [[0, 2], [1, 3], [0, 1], [2, 3]]
  | .hex => [[0, 1], [2, 3], [4, 5], [6, 7], [0, 2], [1, 3], [4, 6], [5, 7], [0, 4], [1, 5], [2, 6], [3, 7]]
  | _ => []

/-- `t8_edge_vertex_to_tree_vertex[eclass][edge][i]`. -/
def edgeVertex (c : Eclass) (e i : Nat) : Nat := ((edgeVertices c).getD e []).getD i 0

/-- `dim == 2 ? T8_ECLASS_QUAD : T8_ECLASS_HEX`, t8_cmesh_examples.cxx:908, 942. -/
def boxClass (dim : Nat) : Eclass := if dim = 2 then .quad else .hex

/-! ### The box -/

section Box
variable {K : Type} [Field K] [LinearOrder K]

/-- The arrays `box`, `box_dir` and `box_quads` or `box_hexs`. -/
structure Box (K : Type) where
  box : Nat → Fin 3 → K
  dir : Nat → Fin 3 → K
  axes : Nat → Int

/-- The part of `axes` that belongs to an edge, t8_cmesh_examples.cxx:918: `axes[(edge / 2 + 1) % 2]` or `axes[edge / 4]`. -/
def edgeAxis (dim e : Nat) : Nat := if dim = 2 then (e / 2 + 1) % 2 else e / 4

/-- The body of the loop of `t8_update_box_face_edges`, t8_cmesh_examples.cxx:911-924. -/
def updateEdge (norm : (Fin 3 → K) → K) (dim : Nat) (B : Box K) (e : Nat) : Option (Box K) :=
  let v1 := B.box (edgeVertex (boxClass dim) e 0)
  let v2 := B.box (edgeVertex (boxClass dim) e 1)
  let dir := v2 + (-1 : K) • v1
  let numCubes : K := (B.axes (edgeAxis dim e) : K)
  let length := norm dir * numCubes
  if length = 0 then none
  else some { B with dir := Function.update B.dir e ((norm (v1 - v2) / length) • dir) }

/-- `t8_update_box_face_edges`, t8_cmesh_examples.cxx:903-925. -/
def updateFace (norm : (Fin 3 → K) → K) (dim face : Nat) (B : Box K) : Option (Box K) :=
  ((faceEdges (boxClass dim)).getD face []).foldlM (updateEdge norm dim) B

/-- The body of the loop of `t8_resize_box`, t8_cmesh_examples.cxx:945-949. -/
def resizeCorner (dim face : Nat) (factor : Int) (B : Box K) (i : Nat) : Box K :=
  let v := ((faceVertices (boxClass dim)).getD face []).getD i 0
  let e := ((faceToEdgeNeighbor (boxClass dim)).getD face []).getD i 0
  { B with box := Function.update B.box v (B.box v + (factor : K) • B.dir e) }

/-- `t8_resize_box`, t8_cmesh_examples.cxx:937-951. -/
def resize (dim face : Nat) (factor : Int) (B : Box K) : Box K :=
  let B := (List.range (if dim = 2 then 2 else 4)).foldl (resizeCorner dim face factor) B
  { B with axes := Function.update B.axes (face / 2) (B.axes (face / 2) + if face % 2 ≠ 0 then factor else -factor) }

/-- `t8_resize_box` followed by `t8_update_box_face_edges`. -/
def move (norm : (Fin 3 → K) → K) (dim face : Nat) (factor : Int) (B : Box K) : Option (Box K) :=
  updateFace norm dim face (resize dim face factor B)

/-- One call of `t8_cmesh_set_tree_vertices`: the tree and its vertices. -/
abbrev Call (K : Type) := Nat × List (Fin 3 → K)

/-- The vertices of the trees inside of a quad, t8_cmesh_examples.cxx:1025-1055; `v` are the vertices of the quad. -/
def trees2D (c : Eclass) (aligned : Bool) (quadsX offset y x : Nat) (v : Nat → Fin 3 → K) : Option (List (Call K)) :=
  if aligned = true ∧ c ≠ .quad then none
  else if c = .quad then
    some [(y * quadsX + x + offset, if aligned then [v 0, v 3] else [v 0, v 1, v 2, v 3])]
  else do
    assertO (c = .triangle)
    let id := (y * quadsX + x) * 2 + offset
    return [(id, [v 0, v 1, v 3]), (id + 1, [v 0, v 3, v 2])]

/-- The body of the inner loop of `t8_cmesh_set_vertices_2D`, t8_cmesh_examples.cxx:1016-1055. -/
def cell2D (norm : (Fin 3 → K) → K) (c : Eclass) (aligned : Bool) (quadsX offset y : Nat) (s : Box K × List (Call K)) (x : Nat) :
    Option (Box K × List (Call K)) := do
  let v0 := s.1.box 0
  let v2 := s.1.dir 0 + (1 : K) • s.1.box 0
  let B ← move norm 2 0 1 s.1
  let v1 := (1 : K) • B.box 0
  let v3 := B.dir 0 + (1 : K) • B.box 0
  let calls ← trees2D c aligned quadsX offset y x fun i => if i = 0 then v0 else if i = 1 then v1 else if i = 2 then v2 else v3
  return (B, s.2 ++ calls)

/-- The body of the outer loop, t8_cmesh_examples.cxx:1014-1070. -/
def row2D (norm : (Fin 3 → K) → K) (c : Eclass) (aligned : Bool) (boundary : Nat → Fin 3 → K) (quadsX quadsY offset : Nat)
    (s : Box K × List (Call K)) (y : Nat) : Option (Box K × List (Call K)) := do
  let s ← (List.range quadsX).foldlM (cell2D norm c aligned quadsX offset y) s
  assertO (s.1.axes 0 = 0)
  assertO (s.1.axes 1 = (quadsY : Int) - y)
  let B : Box K := { s.1 with box := boundary, axes := fun i => if i = 0 then quadsX else quadsY }
  let B ← updateFace norm 2 0 B
  let B ← move norm 2 2 ((y : Int) + 1) B
  return (B, s.2)

/-- `t8_cmesh_set_vertices_2D`, t8_cmesh_examples.cxx:965-1071. Before the first call of `t8_update_box_face_edges` the array
`box_dir` is not initialised; here it starts with zeros, which are not used. -/
def setVertices2D (norm : (Fin 3 → K) → K) (c : Eclass) (aligned : Bool) (boundary : Nat → Fin 3 → K) (quadsX quadsY offset : Nat) :
    Option (List (Call K)) := do
  assertO (c = .quad ∨ c = .triangle)
  assertO (boundary 1 0 > boundary 0 0 ∧ boundary 3 0 > boundary 2 0)
  assertO (boundary 2 1 > boundary 0 1 ∧ boundary 3 1 > boundary 1 1)
  let B : Box K := ⟨boundary, fun _ => 0, fun i => if i = 0 then quadsX else quadsY⟩
  let B ← updateFace norm 2 0 B
  let B ← updateFace norm 2 1 B
  let B ← updateFace norm 2 2 B
  let B ← updateFace norm 2 3 B
  let s ← (List.range quadsY).foldlM (row2D norm c aligned boundary quadsX quadsY offset) (B, [])
  return s.2

/-- The vertices of the trees inside of a hexahedron, t8_cmesh_examples.cxx:1188-1259. -/
def trees3D (c : Eclass) (aligned : Bool) (hexsX hexsY offset z y x : Nat) (v : Nat → Fin 3 → K) : Option (List (Call K)) :=
  if aligned = true ∧ c ≠ .hex then none
  else
    let hexId := z * hexsY * hexsX + y * hexsX + x + offset
    if c = .hex then
      some [(hexId, if aligned then [v 0, v 7] else [v 0, v 1, v 2, v 3, v 4, v 5, v 6, v 7])]
    else if c = .tet then
      let id := hexId * 6 + offset
      some [(id, [v 0, v 1, v 5, v 7]), (id + 1, [v 0, v 3, v 1, v 7]), (id + 2, [v 0, v 2, v 3, v 7]),
        (id + 3, [v 0, v 6, v 2, v 7]), (id + 4, [v 0, v 4, v 6, v 7]), (id + 5, [v 0, v 5, v 4, v 7])]
    else do
      assertO (c = .prism)
      let id := hexId * 2 + offset
      return [(id, [v 0, v 1, v 3, v 4, v 5, v 7]), (id + 1, [v 0, v 3, v 2, v 4, v 7, v 6])]

/-- The body of the innermost loop of `t8_cmesh_set_vertices_3D`, t8_cmesh_examples.cxx:1163-1260. -/
def cell3D (norm : (Fin 3 → K) → K) (c : Eclass) (aligned : Bool) (hexsX hexsY offset z y : Nat) (s : Box K × List (Call K)) (x : Nat) :
    Option (Box K × List (Call K)) := do
  let v0 := s.1.box 0
  let v2 := s.1.dir 4 + (1 : K) • s.1.box 0
  let B ← move norm 3 4 1 s.1
  let v4 := (1 : K) • B.box 0
  let v6 := B.dir 4 + (1 : K) • B.box 0
  let B ← move norm 3 0 1 B
  let v5 := (1 : K) • B.box 0
  let v7 := B.dir 4 + (1 : K) • B.box 0
  let B ← move norm 3 4 (-1) B
  let v1 := (1 : K) • B.box 0
  let v3 := B.dir 4 + (1 : K) • B.box 0
  let calls ← trees3D c aligned hexsX hexsY offset z y x fun i =>
    if i = 0 then v0 else if i = 1 then v1 else if i = 2 then v2 else if i = 3 then v3 else if i = 4 then v4 else if i = 5 then v5
    else if i = 6 then v6 else v7
  return (B, s.2 ++ calls)

/-- The body of the loop over `hex_y_id`, t8_cmesh_examples.cxx:1162-1269. -/
def row3D (norm : (Fin 3 → K) → K) (c : Eclass) (aligned : Bool) (hexsX hexsY offset z : Nat) (s : Box K × List (Call K)) (y : Nat) :
    Option (Box K × List (Call K)) := do
  let s ← (List.range hexsX).foldlM (cell3D norm c aligned hexsX hexsY offset z y) s
  assertO (s.1.axes 0 = 1)
  let B ← move norm 3 0 (-(hexsX : Int)) s.1
  let B ← move norm 3 2 1 B
  return (B, s.2)

/-- The body of the loop over `hex_z_id`, t8_cmesh_examples.cxx:1161-1280. -/
def layer3D (norm : (Fin 3 → K) → K) (c : Eclass) (aligned : Bool) (hexsX hexsY offset : Nat) (s : Box K × List (Call K)) (z : Nat) :
    Option (Box K × List (Call K)) := do
  let s ← (List.range hexsY).foldlM (row3D norm c aligned hexsX hexsY offset z) s
  assertO (s.1.axes 0 = (hexsX : Int) + 1)
  assertO (s.1.axes 1 = 1)
  let B ← move norm 3 2 (-(hexsY : Int)) s.1
  let B ← move norm 3 4 1 B
  return (B, s.2)

/-- The assertions about the twelve edges of the box, t8_cmesh_examples.cxx:1091-1105. -/
def Upright (boundary : Nat → Fin 3 → K) : Prop :=
  (boundary 1 0 > boundary 0 0 ∧ boundary 3 0 > boundary 2 0 ∧ boundary 5 0 > boundary 4 0 ∧ boundary 7 0 > boundary 6 0) ∧
  (boundary 2 1 > boundary 0 1 ∧ boundary 3 1 > boundary 1 1 ∧ boundary 6 1 > boundary 4 1 ∧ boundary 7 1 > boundary 5 1) ∧
  (boundary 4 2 > boundary 0 2 ∧ boundary 5 2 > boundary 1 2 ∧ boundary 6 2 > boundary 2 2 ∧ boundary 7 2 > boundary 3 2)

instance (boundary : Nat → Fin 3 → K) : Decidable (Upright boundary) := by unfold Upright; infer_instance

/-- `t8_cmesh_set_vertices_3D`, t8_cmesh_examples.cxx:1086-1284. -/
def setVertices3D (norm : (Fin 3 → K) → K) (c : Eclass) (aligned : Bool) (boundary : Nat → Fin 3 → K) (hexsX hexsY hexsZ offset : Nat) :
    Option (List (Call K)) := do
  assertO (Upright boundary)
  let B : Box K := ⟨boundary, fun _ => 0, fun i => if i = 0 then hexsX else if i = 1 then hexsY else hexsZ⟩
  let B ← updateFace norm 3 0 B
  let B ← updateFace norm 3 1 B
  let B ← updateFace norm 3 2 B
  let B ← updateFace norm 3 3 B
  let B ← move norm 3 1 1 B
  let B ← move norm 3 3 1 B
  let B ← move norm 3 5 1 B
  let s ← (List.range hexsZ).foldlM (layer3D norm c aligned hexsX hexsY offset) (B, [])
  assertO (s.1.axes 2 = 1)
  assertO (s.1.axes 1 = (hexsY : Int) + 1)
  assertO (s.1.axes 0 = (hexsX : Int) + 1)
  return s.2

/-- The body of the loop over the lines, t8_cmesh_examples.cxx:1377-1382. -/
def lineStep (dir : Fin 3 → K) (offset : Nat) (s : ((Fin 3 → K) × (Fin 3 → K)) × List (Call K)) (x : Nat) :
    ((Fin 3 → K) × (Fin 3 → K)) × List (Call K) :=
  let v := (1 : K) • s.1.2
  ((v, s.1.2 + (1 : K) • dir), s.2 ++ [(x + offset, [s.1.1, s.1.2])])

/-- The vertices of lines, t8_cmesh_examples.cxx:1359-1383. -/
def setVertices1D (norm : (Fin 3 → K) → K) (boundary : Nat → Fin 3 → K) (linesX offset : Nat) : Option (List (Call K)) := do
  assertO (boundary 1 0 > boundary 0 0)
  let dir := boundary 1 + (-1 : K) • boundary 0
  let length := norm dir / (linesX : K)
  let dir := length • dir
  let s := (List.range linesX).foldl (lineStep dir offset) ((boundary 0, boundary 0 + (1 : K) • dir), [])
  return s.2

/-- The vertices of all trees, t8_cmesh_examples.cxx:1350-1391. (In dimension 0 `polygons_x`, and in dimension one and two `polygons_y` and
`polygons_z` are set to 1 before, 1316-1331.) -/
def setVertices (norm : (Fin 3 → K) → K) (c : Eclass) (aligned : Bool) (boundary : Nat → Fin 3 → K) (nx ny nz offset : Nat) :
    Option (List (Call K)) :=
  if c.dim = 3 then do
    assertO (c = .hex ∨ c = .tet ∨ c = .prism)
    setVertices3D norm c aligned boundary nx ny nz offset
  else if c.dim = 2 then setVertices2D norm c aligned boundary nx ny offset
  else if c.dim = 1 then setVertices1D norm boundary nx offset
  else some [(offset, [(1 : K) • boundary 0])]

end Box

/-! ### The face connections -/

/-- A triple loop over `poly_z_id`, `poly_y_id` and `poly_x_id`; the calls of `t8_cmesh_set_join` in the order of the loops. -/
def loops (nz ny nx : Nat) (body : Nat → Nat → Nat → List Stash.JoinFace) : List Stash.JoinFace :=
  (List.range nz).flatMap fun z => (List.range ny).flatMap fun y => (List.range nx).flatMap fun x => body z y x

/-- The trees inside each cube, t8_cmesh_examples.cxx:1393-1416. -/
def joinInside (c : Eclass) (nx ny offset z y x : Nat) : List Stash.JoinFace :=
  let id := z * ny * nx + y * nx + x
  if c = .triangle ∨ c = .prism then
    [Stash.facejoin (id * 2 + offset : Nat) (id * 2 + 1 + offset : Nat) 1 2 0]
  else if c = .tet then
    (List.range 6).map fun i => Stash.facejoin (id * 6 + i + offset : Nat) (id * 6 + (i + 1) % 6 + offset : Nat) 2 1 0
  else []

/-- The trees along the x-axis, t8_cmesh_examples.cxx:1418-1444. -/
def joinX (c : Eclass) (nx ny offset z y x : Nat) : List Stash.JoinFace :=
  let base := z * ny * nx + y * nx
  let id := base + x
  if c = .line ∨ c = .quad ∨ c = .hex then
    [Stash.facejoin (id + offset : Nat) ((if x = nx - 1 then base else id + 1) + offset : Nat) 1 0 0]
  else if c = .triangle ∨ c = .prism then
    [Stash.facejoin (id * 2 + offset : Nat) ((if x = nx - 1 then base * 2 + 1 else id * 2 + 3) + offset : Nat) 0 1 0]
  else
    (List.range 2).map fun i => Stash.facejoin (id * 6 + i + offset : Nat)
      ((if x = nx - 1 then base * 6 + 4 - i else id * 6 + 10 - i) + offset : Nat) 0 3 (if i % 2 = 0 then 0 else 2)

/-- The trees along the y-axis, t8_cmesh_examples.cxx:1446-1473. -/
def joinY (c : Eclass) (nx ny offset z y x : Nat) : List Stash.JoinFace :=
  let base := z * ny * nx + x
  let id := z * ny * nx + y * nx + x
  if c = .quad ∨ c = .hex then
    [Stash.facejoin (id + offset : Nat) ((if y = ny - 1 then base else id + nx) + offset : Nat) 3 2 0]
  else if c = .triangle ∨ c = .prism then
    [Stash.facejoin (id * 2 + 1 + offset : Nat) ((if y = ny - 1 then base * 2 else (id + nx) * 2) + offset : Nat) 0 2 1]
  else
    [Stash.facejoin (id * 6 + 2 + offset : Nat) ((if y = ny - 1 then base * 6 else (id + nx) * 6) + offset : Nat) 0 3 0,
      Stash.facejoin (id * 6 + 3 + offset : Nat) ((if y = ny - 1 then base * 6 + 5 else id * 6 + 6 * nx + 5) + offset : Nat) 0 3 2]

/-- The trees along the z-axis, t8_cmesh_examples.cxx:1475-1506. One of the connections of tetrahedra does not use the offset. -/
def joinZ (c : Eclass) (nx ny nz offset z y x : Nat) : List Stash.JoinFace :=
  let base := y * nx + x
  let id := z * ny * nx + y * nx + x
  if c = .hex then
    [Stash.facejoin (id + offset : Nat) ((if z = nz - 1 then base else id + ny * nx) + offset : Nat) 5 4 0]
  else if c = .tet then
    [Stash.facejoin (id * 6 + 5 : Nat) (if z = nz - 1 then base * 6 + 1 else (id + ny * nx) * 6 + 1 : Nat) 0 3 2,
      Stash.facejoin (id * 6 + 4 + offset : Nat) ((if z = nz - 1 then base * 6 + 2 else (id + ny * nx) * 6 + 2) + offset : Nat) 0 3 0]
  else
    (List.range 2).map fun i => Stash.facejoin (id * 2 + i + offset : Nat)
      ((if z = nz - 1 then base * 2 + i else (id + ny * nx) * 2 + i) + offset : Nat) 4 3 0

/-- The face connections, t8_cmesh_examples.cxx:1393-1506. The assertions about the class in the branches of the loops are stated once:
there are no connections along an axis that the class does not have. -/
def joins (c : Eclass) (nx ny nz : Nat) (px py pz : Bool) (offset : Nat) : Option (List Stash.JoinFace) := do
  assertO (c ≠ .pyramid)
  assertO (0 < nx ∧ 0 < ny ∧ 0 < nz)
  assertO (nx - (if px then 0 else 1) = 0 ∨ 1 ≤ c.dim)
  assertO (ny - (if py then 0 else 1) = 0 ∨ 2 ≤ c.dim)
  assertO (nz - (if pz then 0 else 1) = 0 ∨ 3 ≤ c.dim)
  return loops nz ny nx (joinInside c nx ny offset) ++
    loops nz ny (nx - if px then 0 else 1) (joinX c nx ny offset) ++
    loops nz (ny - if py then 0 else 1) nx (joinY c nx ny offset) ++
    loops (nz - if pz then 0 else 1) ny nx (joinZ c nx ny nz offset)

/-- `num_trees_for_single_hypercube`, t8_cmesh_examples.cxx:1341, without the invalid entry. -/
def treesPerCube : Eclass → Nat
  | .triangle => 2 | .tet => 6 | .prism => 2 | _ => 1

/-- The classes of the trees, t8_cmesh_examples.cxx:1343-1348. -/
def classes (c : Eclass) (nx ny nz : Nat) : List Eclass := List.replicate (nx * ny * nz * treesPerCube c) c

end T8.HypercubePad
