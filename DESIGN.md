# Formal model of t8code in Lean 4: design

The subject is DLR-AMR/t8code at the pinned commit in /repo. The code is read as text only.
This file says what is modelled, how each property of `properties.jsonl` is stated and proved,
and what has to be trusted.

## Layout

* `lean/Verif/Spec/`   small specifications, written without reference to the code.
* `lean/Verif/Model/`  the model of the code; each definition cites file and lines in /repo.
* `lean/Verif/Lemmas/` helper lemmas.
* `lean/Verif/Props/`  the property theorems (one file per area) with an `example` beside each
  theorem showing that its hypotheses are met by a concrete case.
* `MANIFEST.json` maps each property id to its theorems and status.

## Modelling approach

* **Elements.** Integer coordinates of elements are `BitVec 32` (the C type is `int32_t`) where the code
  does bit manipulation on them. Levels are `Nat`. Functions writing through an output pointer become
  functions returning the new value.
* **Schemes.** The forest code calls element functions through the `t8_scheme` interface. The forest model is
  written over a structure `Scheme` with these functions as fields. `Scheme.Lawful` states the laws the
  forest algorithms rely on. Each concrete scheme that is modelled is proved lawful, so the forest
  theorems apply to it.
* **Callbacks** (adapt, search, query, weight, replace) are arbitrary functions of an arbitrary state type:
  a theorem about every callback covers every stateful user function.
* **MPI.** A program on P processes is modelled as one local function per rank plus the set of
  messages each rank posts and expects. Collective calls (allgather, scan, allreduce) are modelled by
  their result. Message transport is assumed reliable and order preserving per pair of ranks.
* **Assertions.** `T8_ASSERT` conditions are stated as hypotheses of theorems or proved. Where the code would
  index out of bounds or loop forever, the model returns a distinct outcome (`none` / error constructor).
* **Loops** without an obvious structural argument are modelled with fuel and proved to terminate
  with enough fuel, or by well-founded recursion.

## Plan per property

| id | model | proof idea |
|----|-------|-----------|
| C01 | concrete schemes (standalone hypercube in any dimension, line, triangle, tetrahedron, prism, pyramid) | bit-level case analysis |
| C02-C04, C07-C09 | same; generic consequences over a lawful scheme | induction over the path from the root |
| C05 | nca of the hypercube (bit trick) and of the simplices | highest differing bit is where the paths separate |
| C06 | family tests | bit-level; where the code accepts non-families, negation by a witness plus a partial theorem |
| C10-C14 | face functions of the standalone, line, triangle schemes | coordinate arithmetic |
| C15 | byte level pack/unpack | induction over the list |
| C16, C31, C40, C41 | uniform bounds arithmetic, populate | floor-division lemmas; 64 bit words for C40 |
| C17-C19 | adapt loop with oracle callback | rewriting relation on leaf lists, tilings as an inductive predicate |
| C20 | is_incomplete_family | curve order and ancestor intervals |
| C21, C22 | offset computation, weights over exact rationals | monotone floor; floating point only through an abstract rounding function |
| C23-C25 | partition messages per pair of ranks | interval intersection, concatenation of slices |
| C26 | pfc offset correction | families as intervals of indices |
| C27 | find_owner loop | loop invariant "owner in [lower, upper]", measure upper - lower |
| C28-C30 | tree offset table | arithmetic on consistent tables, binary search invariants |
| C32, C34, C36, C38, C39 | binary searches and array queries | sortedness of ids along a leaf list |
| C33, C48 | recursive search and face iteration | induction on levels left / leaves below an element |
| C35 | iterate_replace | the sweep of `Adapted` with the report of each step (`Replaced`); induction over it: the loop makes these calls (`C35_tree`, `C35_forest`) |
| C37 | balance loop on all processes over an abstract neighbour relation, with the model of adapt inside | the number of refinements up to the largest level decreases in each round; at the end no leaf asks for refinement; `C37_balance`, `C37_unchanged`, `C37_unchanged_test`, `C37_is_balanced` |
| C42 | vector_split | loop invariant |
| C43 | vector handler | induction over the list |
| C44 | stash | normal form, lexicographic order |
| C45 | vertex connectivity | induction over trees |
| C46 | eclass table | whole finite table |
| C47 | reference counts | invariant: count = user references + pointers from live objects |
| C49 | owners_at_face | recursion on the level |
| C50 | is_equal | list equality |
| C51 | creation of element_offsets, tree_offsets, global_first_desc; tree_shared | the created arrays satisfy the specification that C27 and C49 assume; induction over the sequence of leaves |
| C52 | t8_forest_element_face_neighbor, _neighbor_eclass, t8_cmesh_get_face_neighbor, encoding of the face connections at commit | the laws C10, C11, C12 of all eight classes are collected into laws of the default scheme (Lemmas/FaceNeighbor), the connections of a committed mesh are those that were set (Lemmas/CmeshJoin); extrude, transform and boundary face are then inverted step by step |
| C53 | the same, and the tables t8_face_vertex_to_tree_vertex, t8_eclass_face_orientation | gluing of two trees is defined by the corners of their faces (Spec/FaceGluing); the points are followed through boundary face, transformation and extrusion |
| C54 | t8_forest_leaf_face_neighbors_ext, its callback, and t8_forest_iterate_faces | the leaves at the face are defined by descent and containment of faces (Spec/LeafNeighbors); the face iteration (C48) on the leaves below the same-level neighbor or its ancestor leaf; a leaf that contains the neighbor has a face that covers the common face, because the neighbor is a sibling or the parents are neighbors (`Lifts`, proved for each class). False if local leaves and ghosts are at the same face |
| C55 | t8_forest_ghost_fill_remote(_v3), its search callback, t8_ghost_add_remote | which leaves share a face is defined by the same-level neighbor, descent and containment of faces (Spec/Ghost); the search theorem C33 and the owner theorems C27, C49; invariant: the bounds of an element contain the owners of its descendants and of the elements at its faces on the other side; neighbors of descendants are below the element or below its neighbor (laws `Neighborhood`, proved in Lemmas/DefaultForest for all classes of the default scheme and all conforming coarse meshes, with neighbors across trees); partial because of the read behind the end of the array of first descendants (C27) and because versions 1 and 2 do not work |
| C56 | t8_forest_ghost_send_start, t8_forest_ghost_parse_received_message, t8_forest_ghost_receive | messages are lists of bytes with padding (Model/GhostMessage), the layout of elements is a parameter with the law that valid elements can be read back (Codec.Lawful), proved for the structs of the default scheme (Model/ElementBytes); a message is the number of trees followed by one block for each tree; invariant of the ghost trees (Layer.Good) under the insertion of trees with ascending numbers; invariant of the receiving loop for an arbitrary order of arrival: exactly the messages before the first missing one are parsed; the senders are the remote processes by C55 |
| C57 | t8_forest_ghost_exchange_fill_send_buffer, t8_forest_ghost_exchange_begin, t8_forest_ghost_exchange_data, t8_forest_get_local_id, the functions to look up ghosts | arrays of values of any type (Model/GhostExchange); the local trees of a process have consecutive numbers, so the index of an element in the array is the offset of its tree plus the stored index; the buffer for a process has the values of the leaves that were sent to it (C55), which are the ghosts of this process in order (C56); by induction over the remote processes the array is filled from left to right |
| C58 | t8_forest_ghost_create_ext, t8_forest_partition and the arrays of t8_forest_commit put together, with the balance loop on top (Model/ForestLib) | the parts of C21, C23, C37, C51, C55, C56 are connected: a list of local trees of all processes that are sorted and tile the trees determines a distributed forest (`distOf`), for which the arrays match; so each contract of C37 holds with the models in place of the parameters (`lib_lawful`), and the invariant `Ok` is kept by refinement and partition. Without ghost algorithms for incomplete forests, balance of incomplete forests on several processes is not covered here (C37 covers it with a ghost layer as parameter) |
| C59 | vertex and point reference coordinates of the eight classes, the tables of reference corners and centroids, the linear geometry, t8_forest_element_coordinate / from_ref_coords / centroid / linear_centroid, element_get_face_corner (Model/Geometry) | corners as integer points of the tree (Spec/Geometry); affine in the reference element for the centroids; for the continuity the geometry restricted to a face is the linear geometry of the face class in the coordinates `faceCoord` of C53, and the symmetries of C53 permute the corners of the face; for the corners of neighbors: the corners of a face are the points of the face in the grid of the level, and gluing keeps the grid. `double` is modelled by ℚ. `_partial`: stretch factors, see Findings |
| C60 | t8_cmesh_set_join_by_vertices with hash, tolerance, matching of vertices, orientation (Model/JoinByVertices) | faces as sets of points (Spec/JoinByVertices); the bin of a coordinate and the comparison with the tolerance are arbitrary functions, so each rounding is covered; the hash is a sum over a permutation of the vertices; counting matches gives equality of the vertices; invariant of the loop over the faces; the orientation is unique among the symmetries of C53, which gives the hypothesis of C59 |
| C61 | tests for points inside elements (Model/PointInside, Model/Measure) | convex hulls and affine images of the reference tree (Spec/PointInside); an element is an affine image of its reference element with determinant ± det / 8^level (Lemmas/Frame); the test of a face is the sign of a determinant in the reference element; the faces of the four reference elements bound exactly the convex hull of their corners; Cramer's rule for triangles |
| C62 | volumes, face areas, face centroids and normals (Model/Measure) | reference volumes, scalar product, what the directions of a tree span, affine trees (Spec/Measure); the volume of an element is the reference volume of its shape times the volume of the tree over 2^(dim·level) (`C62_volume`; in dimension one and two for every square root with sqrt(4x) = 2 sqrt(x)); children and leaves by induction on refinements (`C62_children`, `C62_leaves`, `C62_leaves_dim3`); outer normals in dimension one, two and three (`C62_normal`); closed surface and theorem of Gauss via cofactors and tables of the reference elements (`C62_closed`, `C62_gauss`, in dimension three, for every positive square root); equal areas and centroids and opposite normals on the two sides of a face from C59 and C52 (`C62_across`) |
| C63 | `t8_cmesh_new_hypercube_pad_ext`: the moving box that yields the vertices, and the loops over the face connections (Model/HypercubePad) | points of the grid, the multilinear map through the corners of the boundary, the subdivision of a cube as in the pictures of the header, faces of the grid, translations of the periodic directions (Spec/HypercubePad); connections: `C63_joins` (conforming; connected iff the same face of the grid; orientations right, in the sense of C53), `C63_matched` (the hypothesis `AllMatched` of C59, C61 and C62 holds for these meshes). The tables of the 1 + 3 kinds of connections inside a cube and between neighbours are checked by evaluation, the counts of cubes are arbitrary. Vertices: invariant of the moving box over an ordered field (`C63_vertices_2D`, `C63_vertices_parallelepiped`, `C63_vertices_3D_partial`, `C63_vertices_1D_partial`); partial because the claim is false for lines and some boxes in dimension three, see the findings |
| C64 | the evaluation of CAD geometries for hexahedra, tetrahedra and prisms with the factors of the helpers (Model/CadGeometry) | numbering of edges and faces, points of edges and faces, what it means that curves and surfaces fit to the vertices and to each other (Spec/CadGeometry) | the loops as sums; each term vanishes or cancels on the edge or face |
| C65 | the evaluation of CAD geometries for batches of points of quads and triangles (Model/CadPlanar) | corners and edges of the reference elements, what it means that curves and surfaces fit (Spec/CadPlanar) | all four or three edges in the loop: the edge of the point contributes its displacement, the others vanish since the point is a vertex for them |
| C66 | the tables of t8_eclass.h as they are written there, missing entries are 0 as in C (Model/EclassTables) | reference vertices, sets of vertices where an affine function attains its minimum, faces as maximal proper sets of this kind, edges as pairs (Spec/EclassTables) | an affine function that is nonnegative at the vertices is positive off one of the faces (signs of its coefficients); non-edges by linear arithmetic; the incidences are checked for all entries |
| C67 | basis functions and evaluation of the Lagrange geometry, the decomposition into faces and the map to a face (Model/Lagrange) | positions of the nodes from the pictures, polynomials as spans of monomials, faces of the reference elements (Spec/Lagrange) | monomials are reproduced (identities of polynomials), the rest by linearity; faces by identities of polynomials for each face |
| C68 | evaluation of the disk, sphere, shell and ball geometries, the vector functions they call (Model/Sphere) | the point of a sphere in a direction, faces of cubes around the origin, the direction with equal angles (Spec/Sphere) | the normal and the tripod of a cube face are unit vectors along the axes; `tan` is odd and strictly increasing, `tan (π/4) = 1`; the blending of the disk by scalar products with the first vertex |
| C69 | vertices of the trees of the disk, sphere, shell and ball meshes, rotation matrices (Model/SphereMesh) | Spec/Sphere; directions of points of the cube `[-1, 1]^3` | the rotations are written out; each tree meets the hypotheses of the theorems of C68; sides between trees of a ball by comparing vertices |

## What is modelled so far

| model file | code in /repo | simplifications |
|---|---|---|
| `Model/CmeshOffset` | `t8_cmesh_offset.c` | table as a function/list of 64 bit values in `Int` |
| `Model/Standalone` | `t8_standalone_implementation.hxx` for vertex, line, quad, hex | the template is instantiated for hypercubes only (the only classes registered in the scheme) |
| `Model/UniformBounds` | `t8_cmesh.cxx` 1408-1760, `t8_cmesh_get_first_element_of_process` | coarse mesh replicated; `long double` through an abstract rounding function |
| `Model/Populate` | `t8_forest_populate` | leaves as lists, no profiling |
| `Model/VectorSplit` | `t8_vector_algorithms.hxx` | iterators as positions; sizes truncated to the width of the category type |
| `Model/VectorHandler` | `t8_vector_handler.hxx` | one `MPI_INT` takes four bytes in a message |
| `Model/Eclass` | `t8_eclass.c`: dimension, vertex and face numbers, compare | |
| `Model/Stash` | `t8_cmesh_stash.c`; attribute memory: `t8_cmesh_trees_finish_part`, `_add_attribute`, `_get_attribute`, `t8_cmesh_add_attributes` | replicated mesh, one part, no ghosts; byte memory; libsc sort and search by their documented behaviour |
| `Model/VertexConn` | `t8_cmesh_vertex_conn_vertex_to_tree.cxx`, constructor of `t8_cmesh_vertex_conn_tree_to_vertex` | the unordered map is a list traversed in an arbitrary order |
| `Model/RefCount` | `t8_forest.cxx`: init, ref, unref, reset, setters, commit; `t8_forest_balance`: its intermediate forests | a heap of objects with counts; the user's references are a ghost variable; `set_from` is cleared just before instead of just after its reference is released |
| `Model/Adapt` | `t8_forest_adapt.cxx`, `t8_forest_is_incomplete_family` | element arrays as lists; MPI enabled; the debug test `t8_forest_is_family_callback` left out |
| `Model/Partition` | `t8_forest_partition.cxx` 622-1440: ranges, packing, send and receive loops, partition of data | a message is its tree infos and element bytes, without padding; receiving a message that nobody posts is `none` |
| `Model/PartitionOffset` | `t8_forest_partition_compute_new_offset` | doubles as rationals with a rounding function (no overflow, no subnormal numbers); weights as lists; `MPI_Exscan` sums by rank |
| `Model/LeafSearch` | `t8_forest_private.cxx` 74-232, `t8_element_array_find`, `t8_forest_split_array`, `t8_forest_element_has_leaf_desc` | arrays as lists; `std::upper_bound`, `std::lower_bound`, `sc_array_split` by their documentation (`none` if the array is not partitioned as required) |
| `Model/ForestTrees` | `t8_forest.cxx`: `compute_elements_offset`, `get_leaf_element`, `is_equal`, `no_overlap` | indices unbounded; `sc_array_bsearch` by its documentation; lifetime of the temporary element in `no_overlap` as a flag |
| `Model/Search` | `t8_forest_search` (`t8_forest_iterate.cxx` 222-402), `t8_search_base::do_search` and the query methods of the search classes | callbacks are functions of the whole history of calls and answers (they may have any state); trees and arrays as lists |
| `Model/FaceIterate` | `t8_forest_iterate_faces`, `t8_forest_element_is_leaf_or_ghost` | callbacks as for the search; the face functions of the scheme through the laws in `Spec/Face` |
| `Model/Owner` | `t8_forest_element_check_owner`, `_find_owner_ext`, `_find_owner`, `_owners_at_face(_recursion)`, `_owners_bounds`, `_owners_at_face_bounds` | specification: a forest whose leaves are distributed over processes (`DistForest`), the documented content of `tree_offsets`, `element_offsets` and `global_first_desc` (`Arrays`). C51 proves that the library's own functions produce this content. `t8_linearidx_t` is a natural number. |
| `Model/ForestArrays` | `t8_forest_compute_desc`, `t8_forest_tree_shared`, `t8_forest_partition_create_offsets`, `_create_tree_offsets`, `_create_first_desc`, `t8_forest_compute_first_local_element_id` | collective operations: the model gets the local forests of all processes, a gather puts the contributions one after the other. Proved: the arrays satisfy `DistForest.Arrays`, the hypothesis of C27 and C49. Not modelled: for incomplete trees, the first descendant of a process whose first local tree has no leaves. |
| `Model/Pfc` | `t8_forest_partition_for_coarsening.cxx`, `t8_forest_pfc_helper.cxx`, `t8_forest_pfc_message::fill` | all processes at once; receiving a message is reading what the sender sends to this process; packing of messages left out; indices unbounded; `t8_shmem_array_allgatherv` writes the contributions in the order of the ranks |
| `Model/Replace` | `t8_forest_iterate_replace` | result: the list of the calls of the callback with the number of the tree; assertions of debugging mode included; the check in lines 448-457 left out (never compiled) |
| `Model/Balance` | `t8_forest_balance`, `t8_forest_balance_adapt`, `t8_forest_is_balanced`, `t8_forest_compute_max_element_level`, `t8_forest_element_half_face_neighbors` | all processes at once; adapt is the function of `Model/Adapt`, the search for leaves that of `Model/LeafSearch`; the same-level face neighbour, the ghost layer and partition are parameters with contracts (`Lib.Lawful`); profiling left out |
| Model/DefaultCommon.lean, Model/Dvertex.lean, Model/Dline.lean | src/t8_schemes/t8_default/t8_default_common, t8_default_vertex (t8_dvertex.h, t8_default_vertex.cxx), t8_default_line (t8_dline.h, t8_dline_bits.c, t8_default_line.cxx) | coordinates are 32 bit words, ids 64 bit words; levels are natural numbers; out-arguments become results; the reference coordinates (floating point) are left out |
| Model/Simplex.lean | src/t8_schemes/t8_default/t8_default_tri (t8_dtri.h, t8_dtri_bits.c, t8_dtri_connectivity.c, t8_default_tri.cxx) and t8_default_tet (the same files; t8_dtri_bits.c is compiled for both) | one model with the class as parameter; coordinates 32 bit words, ids 64 bit words, level and type natural numbers; reads outside of a table give 0; assertions that only repeat preconditions left out, other assertions give `none`. Specification: simplices as sets of points (Spec/Simplex.lean) |
| Model/SimplexFaces.lean | the face functions in the same files of t8_default_tri and t8_default_tet | face neighbours, boundary and extrusion, transformation, children, parents and descendants at faces. Reads outside of a table give 0; results that the code leaves unset are `none`. Specification: a face is the set of points of the element whose barycentric coordinate of the opposite corner vanishes (`Face`), `faceMapTri`, `faceMapTet` identify the faces of the root with the root of the lower dimension, `triSymmetry` is the symmetry of the triangle |
| Model/Prism.lean | src/t8_schemes/t8_default/t8_default_prism (t8_dprism.h, t8_dprism_bits.c, t8_default_prism.cxx) | a prism is a pair of a triangle and a line; the functions call those of the factors. The quads at the faces 0 to 2 are the coordinates and the level of a `p4est_quadrant_t`, `P4EST_ROOT_LEN` is 2^30. The comparison of ids in `t8_dprism_first_descendant` (debugging mode) is left out |
| Model/Pyramid.lean | src/t8_schemes/t8_default/t8_default_pyramid (t8_dpyramid.h, t8_dpyramid_bits.c, t8_dpyramid_connectivity.c, t8_default_pyramid.cxx) | an element is a simplex record with the type 6 or 7 for pyramids and `switch_shape_at_level`; the mutual recursion of `t8_dpyramid_ancestor` and `t8_dpyramid_type_at_level` is unrolled, the recursion of the nearest common ancestor has a fixed depth. `Valid` (Spec/Pyramid.lean) is reachability from the root. The values of the `pow` calls are the exact powers. |
| Model/PyramidFaces.lean | same directory (t8_dpyramid_bits.c: lines 331, 594-940, 942-1100, 1106-1320, 1322-1400; t8_dpyramid_connectivity.c tables) | face functions; -1 as `none`; outputs that are not written and failing assertions as `none` |
| Model/Cube.lean | src/t8_schemes/t8_default/t8_default_quad/t8_default_quad.cxx, t8_default_hex/t8_default_hex.cxx | the functions that the classes write themselves; the p4est and p8est functions they call are an interface (`P4est`), of which only the documented behaviour is assumed (`P4est.Documented`, Spec/P4est.lean; Lemmas/P4estReference.lean shows that it can be satisfied); the maximum level of p8est (`P8EST_MAXLEVEL`) is any number from 18 to 30 |
| Model/FaceNeighbor.lean | src/t8_forest/t8_forest.cxx (`t8_forest_element_neighbor_eclass`, `t8_forest_element_face_neighbor`), src/t8_cmesh/t8_cmesh.cxx (`t8_cmesh_get_face_neighbor`, `_get_tree_face_neighbor_eclass`, `_tree_face_is_boundary`), t8_cmesh_trees.cxx (`t8_cmesh_tree_to_face_encode`, `_decode`), t8_cmesh_commit.cxx:178-192, tables of t8_eclass.h | the default scheme as a whole: one type for the elements of the eight classes; the coarse mesh is replicated, local tree numbers are global tree numbers; the entries of `tree_to_face` are 8 bit |
| Model/LeafNeighbors.lean | src/t8_forest/t8_forest.cxx 1598-2010 (`t8_forest_leaf_face_neighbors_ext`, `t8_forest_leaf_face_neighbors_iterate`) | the same-level neighbor and the bounds on the owners are inputs; the result is the list of neighbor, dual face and index; memory of the result left out |
| Model/Ghost.lean | src/t8_forest/t8_forest_ghost.cxx 478-921, src/t8_forest/t8_forest.cxx 2747-2812 | the hash table of the remote processes with its array is one list; the two arrays of a remote tree are one list of pairs; the same-level neighbor is a parameter; not initialised memory is `none`; memory management left out |
| Model/Geometry.lean | `element_get_vertex_reference_coords`, `element_get_reference_coords`, `element_get_face_corner` of the default scheme, src/t8_element/t8_element.cxx (tables), src/t8_geometry/t8_geometry_helpers.c 32-192, src/t8_forest/t8_forest.cxx 403-548 | `double` is ℚ without rounding; one point per call, except for the stretched coordinates; the vertices of a tree are a function from their number to a point; the distance computations (`t8_forest_element_diam` and volumes) are left out |
| Model/JoinByVertices.lean | src/t8_cmesh/t8_cmesh_helpers.cxx 36-257 | `double` is ℚ, the results of bin and comparison are arbitrary functions; the array of vertices is a function of tree, vertex and coordinate; `int` numbers of trees are not bounded; `t8_cmesh_set_join_by_stash` (which only copies the vertices from the stash) is left out |
| Model/Measure.lean | src/t8_forest/t8_forest.cxx 466-1066, src/t8_types/t8_vec.hxx | `double` is ℚ; the square root is a parameter |
| Model/PointInside.lean | src/t8_geometry/t8_geometry_helpers.c 196-234, 549-676, t8_geometry_linear.cxx 59-201, t8_geometry_linear_axis_aligned.cxx 79-112, t8_forest.cxx 1072 | `double` is ℚ, with infinities and NaN for the quotients of the triangle test (determinant +0); one point instead of a batch; `T8_ASSERT` and the warnings of the debug mode left out |
| Model/HypercubePad.lean | src/t8_cmesh/t8_cmesh_examples.cxx 895-1541, src/t8_eclass/t8_eclass.h 111-142 | `double` is any ordered field, divisions by zero are `none`; the norm is a parameter; the mesh is the list of calls of `t8_cmesh_set_tree_vertices` and `t8_cmesh_set_join`; partition and commit left out |
| Model/CadGeometry.lean | src/t8_geometry/t8_geometry_implementations/t8_geometry_cad.cxx 56-59, 699-1400, src/t8_geometry/t8_geometry_helpers.c 236-260, 385-545 | `double` is `ℝ`; the CAD kernel is a parameter; one point of a batch; `0/0` is 0 |
| Model/CadPlanar.lean | src/t8_geometry/t8_geometry_implementations/t8_geometry_cad.cxx 289-697, src/t8_geometry/t8_geometry_helpers.c 262-390 | `double` is `ℝ`; the CAD kernel is a parameter; reads behind an array and the surface number 0 give `none`; `0/0` is 0 |
| Model/EclassTables.lean | src/t8_eclass/t8_eclass.h 92-217 | none |
| Model/Lagrange.lean | src/t8_geometry/t8_geometry_implementations/t8_geometry_lagrange.cxx 49-325, 332-523 | `double` is `ℝ`; aborts are `none` |
| Model/Sphere.lean | src/t8_geometry/t8_geometry_implementations/t8_geometry_examples.cxx 32-341, src/t8_types/t8_vec.hxx 75-95, 217-227, 259-310 | `double` is `ℝ`, `tan`, `sqrt` and `M_PI` are the functions and the constant of real analysis; the class of the bottom stands for the class of a tree of a shell |
| Model/SphereMesh.lean | src/t8_cmesh/t8_cmesh_examples.cxx 2914-3012, 3241-3396, 3570-3850, src/t8_helper_functions/t8_mat.h 37-112 | `double` is `ℝ`, `cos` and `sin` are exact; only the vertices, not the joins (C60) |

## Findings (places where the code does not do what the property says)

* C01: `t8_dline_child_id` asserts `level < T8_DLINE_MAXLEVEL`, so builds with assertions abort on the child id of a valid line of maximum level (`C01_line_child_id_debug`).
* C06: `elements_are_family` of the standalone scheme answers yes for a level-0 "family" (`C06_standalone_level_zero`).
* C01: `element_get_anchor` of prisms (t8_default_prism.cxx:390) divides the coordinates by the length of the root before it multiplies
  them with the length of the root of prisms, so that the result is 0 for all elements (`C01_prism_anchor_wrong`).
* C03: `t8_dtri_predecessor` (triangles and tetrahedra) goes to the level above when the new local index is 0 instead of when the old
  one is: it fails for the second child of the root and gives wrong elements (`C03_simplex_predecessor_wrong`). The scheme does not use it.
* C06: the family tests of triangles and tetrahedra accept arrays that are not families, because the type of the last element is not
  tested (triangles: `&&` between the three comparisons of types). The last child of a neighbouring element in the same cube is
  taken for the last child (`C06_simplex_wrong`). For consecutive leaves of a complete tree the test is right (`C06_simplex_partial`),
  so adaptation of complete forests is not affected; `Scheme.Lawful` requires the family test to be right for such arrays only,
  and the theorems on adaptation ask for a complete tree, or for a test that is right everywhere (`ExactFamilies`: lines,
  vertices, the standalone scheme). Forests with holes (`incomplete_trees`) are adapted with `t8_forest_is_incomplete_family`, which does
  not use this test.
* C09: `element_count_leaves` of tetrahedra and of prisms from the root to the maximum level overflows (`C09_tet_overflow`,
  `C09_prism_overflow`).
* C09: the number of elements of the maximum level of a pyramid, 2^64 - 6^21, does not fit into a `t8_gloidx_t`
  (`C09_pyramid_overflow`).
* C14: for a tetrahedron in the refinement of a pyramid and its own level, the first descendant at face 0 and the last descendant at
  face 3 are not written: the loop of `t8_dpyramid_corner_descendant` (t8_dpyramid_bits.c:942) does not run (`C14_pyramid_wrong`). The
  forest code asks for the descendants of the maximum level, so this happens for leaves of the maximum level.
* C12: `t8_default_scheme_quad::element_transform_face` (t8_default_quad.cxx:414) with two different elements and `sign = 1` does not
  set the level of the second element: `q` points to `p` then, and `p->level = q->level` is a self-assignment
  (`C12_quad_level_not_copied`). The library calls the function with one element in both roles (t8_forest.cxx:1517).
* C06: the family test of pyramids (t8_dpyramid_bits.c:266) compares types and coordinates relative to the first element, but not the
  place of the first element in its parent (`C06_pyramid_wrong`). A tetrahedron whose parent is a pyramid has 10 siblings, but the
  test only looks at the first 8 elements; on consecutive leaves it is right nevertheless (`C06_pyramid_partial`).
* C06: the family test of prisms inherits the error of the test of triangles (`C06_prism_wrong`).
* C09: `count_leaves_from_root` overflows for hexahedra at the maximum level (`C09_standalone_hex_overflow`).
* C12: the vertex version of `element_transform_face` does not write its output (`C12_standalone_vertex_not_copied`).
* C11: a line of level 30 has no triangle of the same level, since triangles end at level 29 and lines at 30; the extrusion of lines is
  proved up to level 29 (`C11_tri_boundary_extrude`).
* C13: seen while reading: `element_face_get_child_face` of tetrahedra asserts `face < T8_DTET_FACE_CHILDREN` and leaves `face_child`
  unchecked.
* C18: `t8_forest_adapt_refine_recursive` drops an element if the callback answers "refine" for it although it has the
  maximum level (`C18_recursive_loses_leaf`); with a callback that always answers "refine" nothing is left and adapt aborts.
* C17: adaptation aborts if all elements of a local tree are removed (stated in `C17_adapt_trees`).
* Without effect on the results, noticed when modelling adapt: in `t8_forest_pos` the test `!forest->incomplete_trees` is
  never true (the value is -1 during adapt), and the index in that branch is off by one; the keep branch of adapt
  compares the child id with the number of children of an earlier element.
* C22: with rounding, the weighted `t8_forest_partition_compute_new_offset` may expect a wrong number of offsets
  (`C22_rounding_count`: one element of weight 0.1 on three processes) or write behind the array of local offsets
  (`C22_rounding_bounds`: five elements of weight 0.7 on two processes). In release builds the first case gathers more
  entries than the offset array has, or leaves wrong offsets.
* C31: `t8_cmesh_uniform_bounds_from_unpartioned` positions an empty process wrongly if the next non-empty process is
  `P - 2` (`C31_irregular_wrong_position`) and raises the shared flag of empty processes (`C31_irregular_empty_shared`).
* C32: `t8_forest_bin_search_lower` reads the first element of an empty array, and so do the functions that call it
  (`C32_empty`, `C36_empty`); `t8_forest_bin_search_upper` tests for this case.
* C33: both versions of the search read the first leaf of a local tree without testing that there is one
  (`C33_empty_tree`); empty local trees exist after an adaptation that removes elements. A search with an empty list of
  queries calls nothing, not even the search callback. Seen while reading, outside the model: the C wrappers of the search
  classes keep references to local variables and parameters (`queries_vector`, `[&search_with_queries]`, `&udata`);
  `t8_partition_search_base::do_search` is declared but not defined; `check_queries` of
  `t8_partition_search_with_batched_queries` swaps the old and the new active queries.
* C39: when `t8_forest_no_overlap` finds an overlap it destroys the temporary element inside the loop, goes on using it and destroys
  it again (`C39_overlap_undefined`). If another process has the overlap, `T8_ASSERT (has_overlap_local == 1)` fails
  (`C39_other_process`). In release builds the function always reports "no overlap" (`C39_release`).
* C50: `t8_forest_is_equal` compares the local trees only; the ids of the trees and the coarse meshes may differ.
* C27, C49: `t8_forest_element_find_owner_ext` looks at the process after the guess and reads `global_first_desc[mpisize]` if the guess is
  the last process with elements; the array has `mpisize` entries (t8_forest_partition.cxx:329). This happens whenever the start guess
  is the owner and no later process has elements (`C27_out_of_bounds`): in `t8_forest_element_find_owner` for example on two processes
  of which the second is empty (`C27_find_out_of_bounds`), and in the search for the last owner at a face, which starts with the upper
  bound, whenever that bound is the last process with elements and owns the descendant. The value is not used.
* C51: for incomplete trees, `t8_forest_tree_shared` (t8_forest.cxx:1262-1305) compares the first tree of a process only with the last
  tree of the process directly before it. If that process is empty (`last_local_tree = -1` after a partition), a first tree that is
  shared with an earlier process is not marked, and `tree_offsets` says that the earlier process does not have the tree
  (`C51_incomplete_wrong`, three processes of which the second is empty). Seen while reading, outside the model: for incomplete trees
  the first leaf may be in a local tree other than tree 0, but `t8_forest_partition_create_first_desc` uses the class of tree 0.
* C26: seen while reading, outside the model: `t8_forest_pfc_message::mpi_Isend` (t8_forest_pfc_message.hxx:150-172) frees the send
  buffer right after `MPI_Isend`, before the request is completed. `t8_forest_pfc_extreme_local_sibling` does not free its two
  elements if the start element is the root (t8_forest_pfc_helper.cxx:54-56).
  `t8_forest_pfc_helper_index_in_tree_from_globalid` stores the global id of the first tree in a `t8_locidx_t`
  (t8_forest_pfc_helper.cxx:120).
* C35: seen while reading, outside the model: the check in t8_forest_iterate.cxx:448-457 is inside `#if T8_DEBUG`, a macro that is not
  defined (the library uses `T8_ENABLE_DEBUG`), and it calls `scheme->t8_element_parent`, which does not exist. The loop that counts a family
  overwrites `elem_old`; the check after it takes the number of children of the last element read instead of the first.
* C37: `t8_forest_is_balanced` called by a user on a forest that was not just created by balance (`maxlevel_existing` is -1,
  t8_forest.cxx:2912) tests all leaves. If there is a leaf of the maximum level with a neighbour across a face, balanced or not, the
  computation of half face neighbours aborts (`SC_CHECK_ABORT`, t8_forest.cxx:1559): `C37_is_balanced_aborts`. Balance itself is not
  affected, because it sets `maxlevel_existing`.
* C37: with repartitioning, the forest of the last round is created without ghost layer (t8_forest_balance.cxx:215-217 and 253-263), so that the last
  assertion, and any later `t8_forest_is_balanced`, only sees local leaves; the result is balanced nevertheless (`C37_balance`).
* C41: `t8_cmesh_determine_partition` attributes elements to the wrong process because of rounding, already for 82 elements
  on 2 processes (`C41_rounding`).
* C42: `vector_split` converts the number of entries to the category type; if it does not fit, the result is wrong
  (`C42_narrow_type_truncates`).
* C44: `t8_stash_add_facejoin` of a tree with itself depends on the order of the two faces
  (`C44_facejoin_same_tree_not_symmetric`). `t8_cmesh_trees_add_attribute` writes the offset of a further attribute info
  behind the infos if the last tree of the mesh has no attribute; this overwrites attribute data
  (`C44_attributes_last_tree_without`) or memory behind the allocation (`C44_attributes_overflow`).
* C45: `contains_all_vertices` only compares counts and accepts an incomplete list
  (`C45_contains_all_accepts_incomplete`).
* C54: `t8_forest_leaf_face_neighbors_ext` (t8_forest.cxx:1815) declares the buffer for the neighbors before the loop over the local and the
  ghost array and does not clear it. If leaves of both arrays are at the face, the local leaves are in the result twice and the number of
  neighbors is wrong (`C54_duplicates`). The tree number that is set to -1 if no neighbors are found is overwritten afterwards.
* C55: in `t8_forest_ghost_fill_remote` (t8_forest_ghost.cxx:822-921) everything that uses the owners is inside of `if (ghost_method == 0)`.
  Version 2 of the ghost algorithm therefore creates an empty ghost layer (`C55_version2_empty`). Version 1 computes the half neighbors and
  does not use them (`C55_version1_empty`); for elements of the maximal level it reads an array that was not initialised
  (`C55_version1_undefined`). Only version 3, the default, works.
* C59: `t8_forest_element_from_ref_coords_ext` with stretch factors writes the stretched coordinates with a stride of `tree_dim` (t8_forest.cxx:441-447), but `element_get_reference_coords` of lines, triangles and quads reads them with a stride of 3. For more than one point the result is wrong and depends on uninitialized memory (`C59_stretch_false`); with more than eight points the stack array of `T8_ECLASS_MAX_CORNERS * T8_ECLASS_MAX_DIM` entries overflows. The centroid of elements of a pyramid whose base is no parallelogram is not the mean of the corners (`C59_centroid_pyramid`); this is not an error of the code, but the two centroid functions differ there.
* C60: `t8_cmesh_set_join_by_vertices` compares vertices with a tolerance, but only if the faces have the same hash, and the hash adds rounded coordinates. Vertices within the tolerance on both sides of a bin boundary are not joined (`C60_tolerance_false`). The minimum and maximum are taken over the first `dim` coordinates of the trees, but the hash reads three: for surfaces in space it can cast negative numbers to `unsigned long`, which is undefined (`C60_hash_range_false`; in dimension three the numbers are in range, `C60_hash_range`). If all coordinates are equal, the tolerance is 0 and the size of the bins is infinite. With `do_both_directions` and a coarse mesh each join is set twice (`C60_both_false`); no caller in the repository does this.
* C61: `t8_forest_element_points_inside` documents that a larger tolerance finds more points, but for elements of dimension three the tolerance is not used (`C61_tolerance_false`). The triangle test divides by a determinant that is 0 for triangles (and halves of quads) perpendicular to the xy-plane; comparisons with NaN are false, so that every point of the plane of the triangle is "inside", e.g. (1000, 0, -7) for the triangle (0,0,0), (1,0,0), (1,0,1) (`C61_vertical_false`, `C61_vertical_example`). The line test solves in the first coordinate with a difference that is not 0, however small, and rejects points that are within the tolerance (`C61_line_tolerance_false`). For hexahedra with faces that are not planar even vertices of the element are rejected, although the comment at the test claims that it is exact for bilinear elements (`C61_planar_false`; the debug mode prints a warning). The axis-aligned geometry combines coordinate `k` with reference coordinate `k`: lines along the y- or z-axis, which the check of the vertices accepts, are collapsed to their first vertex (`C61_axis_aligned_line_false`; the same holds for quads that are not parallel to the xy-plane).
* C62: quadrilateral faces that are not planar are divided along the diagonal between their corners 1 and 2 (`t8_forest_element_face_area`). For orientations 1 and 2 these are different diagonals of the two elements at the face, and the elements disagree on the area of their common face (`C62_warped_false`). The documentation calls the area an approximation; fluxes that are computed with the area of one side are not those of the other. In the same header, area and normal are documented as "Currently implemented for 2D elements only", but they are implemented for all classes.
* C63: for lines, `t8_cmesh_new_hypercube_pad_ext` computes `length = t8_norm (line_dir) / polygons_x` and calls `t8_ax (line_dir, length)` (t8_cmesh_examples.cxx:1364-1370) without normalising `line_dir` before. So the mesh has the length L² instead of L; a line from 0 to 2 becomes a line from 0 to 4 (`C63_lines_false`).
* C63: in dimension three the box is first enlarged by one cube in each direction, and the edges of the enlarged box can shrink to a point although all assertions hold. Then the function computes 0/0 and the vertices are not numbers, e.g. for a frustum that is half as wide at the far end and not divided (`C63_frustum_false`).
* C63: with an offset (partitioned meshes) `t8_cmesh_set_vertices_3D` adds the offset to the number of the cube and then again to the number of the tree, so the vertices of tetrahedra and prisms go to other trees (`C63_offset_prism_false`), and one of the connections of tetrahedra along the z-axis does not add the offset (t8_cmesh_examples.cxx:1490, `C63_offset_tet_false`).
* C63 (observation): the rule in the test that excludes the axis-aligned geometry for other classes (`!= HEX || != QUAD`) is always true, so no axis-aligned case is tested.
* C64: on a linked face of a tetrahedron the curve of an edge of the face is added in the loop over the edges with the square of the product of the factors of both faces of the edge, and subtracted in the loop over the faces with the square of the factor of this face. The factor of the other face is 1 there for most edges, but not for edges 0 and 2 on face 2 and edge 5 on face 1 (entries [0][3] = z, [2][1] = x - y and [5][0] = 1 - z of `orthogonal_vector`, t8_geometry_helpers.c:403-408; z - y, z - y and x - z would vanish on the other face). So the points of such a face do not lie on its surface (`C64_tet_face_false`, `C64_tet_face_edge2_false`, `C64_tet_face_edge5_false`).
* C64: a curve at edge 1 of a tetrahedron moves the points of face 2, to which the edge does not belong (`C64_tet_other_edge_false`), so the neighbor at face 2 does not fit.
* C64: the same happens for prisms: edge 8 on faces 1 and 2 and edge 7 on face 1 (entries [8][1] = [8][2] = x and [7][0] = 1 - y of `orthogonal_direction`, t8_geometry_helpers.c:491-499; x - y and y would vanish on the other face) (`C64_prism_face_false`, `C64_prism_face1_edge8_false`, `C64_prism_face1_edge7_false`). A curve at edge 6 moves the points of face 1, to which it does not belong (`C64_prism_other_edge_false`).
* C64: `t8_geom_get_scaling_factor_face_through_volume_prism` returns 0 where the maximal distance is 0, that is for face 0 at edge 7 and for faces 1 and 2 at edge 8. These edges belong to the faces, and everywhere else on the face the factor is 1. If such an edge of a linked face has no curve, it stays straight and the face is torn there (`C64_prism_tear_false`).
* C65: with a linked surface and a linked curve of a quad the weights are exchanged (`i_edge & 1` takes `1 - ref`, t8_geometry_cad.cxx:566-571; the branch without a surface and the hexahedron do it the other way round). The edge stays on the straight parameter line and the opposite edge is moved by the displacement (`C65_quad_curve_false`). Proved where the displacement is 0.
* C65: the same branch reads `ref_coords[edge_direction]` and `ref_coords[edge_orthogonal_direction]` without the offset of the point, so points of a batch depend on the first one (`C65_quad_face_batch_false`). Without a linked face, an edge with a surface reads `temp_parameters[offset_2d]`, which is behind the array of length 2 for all points but the first (`C65_quad_batch_false`).
* C65: for a triangle with a linked surface and a linked curve `process_surface (edges[i_edge + num_edges], …)` is called, with a number that is asserted to be 0 above (t8_geometry_cad.cxx:407). It should be `*faces`. So this combination fails for all inputs (`C65_tri_curve_false`). Without a curve only the first point of the batch is put on the surface (t8_geometry_cad.cxx:415-419, `C65_tri_batch_false`).
* C66: all entries of `t8_face_to_edge_neighbor` for prisms are wrong: they do not start at the vertex or are in the face (`C66_neighbor_false`). The table is used by `t8_cmesh_new_hypercube_pad` for boxes only, which are no prisms.
* C66: `t8_edge_vertex_to_tree_vertex` has 0 for both vertices of the edge of a line (the initializer `{ { 0 }, { 1 } }` puts the second vertex in the next row; `C66_edges_line_false`). The edge tables of pyramids are missing although they have 8 edges (`C66_edges_pyramid_false`).
* C67: `decompose` of a line gives elements of class vertex, for which `t8_geom_compute_basis` aborts (`C67_line_faces_false`); `get_face_nodes` lists three faces for lines of degree 2.

## Further observations (from reading the code, not proved)

* The assertion in t8_dpyramid_bits.c:1493 assigns (`=`) instead of comparing, so debug builds repair what they should check.
* `element_to_string` of pyramids prints x in place of z (t8_default_pyramid.cxx:444).
* `t8_cmesh_validate_geometry` reads `cmesh->geometry_handler` before it tests `cmesh == NULL` (t8_cmesh.cxx:166-169).
* The broadcast of a stash always starts at process 0 (t8_cmesh_stash.c:311-322).
* `half_neighbors` is allocated in `t8_forest_ghost_fill_remote` (t8_forest_ghost.cxx:875) and not freed.
* A commit that partitions and balances creates an intermediate forest without the weight function of the forest (t8_forest.cxx:3365-3376), so the weights are
  ignored there.
* The documentation of `t8_cmesh_set_join` orders hex < tet < prism < pyramid (t8_cmesh.h:348), `t8_eclass_compare` orders tet < hex (t8_eclass.c:112-117).
* `T8_DQUAD_ROOT_LEN` and `T8_DHEX_ROOT_LEN` are not the root length of p4est; they are unused.
* `T8_ASSERT`s are not part of release builds; where a model gives `none` for a failing assertion, a release build carries on.

## Trusted base

* Lean 4.33.0's kernel, and the axioms `propext`, `Classical.choice`, `Quot.sound` at most.
* The reading of the C/C++ text: each definition cites the lines it models.
* p4est, for the quadrilaterals and hexahedra of the default scheme: theorems are stated for every p4est that satisfies
  `P4est.Documented`, which is a hypothesis of the theorems and not an axiom.
* Not modelled: MPI itself, libsc and the rest of p4est (absent from /repo; `sc_array_*` functions are modelled by their
  documented behaviour), memory allocation, the CAD kernel (a parameter of the models), VTK and mesh readers, profiling.
* Where a model takes `double` as `ℝ` or `ℚ` (stated in the table above) rounding is not modelled.
