{
 "claims": [
  {
   "property": "C01",
   "status": "proved",
   "theorems": [
    "T8.Standalone.C01_standalone",
    "T8.Standalone.C01_standalone_children",
    "T8.Standalone.C01_standalone_reachable",
    "T8.Standalone.C01_standalone_distinct",
    "T8.Dline.C01_line",
    "T8.Dline.C01_line_children",
    "T8.Dline.C01_line_reachable",
    "T8.Dline.C01_line_distinct",
    "T8.Dline.C01_line_child_id_debug",
    "T8.Dvertex.C01_vertex",
    "T8.Dvertex.C01_vertex_children",
    "T8.Dvertex.C01_vertex_reachable",
    "T8.Simplex.C01_simplex",
    "T8.Simplex.C01_simplex_children",
    "T8.Simplex.C01_simplex_reachable",
    "T8.Simplex.C01_simplex_distinct",
    "T8.Simplex.C01_simplex_inside",
    "T8.Simplex.C01_simplex_vertex",
    "T8.Prism.C01_prism",
    "T8.Prism.C01_prism_children",
    "T8.Prism.C01_prism_reachable",
    "T8.Prism.C01_prism_distinct",
    "T8.Prism.C01_prism_inside",
    "T8.Prism.C01_prism_vertex",
    "T8.Prism.C01_prism_anchor_wrong",
    "T8.Pyramid.C01_pyramid",
    "T8.Pyramid.C01_pyramid_children",
    "T8.Pyramid.C01_pyramid_reachable",
    "T8.Pyramid.C01_pyramid_distinct",
    "T8.Pyramid.C01_pyramid_inside",
    "T8.Pyramid.C01_pyramid_vertex",
    "T8.Cube.C01_cube",
    "T8.Cube.C01_cube_children",
    "T8.Cube.C01_cube_sibling",
    "T8.Cube.C01_cube_reachable",
    "T8.Cube.C01_cube_distinct",
    "T8.Cube.C01_cube_halves"
   ],
   "note": "Standalone hypercube classes (vertex, line, quad, hex) and the default schemes for vertices, lines, triangles, tetrahedra, prisms and pyramids: full statement for all elements. Quads and hexahedra of the default scheme: full statement for every p4est that behaves as documented (P4est.Documented; p4est is not in the repository). With assertions enabled the child id of a default line of maximum level cannot be queried (C01_line_child_id_debug). The anchor function of prisms is wrong (C01_prism_anchor_wrong)."
  },
  {
   "property": "C02",
   "status": "proved",
   "theorems": [
    "T8.Standalone.C02_standalone_position",
    "T8.Standalone.C02_standalone_set",
    "T8.Standalone.C02_standalone_bijection",
    "T8.Dline.C02_line_position",
    "T8.Dline.C02_line_set",
    "T8.Dline.C02_line_bijection",
    "T8.Dvertex.C02_vertex_position",
    "T8.Dvertex.C02_vertex_set",
    "T8.Simplex.C02_simplex_position",
    "T8.Simplex.C02_simplex_set",
    "T8.Simplex.C02_simplex_bijection",
    "T8.Prism.C02_prism_position",
    "T8.Prism.C02_prism_set",
    "T8.Prism.C02_prism_bijection",
    "T8.Pyramid.C02_pyramid_position",
    "T8.Pyramid.C02_pyramid_set",
    "T8.Pyramid.C02_pyramid_bijection",
    "T8.Cube.C02_cube_position",
    "T8.Cube.C02_cube_set",
    "T8.Cube.C02_cube_bijection"
   ],
   "note": "Standalone hypercube classes (vertex, line, quad, hex) and the default schemes for vertices, lines, triangles, tetrahedra, prisms and pyramids: full statement for all elements. Quads and hexahedra of the default scheme: full statement for every p4est that behaves as documented (P4est.Documented; p4est is not in the repository). "
  },
  {
   "property": "C03",
   "status": "proved",
   "theorems": [
    "T8.Standalone.C03_standalone",
    "T8.Standalone.C03_standalone_next",
    "T8.Dline.C03_line",
    "T8.Dline.C03_line_next",
    "T8.Dvertex.C03_vertex",
    "T8.Simplex.C03_simplex",
    "T8.Simplex.C03_simplex_next",
    "T8.Simplex.C03_simplex_predecessor_wrong",
    "T8.Prism.C03_prism",
    "T8.Prism.C03_prism_next",
    "T8.Pyramid.C03_pyramid",
    "T8.Pyramid.C03_pyramid_next",
    "T8.Cube.C03_cube",
    "T8.Cube.C03_cube_next"
   ],
   "note": "Standalone hypercube classes (vertex, line, quad, hex) and the default schemes for vertices, lines, triangles, tetrahedra, prisms and pyramids: full statement for all elements. Quads and hexahedra of the default scheme: full statement for every p4est that behaves as documented (P4est.Documented; p4est is not in the repository). The predecessor function of triangles and tetrahedra, which the scheme does not use, is wrong (C03_simplex_predecessor_wrong)."
  },
  {
   "property": "C04",
   "status": "proved",
   "theorems": [
    "T8.Standalone.C04_standalone_ends",
    "T8.Standalone.C04_standalone_interval",
    "T8.Dline.C04_line_ends",
    "T8.Dline.C04_line_interval",
    "T8.Dvertex.C04_vertex_ends",
    "T8.Dvertex.C04_vertex_interval",
    "T8.Simplex.C04_simplex_ends",
    "T8.Simplex.C04_simplex_some",
    "T8.Simplex.C04_simplex_interval",
    "T8.Prism.C04_prism_ends",
    "T8.Prism.C04_prism_some",
    "T8.Prism.C04_prism_interval",
    "T8.Pyramid.C04_pyramid_ends",
    "T8.Pyramid.C04_pyramid_some",
    "T8.Pyramid.C04_pyramid_interval",
    "T8.Cube.C04_cube_ends",
    "T8.Cube.C04_cube_interval"
   ],
   "note": "Standalone hypercube classes (vertex, line, quad, hex) and the default schemes for vertices, lines, triangles, tetrahedra, prisms and pyramids: full statement for all elements. Quads and hexahedra of the default scheme: full statement for every p4est that behaves as documented (P4est.Documented; p4est is not in the repository). "
  },
  {
   "property": "C05",
   "status": "proved",
   "theorems": [
    "T8.Standalone.C05_standalone",
    "T8.Dline.C05_line",
    "T8.Dvertex.C05_vertex",
    "T8.Simplex.C05_simplex",
    "T8.Prism.C05_prism",
    "T8.Pyramid.C05_pyramid",
    "T8.Cube.C05_cube"
   ],
   "note": "Standalone hypercube classes (vertex, line, quad, hex) and the default schemes for vertices, lines, triangles, tetrahedra, prisms and pyramids: full statement for all elements. Quads and hexahedra of the default scheme: full statement for every p4est that behaves as documented (P4est.Documented; p4est is not in the repository). "
  },
  {
   "property": "C06",
   "status": "partial",
   "theorems": [
    "T8.Standalone.C06_standalone_partial",
    "T8.Standalone.C06_standalone_level_zero",
    "T8.Dline.C06_line",
    "T8.Dvertex.C06_vertex",
    "T8.Simplex.C06_simplex_partial",
    "T8.Simplex.C06_simplex_wrong",
    "T8.Prism.C06_prism_partial",
    "T8.Prism.C06_prism_wrong",
    "T8.Pyramid.C06_pyramid_partial",
    "T8.Pyramid.C06_pyramid_root",
    "T8.Pyramid.C06_pyramid_wrong",
    "T8.Cube.C06_cube"
   ],
   "note": "Standalone hypercube classes (vertex, line, quad, hex) and the default schemes for vertices, lines, triangles, tetrahedra, prisms and pyramids: full statement for all elements. Quads and hexahedra of the default scheme: full statement for every p4est that behaves as documented (P4est.Documented; p4est is not in the repository). Standalone: exact for all arrays of valid elements of positive level; the documented answer for level-0 elements fails (C06_standalone_level_zero). Default vertices and lines: exact for all arrays. Triangles, tetrahedra, prisms and pyramids: exact for consecutive leaves of a complete tree (C06_simplex_partial, C06_prism_partial, C06_pyramid_partial); false in general (C06_simplex_wrong, C06_prism_wrong, C06_pyramid_wrong)."
  },
  {
   "property": "C07",
   "status": "proved",
   "theorems": [
    "T8.Standalone.C07_standalone",
    "T8.Standalone.C07_standalone_total",
    "T8.Standalone.C07_standalone_linear_id",
    "T8.Dline.C07_line",
    "T8.Dline.C07_line_total",
    "T8.Dvertex.C07_vertex",
    "T8.Dvertex.C07_vertex_total",
    "T8.Simplex.C07_simplex",
    "T8.Simplex.C07_simplex_total",
    "T8.Prism.C07_prism",
    "T8.Prism.C07_prism_total",
    "T8.Pyramid.C07_pyramid",
    "T8.Pyramid.C07_pyramid_total",
    "T8.Cube.C07_cube",
    "T8.Cube.C07_cube_total"
   ],
   "note": "Standalone hypercube classes (vertex, line, quad, hex) and the default schemes for vertices, lines, triangles, tetrahedra, prisms and pyramids: full statement for all elements. Quads and hexahedra of the default scheme: full statement for every p4est that behaves as documented (P4est.Documented; p4est is not in the repository). "
  },
  {
   "property": "C08",
   "status": "proved",
   "theorems": [
    "T8.Standalone.C08_standalone",
    "T8.Standalone.C08_standalone_iterate",
    "T8.Standalone.C08_standalone_parent_iterate",
    "T8.Dline.C08_line",
    "T8.Dline.C08_line_iterate",
    "T8.Dvertex.C08_vertex",
    "T8.Dvertex.C08_vertex_id",
    "T8.Simplex.C08_simplex",
    "T8.Simplex.C08_simplex_geo",
    "T8.Simplex.C08_simplex_iterate",
    "T8.Simplex.C08_simplex_relations",
    "T8.Prism.C08_prism",
    "T8.Prism.C08_prism_iterate",
    "T8.Pyramid.C08_pyramid",
    "T8.Pyramid.C08_pyramid_iterate",
    "T8.Cube.C08_cube",
    "T8.Cube.C08_cube_iterate"
   ],
   "note": "Standalone hypercube classes (vertex, line, quad, hex) and the default schemes for vertices, lines, triangles, tetrahedra, prisms and pyramids: full statement for all elements. Quads and hexahedra of the default scheme: full statement for every p4est that behaves as documented (P4est.Documented; p4est is not in the repository). "
  },
  {
   "property": "C09",
   "status": "partial",
   "theorems": [
    "T8.Standalone.C09_standalone_meaning",
    "T8.Standalone.C09_standalone_partial",
    "T8.Standalone.C09_standalone_root_partial",
    "T8.Standalone.C09_standalone_full",
    "T8.Standalone.C09_standalone_hex_overflow",
    "T8.Dline.C09_line_meaning",
    "T8.Dline.C09_line",
    "T8.Dline.C09_line_root",
    "T8.Dvertex.C09_vertex",
    "T8.Dvertex.C09_vertex_root",
    "T8.Simplex.C09_simplex_meaning",
    "T8.Simplex.C09_tri",
    "T8.Simplex.C09_tet_partial",
    "T8.Simplex.C09_tet_overflow",
    "T8.Simplex.C09_simplex_root",
    "T8.Prism.C09_prism_meaning",
    "T8.Prism.C09_prism_partial",
    "T8.Prism.C09_prism_overflow",
    "T8.Prism.C09_prism_root",
    "T8.Pyramid.C09_pyramid_meaning",
    "T8.Pyramid.C09_pyramid_partial",
    "T8.Pyramid.C09_pyramid_overflow",
    "T8.Pyramid.C09_pyramid_root",
    "T8.Cube.C09_cube_meaning",
    "T8.Cube.C09_cube",
    "T8.Cube.C09_cube_root"
   ],
   "note": "Standalone hypercube classes (vertex, line, quad, hex) and the default schemes for vertices, lines, triangles, tetrahedra, prisms and pyramids: full statement for all elements. Quads and hexahedra of the default scheme: full statement for every p4est that behaves as documented (P4est.Documented; p4est is not in the repository). Exact whenever the count fits into 63 bits (all of vertex, line, quad, triangle and default hexahedra); false for the roots of standalone hexes, tetrahedra, prisms and pyramids at the maximum level (C09_standalone_hex_overflow, C09_tet_overflow, C09_prism_overflow, C09_pyramid_overflow)."
  },
  {
   "property": "C10",
   "status": "proved",
   "theorems": [
    "T8.Standalone.C10_standalone_mutual",
    "T8.Standalone.C10_standalone_inside",
    "T8.Standalone.C10_standalone_unique",
    "T8.Dline.C10_line_mutual",
    "T8.Dline.C10_line_inside",
    "T8.Dline.C10_line_unique",
    "T8.Simplex.C10_simplex_mutual",
    "T8.Simplex.C10_simplex_inside",
    "T8.Simplex.C10_simplex_unique",
    "T8.Prism.C10_prism_mutual",
    "T8.Prism.C10_prism_inside",
    "T8.Prism.C10_prism_unique",
    "T8.Pyramid.C10_pyramid_corners",
    "T8.Pyramid.C10_pyramid_mutual",
    "T8.Pyramid.C10_pyramid_inside",
    "T8.Pyramid.C10_pyramid_unique",
    "T8.Cube.C10_cube_mutual",
    "T8.Cube.C10_cube_inside",
    "T8.Cube.C10_cube_unique"
   ],
   "note": "Standalone hypercube classes (vertex, line, quad, hex) and the default schemes for vertices, lines, triangles, tetrahedra, prisms and pyramids: full statement for all elements. Quads and hexahedra of the default scheme: full statement for every p4est that behaves as documented (P4est.Documented; p4est is not in the repository). "
  },
  {
   "property": "C11",
   "status": "proved",
   "theorems": [
    "T8.Standalone.C11_standalone_extrude_boundary",
    "T8.Standalone.C11_standalone_boundary_extrude",
    "T8.Standalone.C11_standalone_coordinates",
    "T8.Dline.C11_line_extrude_boundary",
    "T8.Dline.C11_line_boundary_extrude",
    "T8.Simplex.C11_tri_extrude_boundary",
    "T8.Simplex.C11_tri_boundary_extrude",
    "T8.Simplex.C11_tet_extrude_boundary",
    "T8.Simplex.C11_tet_boundary_extrude",
    "T8.Prism.C11_prism_quad_extrude_boundary",
    "T8.Prism.C11_prism_quad_boundary_extrude",
    "T8.Prism.C11_prism_tri_extrude_boundary",
    "T8.Prism.C11_prism_tri_boundary_extrude",
    "T8.Pyramid.C11_pyramid_tri_extrude_boundary",
    "T8.Pyramid.C11_pyramid_tri_boundary_extrude",
    "T8.Pyramid.C11_pyramid_quad_extrude_boundary",
    "T8.Pyramid.C11_pyramid_quad_boundary_extrude",
    "T8.Cube.C11_quad_extrude_boundary",
    "T8.Cube.C11_quad_boundary_extrude",
    "T8.Cube.C11_hex_extrude_boundary",
    "T8.Cube.C11_hex_boundary_extrude"
   ],
   "note": "Standalone hypercube classes (vertex, line, quad, hex) and the default schemes for vertices, lines, triangles, tetrahedra, prisms and pyramids: full statement for all elements. Quads and hexahedra of the default scheme: full statement for every p4est that behaves as documented (P4est.Documented; p4est is not in the repository). Lines of level 30 have no triangle or default quad, since these end at level 29; the extrusion is proved up to the deepest level of the element. Likewise for quads and triangles of a level greater than 21 at prisms, tetrahedra and pyramids, and of quads of a level greater than 18 at hexahedra."
  },
  {
   "property": "C12",
   "status": "partial",
   "theorems": [
    "T8.Standalone.C12_standalone_line",
    "T8.Standalone.C12_standalone_vertex_not_copied",
    "T8.Standalone.C12_standalone_quad",
    "T8.Standalone.C12_standalone_quad_symmetry",
    "T8.Dline.C12_line",
    "T8.Dvertex.C12_vertex",
    "T8.Simplex.C12_tri",
    "T8.Simplex.C12_tri_symmetry",
    "T8.Cube.C12_quad_partial",
    "T8.Cube.C12_quad_symmetry",
    "T8.Cube.C12_quad_level_not_copied"
   ],
   "note": "Standalone hypercube classes (vertex, line, quad, hex) and the default schemes for vertices, lines, triangles, tetrahedra, prisms and pyramids: full statement for all elements. Quads and hexahedra of the default scheme: full statement for every p4est that behaves as documented (P4est.Documented; p4est is not in the repository). Lines, quads (standalone and default), triangles and default vertices; the standalone vertex version does not write its output (C12_standalone_vertex_not_copied), the default quad version does not set the level of a second element if the orientation changes (C12_quad_level_not_copied)."
  },
  {
   "property": "C13",
   "status": "proved",
   "theorems": [
    "T8.Standalone.C13_standalone_children",
    "T8.Standalone.C13_standalone_child_face",
    "T8.Standalone.C13_standalone_parent_face_partial",
    "T8.Standalone.C13_standalone_parent_face_root",
    "T8.Dline.C13_line_children",
    "T8.Dline.C13_line_parent_face",
    "T8.Simplex.C13_simplex_children",
    "T8.Simplex.C13_simplex_parent_face",
    "T8.Prism.C13_prism_children",
    "T8.Prism.C13_prism_parent_face",
    "T8.Pyramid.C13_pyramid_children",
    "T8.Pyramid.C13_pyramid_parent_face",
    "T8.Cube.C13_cube_children",
    "T8.Cube.C13_cube_child_face",
    "T8.Cube.C13_cube_parent_face"
   ],
   "note": "Standalone hypercube classes (vertex, line, quad, hex) and the default schemes for vertices, lines, triangles, tetrahedra, prisms and pyramids: full statement for all elements. Quads and hexahedra of the default scheme: full statement for every p4est that behaves as documented (P4est.Documented; p4est is not in the repository). Children at a face and child faces for all elements; parent face for all elements but the standalone root, where the documented value differs (C13_standalone_parent_face_root)."
  },
  {
   "property": "C14",
   "status": "partial",
   "theorems": [
    "T8.Standalone.C14_standalone",
    "T8.Dline.C14_line",
    "T8.Simplex.C14_simplex",
    "T8.Prism.C14_prism",
    "T8.Pyramid.C14_pyramid_partial",
    "T8.Pyramid.C14_pyramid_wrong",
    "T8.Cube.C14_cube"
   ],
   "note": "Standalone hypercube classes (vertex, line, quad, hex) and the default schemes for vertices, lines, triangles, tetrahedra, prisms and pyramids: full statement for all elements. Quads and hexahedra of the default scheme: full statement for every p4est that behaves as documented (P4est.Documented; p4est is not in the repository). Tetrahedra in the refinement of a pyramid: all levels deeper than the element; at the level of the element itself the functions do not write their output (C14_pyramid_wrong)."
  },
  {
   "property": "C15",
   "status": "proved",
   "theorems": [
    "T8.Standalone.C15_standalone",
    "T8.Standalone.C15_standalone_size",
    "T8.Dline.C15_line",
    "T8.Dline.C15_line_size",
    "T8.Dvertex.C15_vertex",
    "T8.Dvertex.C15_vertex_size",
    "T8.Simplex.C15_simplex",
    "T8.Simplex.C15_simplex_size",
    "T8.Prism.C15_prism",
    "T8.Prism.C15_prism_size",
    "T8.Pyramid.C15_pyramid",
    "T8.Pyramid.C15_pyramid_size",
    "T8.Cube.C15_cube",
    "T8.Cube.C15_cube_size"
   ],
   "note": "Standalone hypercube classes (vertex, line, quad, hex) and the default schemes for vertices, lines, triangles, tetrahedra, prisms and pyramids: full statement for all elements. Quads and hexahedra of the default scheme: full statement for every p4est that behaves as documented (P4est.Documented; p4est is not in the repository). "
  },
  {
   "property": "C16",
   "status": "proved",
   "theorems": [
    "T8.Uniform.C16_equal",
    "T8.Uniform.C16_irregular",
    "T8.Uniform.C16_exactly_once",
    "T8.Uniform.C16_standalone_quad"
   ],
   "note": "For every lawful scheme, replicated coarse mesh with at least one tree, within the integer ranges (fewer than 2^63 elements, 2^31 per process)."
  },
  {
   "property": "C17",
   "status": "proved",
   "theorems": [
    "T8.Adapt.C17_adapt_tree",
    "T8.Adapt.C17_adapt_tree_incomplete",
    "T8.Adapt.C17_sweep_unique",
    "T8.Adapt.C17_family_unique",
    "T8.Adapt.C17_adapt_trees"
   ],
   "note": "Any lawful scheme, any stateful callback with legal answers. The result is that of a specified sweep in which every question is asked once; the sweep has one result. For trees that are adapted as complete trees, the leaves are consecutive leaves of a complete refinement, or the family test of the scheme is right for all arrays (not so for triangles and tetrahedra)."
  },
  {
   "property": "C18",
   "status": "partial",
   "theorems": [
    "T8.Adapt.C18_adapt_tiling",
    "T8.Adapt.C18_recursive_partial",
    "T8.Adapt.C18_all_processes",
    "T8.Adapt.C18_forest",
    "T8.Adapt.C18_recursive_loses_leaf"
   ],
   "note": "Proved for non-recursive adaptation and any distribution over processes. For recursive adaptation the claim is false as stated (C18_recursive_loses_leaf); proved under the condition that the callback does not ask to refine a single element of the maximum level."
  },
  {
   "property": "C19",
   "status": "proved",
   "theorems": [
    "T8.Adapt.C19_refine",
    "T8.Adapt.C19_coarsen",
    "T8.Adapt.C19_adapt_terminates"
   ],
   "note": "Termination for every callback. Every element produced by recursive refinement was answered with keep. For trees that are adapted as complete trees, the leaves are consecutive leaves of a complete refinement, or the family test of the scheme is right for all arrays (not so for triangles and tetrahedra)."
  },
  {
   "property": "C20",
   "status": "proved",
   "theorems": [
    "T8.Adapt.C20_incomplete_family",
    "T8.Adapt.C20_accepts",
    "T8.Adapt.C20_adapt_no_overlap"
   ],
   "note": "Also with further leaves of the tree on other processes; the test is exact; whole adaptation never creates overlap. For trees that are adapted as complete trees, the leaves are consecutive leaves of a complete refinement, or the family test of the scheme is right for all arrays (not so for triangles and tetrahedra)."
  },
  {
   "property": "C21",
   "status": "proved",
   "theorems": [
    "T8.PartitionOffset.C21_exact",
    "T8.PartitionOffset.C21_bounds",
    "T8.PartitionOffset.C21_inexact",
    "T8.PartitionOffset.C21_custom"
   ],
   "note": "Double precision through any rounding to nearest with 53 bits (roundNE 53 is proved to be one). Exact floors and floor/ceil balance if N*P <= 2^53; for all N and P < 2^31 the offsets form a partition and deviate from N*i/P by at most 1 + N/2^51."
  },
  {
   "property": "C22",
   "status": "partial",
   "theorems": [
    "T8.PartitionOffset.C22_weighted",
    "T8.PartitionOffset.C22_integer",
    "T8.PartitionOffset.C22_rounding_count",
    "T8.PartitionOffset.C22_rounding_bounds"
   ],
   "note": "Proved for all non-negative weights without rounding, and in double precision for integer weights with P*W < 2^53. For other weights the property fails: two counterexamples, one of which writes outside of the local array. The order of summation of MPI_Exscan is taken by rank."
  },
  {
   "property": "C23",
   "status": "proved",
   "theorems": [
    "T8.Partition.C23_partition",
    "T8.Partition.C23_sequence",
    "T8.Partition.Case.distributed",
    "T8.Partition.Case.result"
   ],
   "note": "For all old and new offset tables and all forests whose local parts are consistent (no empty trees, tree numbers without gap): every process ends with exactly the leaves of its new range in order, with tree number, class and bytes, and a consistent local part."
  },
  {
   "property": "C24",
   "status": "proved",
   "theorems": [
    "T8.Partition.C24_match"
   ],
   "note": "For all pairs of processes: p posts a message for q iff q awaits one from p iff the old range of p meets the new range of q; each at most once. Deadlock freedom itself (non-blocking sends before blocking receives) is a property of MPI and not modelled."
  },
  {
   "property": "C25",
   "status": "proved",
   "theorems": [
    "T8.Partition.C25_data"
   ],
   "note": "For all pairs of partitions, all data arrays and element sizes: the datum at the old position of an element is the datum at its new position."
  },
  {
   "property": "C26",
   "status": "proved",
   "theorems": [
    "T8.Pfc.C26_corrected",
    "T8.Pfc.C26_no_split",
    "T8.Pfc.C26_messages"
   ],
   "note": "For any forest, old partition and new partition the corrected offsets are a partition, each moves by less than the size of a family, no complete family is split, and every message that a process waits for is sent. Elements have at most T8_ECLASS_MAX_CHILDREN = 10 children. Indices are unbounded; packing of messages is not modelled."
  },
  {
   "property": "C27",
   "status": "partial",
   "theorems": [
    "T8.Owner.C27_unique",
    "T8.Owner.C27_exists",
    "T8.Owner.C27_check",
    "T8.Owner.C27_find_ext_partial",
    "T8.Owner.C27_find_partial",
    "T8.Owner.C27_out_of_bounds",
    "T8.Owner.C27_find_out_of_bounds"
   ],
   "note": "The owner is unique and, for complete forests, exists; check_owner decides ownership and reads only existing entries; find_owner(_ext) terminates and returns the owner for all bounds containing it and all start guesses, with empty processes anywhere, provided global_first_desc has an entry behind the last process or a process after the owner has elements. Without this condition the full statement is false: the search reads global_first_desc[mpisize], which does not exist (C27_out_of_bounds, C27_find_out_of_bounds); the value read is not used."
  },
  {
   "property": "C28",
   "status": "proved",
   "theorems": [
    "T8.Offset.C28_decode",
    "T8.Offset.C28_encode",
    "T8.Offset.C28_consistent_iff",
    "T8.Offset.C28_injective",
    "T8.Offset.C28_next_nonempty"
   ],
   "note": "Table decoding, encoding, consistency check (both directions), injectivity, next nonempty rank."
  },
  {
   "property": "C29",
   "status": "proved",
   "theorems": [
    "T8.Offset.C29_owner_queries",
    "T8.Offset.C29_next_prev"
   ],
   "note": "All six owner queries, for every table that encodes a distribution and every tree."
  },
  {
   "property": "C30",
   "status": "proved",
   "theorems": [
    "T8.Offset.C30_delivered_exactly_once",
    "T8.Offset.C30_nothing_else",
    "T8.Offset.C30_summaries_agree"
   ],
   "note": "Every tree of the new distribution has exactly one sender; the summaries sendsto / nosend / range_send agree with the per-tree decision."
  },
  {
   "property": "C31",
   "status": "partial",
   "theorems": [
    "T8.Uniform.C31_equal",
    "T8.Uniform.C31_irregular_partial",
    "T8.Uniform.C31_irregular_wrong_position",
    "T8.Uniform.C31_irregular_empty_shared"
   ],
   "note": "Proved for equal tree sizes. For different tree sizes the position reported by empty processes and their shared flag can be wrong (witnesses)."
  },
  {
   "property": "C32",
   "status": "partial",
   "theorems": [
    "T8.Leaf.C32_lower_partial",
    "T8.Leaf.C32_upper",
    "T8.Leaf.C32_first_overlap_partial",
    "T8.Leaf.C32_find_partial",
    "T8.Leaf.C32_find_index",
    "T8.Leaf.C32_empty"
   ],
   "note": "Proved for every lawful scheme and all ordered non-empty arrays, including levels coarser than the leaves. Empty arrays: the lower search reads entry 0 (C32_empty), so the full statement is false there; the upper search is right for them."
  },
  {
   "property": "C33",
   "status": "proved",
   "theorems": [
    "T8.Search.C33_once",
    "T8.Search.C33_leaf",
    "T8.Search.C33_search",
    "T8.Search.C33_search_queries",
    "T8.Search.C33_empty_tree",
    "T8.Search.C33_class",
    "T8.Search.C33_class_queries",
    "T8.Search.C33_class_batched"
   ],
   "note": "for every lawful scheme, all callbacks with any state, for forests without empty local trees; C33_empty_tree shows that the search is undefined on an empty local tree"
  },
  {
   "property": "C34",
   "status": "proved",
   "theorems": [
    "T8.Leaf.C34_split",
    "T8.Leaf.C34_leaf"
   ],
   "note": "Every lawful scheme; sc_array_split by its documented behaviour."
  },
  {
   "property": "C35",
   "status": "proved",
   "theorems": [
    "T8.Replace.C35_tree",
    "T8.Replace.C35_forest"
   ],
   "note": "Non-recursive adaptation with any callback, complete or incomplete trees, any lawful scheme; assertions of debugging mode hold. The flag incomplete_trees of the new forest is any value that is set if it must be. For trees that are adapted as complete trees, the leaves are consecutive leaves of a complete refinement, or the family test of the scheme is right for all arrays (not so for triangles and tetrahedra)."
  },
  {
   "property": "C36",
   "status": "proved",
   "theorems": [
    "T8.Leaf.C36_has_leaf_desc",
    "T8.Leaf.C36_empty"
   ],
   "note": "Local and ghost leaves. The arrays of leaves are assumed non-empty, which holds for the trees of a forest (adaptation aborts when a tree loses all leaves)."
  },
  {
   "property": "C37",
   "status": "proved",
   "theorems": [
    "T8.Balance.C37_balance",
    "T8.Balance.C37_unchanged",
    "T8.Balance.C37_unchanged_test",
    "T8.Balance.C37_is_balanced"
   ],
   "note": "Any number of processes, complete and incomplete forests, with and without repartitioning. Same-level face neighbours, ghost layer and partition are parameters with contracts, which may fail; C58 discharges the contracts with the models of these functions for the default scheme, and a second lawful instance is given. Finding: is_balanced aborts on forests with leaves of the maximum level (C37_is_balanced_aborts)."
  },
  {
   "property": "C38",
   "status": "proved",
   "theorems": [
    "T8.Trees.C38_numbering"
   ],
   "note": "sc_array_bsearch by its documented behaviour; the hand-written debug search is modelled and shown to agree with it. Empty trees are covered."
  },
  {
   "property": "C39",
   "status": "partial",
   "theorems": [
    "T8.Trees.C39_no_overlap_partial",
    "T8.Trees.C39_overlap_undefined",
    "T8.Trees.C39_local_flag",
    "T8.Trees.C39_other_process",
    "T8.Trees.C39_release"
   ],
   "note": "Comparing neighbours suffices (C39_local_flag). The full statement is false: with an overlap the function uses a destroyed element, and an assertion fails on processes without an overlap of their own; release builds always report no overlap."
  },
  {
   "property": "C40",
   "status": "proved",
   "theorems": [
    "T8.Uniform.C40_first_element",
    "T8.Uniform.C40_only_if"
   ],
   "note": ""
  },
  {
   "property": "C41",
   "status": "partial",
   "theorems": [
    "T8.Uniform.C41_exact_partial",
    "T8.Uniform.C41_end",
    "T8.Uniform.C41_rounding",
    "T8.Uniform.C41_rounding_double",
    "T8.Uniform.C41_not_full"
   ],
   "note": "Right with exact arithmetic; with long double rounding the process is wrong for e.g. 82 elements on 2 processes (C41_rounding)."
  },
  {
   "property": "C42",
   "status": "proved",
   "theorems": [
    "T8.VectorSplit.C42_vector_split",
    "T8.VectorSplit.C42_narrow_type_truncates"
   ],
   "note": "Full statement for sizes that fit into the category type; a narrower type truncates (witness)."
  },
  {
   "property": "C43",
   "status": "proved",
   "theorems": [
    "T8.VectorHandler.C43_buffer_size",
    "T8.VectorHandler.C43_round_trip",
    "T8.VectorHandler.C43_send_recv",
    "T8.VectorHandler.C43_sendrecv"
   ],
   "note": "All vectors shorter than 2^31 items and all item serialisers that round-trip."
  },
  {
   "property": "C44",
   "status": "partial",
   "theorems": [
    "T8.Stash.C44_facejoin_symmetric",
    "T8.Stash.C44_facejoin_record",
    "T8.Stash.C44_facejoin_same_tree_not_symmetric",
    "T8.Stash.C44_facejoin_order",
    "T8.Stash.C44_class_order",
    "T8.Stash.C44_attribute_order",
    "T8.Stash.C44_attribute_equal",
    "T8.Stash.C44_stash_contents",
    "T8.Stash.C44_class_lookup",
    "T8.Stash.C44_attribute_lookup_partial",
    "T8.Stash.C44_attributes_last_tree_without",
    "T8.Stash.C44_attributes_overflow"
   ],
   "note": "Symmetry holds for two different trees and fails for a tree joined to itself. Attribute lookup in a committed replicated mesh is proved if the last tree has an attribute and is false otherwise (attribute data is overwritten, or memory behind the allocation is written)."
  },
  {
   "property": "C45",
   "status": "proved",
   "theorems": [
    "T8.VertexConn.C45_build",
    "T8.VertexConn.C45_commit",
    "T8.VertexConn.C45_round_trip",
    "T8.VertexConn.C45_contains_all_accepts_incomplete"
   ],
   "note": "Building the vertex-to-tree list from a tree-to-vertex list and back, for every traversal order of the unordered map. The last theorem records that contains_all_vertices only counts."
  },
  {
   "property": "C46",
   "status": "proved",
   "theorems": [
    "T8.C46_compare",
    "T8.C46_order"
   ],
   "note": "Whole finite domain."
  },
  {
   "property": "C47",
   "status": "proved",
   "theorems": [
    "T8.RefCount.C47_no_error",
    "T8.RefCount.C47_destroyed_iff",
    "T8.RefCount.C47_stays_destroyed",
    "T8.RefCount.C47_commit",
    "T8.RefCount.C47_all_released"
   ],
   "note": "For all histories of legal operations, including the intermediate forests of a commit with adapt, partition and balance (any number of balance rounds). Coarse mesh and scheme are modelled as reference counted resources."
  },
  {
   "property": "C48",
   "status": "proved",
   "theorems": [
    "T8.FaceIterate.C48_iterate",
    "T8.FaceIterate.C48_start_leaf",
    "T8.FaceIterate.C48_no_leaves",
    "T8.FaceIterate.C48_once",
    "T8.FaceIterate.C48_leaf",
    "T8.FaceIterate.C48_leaves",
    "T8.Standalone.Cls.faceScheme_lawful"
   ],
   "note": "for every lawful scheme and face scheme and all callbacks with any state; the face functions of the standalone scheme are shown to be lawful"
  },
  {
   "property": "C49",
   "status": "partial",
   "theorems": [
    "T8.Owner.C49_owners_partial",
    "T8.Owner.C49_face_bounds_partial",
    "T8.Owner.C49_bounds_partial"
   ],
   "note": "owners_at_face returns in ascending order exactly the processes owning finest descendants at the face, for every lawful scheme and face scheme (the standalone line/quad/hex scheme is proved lawful); the functions for bounds return the least and the greatest owner. Partial only because of the condition on the length of global_first_desc inherited from C27 (the search reads behind the end of the array otherwise)."
  },
  {
   "property": "C50",
   "status": "proved",
   "theorems": [
    "T8.Trees.C50_is_equal",
    "T8.Trees.C50_equivalence"
   ],
   "note": "Local part of the forests; every lawful scheme. Neither global tree ids nor the coarse mesh are compared by the code."
  },
  {
   "property": "C51",
   "status": "proved",
   "theorems": [
    "T8.ForestArrays.C51_arrays",
    "T8.ForestArrays.C51_first_tree_shared",
    "T8.ForestArrays.C51_last_tree_shared",
    "T8.ForestArrays.C51_find_owner_partial",
    "T8.ForestArrays.C51_find_owner_out_of_bounds",
    "T8.ForestArrays.Example.C51_incomplete_wrong"
   ],
   "note": "For every forest whose trees are covered by leaves and every distribution (also with empty processes) the created arrays have the documented content; chained with C27. C51_find_owner_partial needs a later process with leaves, because of the read behind the end of the array (C51_find_owner_out_of_bounds). Outside of the statement, for incomplete trees: C51_incomplete_wrong exhibits a wrong tree offset array."
  },
  {
   "property": "C52",
   "status": "proved",
   "theorems": [
    "T8.Neighbor.C52_face_neighbor_mutual"
   ],
   "note": "All classes of the default scheme; a replicated coarse mesh, so that local and global tree numbers agree. The p4est functions behind quads and hexahedra are assumed to be as documented. The class of the neighbor must have the level of the element (the classes have different maximum levels)."
  },
  {
   "property": "C53",
   "status": "proved",
   "theorems": [
    "T8.Neighbor.C53_face_neighbor_glued",
    "T8.Neighbor.C53_face_corners",
    "T8.Neighbor.C53_symmetry_corner",
    "T8.Neighbor.orientation_sense"
   ],
   "note": "Spec/FaceGluing.lean defines the gluing from the corners of the trees; orientation_sense shows that t8_eclass_face_orientation is the sense of rotation of the face corners."
  },
  {
   "property": "C54",
   "status": "partial",
   "theorems": [
    "T8.LeafNeighbor.C54_leaf_neighbors_partial",
    "T8.LeafNeighbor.C54_duplicates",
    "T8.Dline.faceClass",
    "T8.Simplex.faceClass",
    "T8.Prism.faceClass",
    "T8.Pyramid.faceClass",
    "T8.Cube.faceClass",
    "T8.Standalone.faceClass"
   ],
   "note": "For all leaf arrays and every class with the laws FaceClass, which hold for lines, triangles, tetrahedra, prisms, pyramids, quadrilaterals and hexahedra. Missing: local leaves and ghosts at the same face; then the code returns the local leaves twice (C54_duplicates). The bounds on the owners of the face and the order of leaves and ghosts are hypotheses."
  },
  {
   "property": "C55",
   "status": "partial",
   "theorems": [
    "T8.Ghost.C55_fill_remote_partial",
    "T8.Ghost.C55_symmetric",
    "T8.Ghost.C55_processes_partial",
    "T8.Ghost.C55_version2_empty",
    "T8.Ghost.C55_version1_empty",
    "T8.Ghost.C55_version1_undefined",
    "T8.Neighbor.C55_default_partial",
    "T8.Neighbor.C55_default_processes_partial"
   ],
   "note": "Proved for the default algorithm (version 3): the search over the local trees with its callback, the owner bounds handed down and t8_ghost_add_remote; result compared with a definition of sharing a face by descent and containment of faces. The array of first descendants must have an entry behind the last process because it is read there (finding of C27). The general theorem has the neighbor relation as a parameter with the laws Neighborhood (Spec/Ghost); C55_default_partial is the instance for the default scheme (all classes) on every conforming committed coarse mesh with the face neighbors across trees of t8_forest_element_face_neighbor; for pyramids with the repaired number of children at a face (finding of C14). False for versions 1 and 2: they collect nothing (C55_version2_empty, C55_version1_empty) or read an array that was never written (C55_version1_undefined)."
  },
  {
   "property": "C56",
   "status": "partial",
   "theorems": [
    "T8.Ghost.C56_ghost_layer_partial",
    "T8.Neighbor.default_codec",
    "T8.Neighbor.C56_default_partial"
   ],
   "note": "The messages are modelled as bytes with their padding and are written and parsed as in the library, for any order of arrival. Proved for the elements that version 3 collects (C55), so the array of first descendants must have an entry behind the last process (finding of C27) and the number of children at the faces of pyramids is the repaired one (finding of C14). Counters of type t8_locidx_t are assumed not to overflow and the number of bytes of a message to fit into an int; for the default scheme this follows from a bound of 39 million leaves per process. MPI delivers each message once; it is not modelled."
  },
  {
   "property": "C57",
   "status": "partial",
   "theorems": [
    "T8.Ghost.C57_exchange_partial",
    "T8.Ghost.C57_trees",
    "T8.Ghost.C57_elements",
    "T8.Ghost.C57_remotes",
    "T8.Neighbor.C57_default_partial"
   ],
   "note": "The lookups are proved for every ghost layer as in C56. The exchange is proved for ghost layers that are created with version 3 of the algorithm; what is missing is the same as for C55 and C56."
  },
  {
   "property": "C58",
   "status": "partial",
   "theorems": [
    "T8.Neighbor.C58_ghost_partial",
    "T8.Neighbor.C58_partition_partial",
    "T8.Neighbor.C58_balance_partial"
   ],
   "note": "The contracts that C37 assumes for ghost layer and partition are discharged with the models of the arrays (C51), the ghost layer (C55, C56) and partition (C21, C23). What is missing is the same as for C55: the entry behind the array of first descendants must exist (any value), face children of pyramids are the repaired ones, and the coarse mesh is conforming. Example: a prism leaf and a pyramid refined twice on two processes, which balance changes."
  },
  {
   "property": "C59",
   "status": "partial",
   "theorems": [
    "T8.Geometry.C59_reference_corners",
    "T8.Geometry.C59_tree_corners",
    "T8.Geometry.C59_continuous",
    "T8.Geometry.C59_face_corners_meet",
    "T8.Geometry.C59_face_corners",
    "T8.Geometry.C59_reference_centroid",
    "T8.Geometry.C59_centroid",
    "T8.Geometry.C59_centroid_pyramid",
    "T8.Geometry.C59_stretch_false",
    "T8.Geometry.C59_stretch_partial"
   ],
   "note": "All eight classes, all levels and orientations. The numbers are rational, without the rounding of double. Partial because of the finding: with stretch factors and more than one point the function reads wrong and uninitialized entries in trees of dimension one and two (C59_stretch_false); C59_stretch_partial covers one point and dimension three."
  },
  {
   "property": "C60",
   "status": "proved",
   "theorems": [
    "T8.JoinByVertices.C60_connectivity",
    "T8.JoinByVertices.C60_joins",
    "T8.JoinByVertices.C60_matched",
    "T8.JoinByVertices.C60_oriented",
    "T8.JoinByVertices.C60_separated",
    "T8.JoinByVertices.C60_hash_range",
    "T8.JoinByVertices.C60_hash_range_false",
    "T8.JoinByVertices.C60_tolerance_false",
    "T8.JoinByVertices.C60_both_false"
   ],
   "note": "For arbitrary functions in place of the floating point bins and comparisons; the hypothesis is that the comparison accepts a pair of vertices if and only if they are equal (C60_separated: sufficient condition without rounding). The three `_false` theorems are findings: vertices within the tolerance can be missed, surfaces in space lead to casts of negative numbers, and do_both_directions sets each join twice."
  },
  {
   "property": "C61",
   "status": "proved",
   "theorems": [
    "T8.Geometry.C61_volume",
    "T8.Geometry.C61_tet_flat",
    "T8.Geometry.C61_found",
    "T8.Geometry.C61_complete",
    "T8.Geometry.C61_triangle",
    "T8.Geometry.C61_quad",
    "T8.Geometry.C61_line",
    "T8.Geometry.C61_axis_aligned",
    "T8.Geometry.C61_axis_aligned_tolerance",
    "T8.Geometry.C61_tolerance_false",
    "T8.Geometry.C61_vertical_false",
    "T8.Geometry.C61_vertical_example",
    "T8.Geometry.C61_line_tolerance_false",
    "T8.Geometry.C61_planar_false",
    "T8.Geometry.C61_axis_aligned_line_false"
   ],
   "note": "Exact arithmetic (\u211a), any function with positive values at positive numbers in place of the square root. Dimension three: trees that are affine images of the reference tree, with a volume that is not 0; C61_planar_false shows that for hexahedra with faces that are not planar the test is wrong. The other `_false` theorems are findings: no tolerance in dimension three, triangles perpendicular to the xy-plane accept all points of their plane, the line test rejects points within the tolerance, and axis-aligned lines along the second or third axis are collapsed."
  },
  {
   "property": "C62",
   "status": "proved",
   "theorems": [
    "T8.Geometry.C62_volume",
    "T8.Geometry.C62_children",
    "T8.Geometry.C62_leaves",
    "T8.Geometry.C62_leaves_dim3",
    "T8.Geometry.C62_normal",
    "T8.Geometry.C62_normal_in_plane",
    "T8.Geometry.C62_normal_in_line",
    "T8.Geometry.C62_closed",
    "T8.Geometry.C62_gauss",
    "T8.Geometry.C62_across",
    "T8.Geometry.C62_warped_false"
   ],
   "note": "For trees that are affine images of the reference tree, over the rational numbers with the square root as a parameter (positive, and in dimension one and two sqrt(4x) = 2 sqrt(x)). The closed surface and the theorem of Gauss are proved in dimension three. Areas of quadrilateral faces that are not planar differ on the two sides of the face (C62_warped_false)."
  },
  {
   "property": "C63",
   "status": "partial",
   "theorems": [
    "T8.HypercubePad.C63_joins",
    "T8.HypercubePad.C63_matched",
    "T8.HypercubePad.C63_vertices_2D",
    "T8.HypercubePad.C63_vertices_3D_partial",
    "T8.HypercubePad.C63_vertices_parallelepiped",
    "T8.HypercubePad.C63_vertices_1D_partial",
    "T8.HypercubePad.C63_lines_false",
    "T8.HypercubePad.C63_offset_prism_false",
    "T8.HypercubePad.C63_offset_tet_false",
    "T8.HypercubePad.C63_frustum_false"
   ],
   "note": "The face connections are proved in full for offset 0. The vertices are proved for all accepted boundaries in dimension two, for all parallelepipeds in dimension three, and for other boxes if the trilinear map does not shrink an edge of the enlarged grid to a point. The claim is refuted for lines whose length is not 1, for a frustum in dimension three, and for offsets of tetrahedra and prisms."
  },
  {
   "property": "C64",
   "status": "partial",
   "theorems": [
    "T8.CadGeometry.C64_hex_edge",
    "T8.CadGeometry.C64_hex_face",
    "T8.CadGeometry.C64_tet_edge",
    "T8.CadGeometry.C64_tet_face_partial",
    "T8.CadGeometry.C64_tet_face_false",
    "T8.CadGeometry.C64_tet_face_edge2_false",
    "T8.CadGeometry.C64_tet_face_edge5_false",
    "T8.CadGeometry.C64_tet_other_edge_false",
    "T8.CadGeometry.C64_prism_edge",
    "T8.CadGeometry.C64_prism_face_partial",
    "T8.CadGeometry.C64_prism_face_false",
    "T8.CadGeometry.C64_prism_face1_edge8_false",
    "T8.CadGeometry.C64_prism_face1_edge7_false",
    "T8.CadGeometry.C64_prism_other_edge_false",
    "T8.CadGeometry.C64_prism_tear_false"
   ],
   "note": "Proved for edges and faces of hexahedra and edges of tetrahedra and prisms. For faces of tetrahedra and prisms the claim is false for some edges (findings in DESIGN.md) and proved for the others."
  },
  {
   "property": "C65",
   "status": "partial",
   "theorems": [
    "T8.CadGeometry.Planar.C65_quad_edge_partial",
    "T8.CadGeometry.Planar.C65_quad_face_partial",
    "T8.CadGeometry.Planar.C65_ref_intersection",
    "T8.CadGeometry.Planar.C65_tri_edge",
    "T8.CadGeometry.Planar.C65_tri_face_partial",
    "T8.CadGeometry.Planar.C65_tri_curve_false",
    "T8.CadGeometry.Planar.C65_quad_curve_false",
    "T8.CadGeometry.Planar.C65_quad_face_batch_false",
    "T8.CadGeometry.Planar.C65_quad_batch_false",
    "T8.CadGeometry.Planar.C65_tri_batch_false"
   ],
   "note": "Proved for edges of triangles and quads without a linked surface (surfaces at edges of quads: first point of a batch). With a linked surface the claim is false as soon as an edge has a curve or a batch has two points (findings in DESIGN.md); the remaining cases are proved."
  },
  {
   "property": "C66",
   "status": "partial",
   "theorems": [
    "T8.Tables.C66_faces",
    "T8.Tables.C66_num_edges",
    "T8.Tables.C66_edges_partial",
    "T8.Tables.C66_edges_line_false",
    "T8.Tables.C66_edges_pyramid_false",
    "T8.Tables.C66_edge_to_face",
    "T8.Tables.C66_face_edges",
    "T8.Tables.C66_neighbor_partial",
    "T8.Tables.C66_neighbor_false",
    "T8.Tables.C66_orientation",
    "T8.Tables.C66_tet_normals",
    "T8.Tables.C66_vtk",
    "T8.Tables.C66_counts"
   ],
   "note": "Proved for all tables except where it is false: the edge table of lines, the missing edge tables of pyramids and the edges that leave a face of a prism (findings in DESIGN.md)."
  },
  {
   "property": "C67",
   "status": "proved",
   "theorems": [
    "T8.Lagrange.C67_exact",
    "T8.Lagrange.C67_nodes",
    "T8.Lagrange.C67_faces",
    "T8.Lagrange.C67_face_nodes",
    "T8.Lagrange.C67_linear",
    "T8.Lagrange.C67_line_faces_false"
   ],
   "note": "All implemented classes and degrees; the statement about faces is for triangles, quads and hexahedra (faces of lines have no geometry, see findings in DESIGN.md)."
  },
  {
   "property": "C68",
   "status": "proved",
   "theorems": [
    "T8.Sphere.C68_triangulated",
    "T8.Sphere.C68_triangulated_vertices",
    "T8.Sphere.C68_prism_shell",
    "T8.Sphere.C68_cube_surface",
    "T8.Sphere.C68_cube_surface_fit",
    "T8.Sphere.C68_cube_surface_injective",
    "T8.Sphere.C68_cube_shell",
    "T8.Sphere.C68_cube_layers",
    "T8.Sphere.C68_cube_corner",
    "T8.Sphere.C68_inner",
    "T8.Sphere.C68_disk_circle",
    "T8.Sphere.C68_disk_tilted",
    "T8.Sphere.C68_disk_straight",
    "T8.Sphere.C68_ball_sphere"
   ],
   "note": "Sides between trees of a ball are in C69."
  },
  {
   "property": "C69",
   "status": "partial",
   "theorems": [
    "T8.SphereMesh.C69_faces",
    "T8.SphereMesh.C69_surface",
    "T8.SphereMesh.C69_triangulated_cube",
    "T8.SphereMesh.C69_shell",
    "T8.SphereMesh.C69_layers",
    "T8.SphereMesh.C69_disk_partial",
    "T8.SphereMesh.C69_disk_quarters",
    "T8.SphereMesh.C69_ball_partial",
    "T8.SphereMesh.C69_ball_octant",
    "T8.SphereMesh.C69_ball_quarters",
    "T8.SphereMesh.C69_ball_halves"
   ],
   "note": "All trees of all five meshes for the radius; all trees of the surfaces and the shell and the curved sides between trees of disk and ball for the fit. Missing: that the linear sides of disk and ball (center trees, inner sides, tilted edges) have the same vertices in both trees."
  }
 ]
}
