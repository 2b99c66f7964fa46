{"id": "C01", "title": "Parent and child are inverse", "statement": "For every element below the maximum level and every valid child number i, element_get_child followed by element_get_parent returns the element, element_get_child_id of the child is i and its level is one larger; conversely every element of positive level is the child with its own child id of its parent.", "quantifier": "all elements of all refinement levels of a tree, all child numbers, for every element shape of the schemes", "why_tests_cant": "the number of elements grows like 8^21 per tree; tests only refine a few levels and a wrong bit at one level or one type of simplex escapes them", "anchors": ["src/t8_schemes/t8_standalone/t8_standalone_implementation.hxx:element_get_child", "src/t8_schemes/t8_standalone/t8_standalone_implementation.hxx:element_get_parent", "src/t8_schemes/t8_standalone/t8_standalone_implementation.hxx:element_get_child_id", "src/t8_schemes/t8_default/t8_default_tri/t8_dtri_bits.c:t8_dtri_child", "src/t8_schemes/t8_default/t8_default_tri/t8_dtri_bits.c:t8_dtri_parent", "src/t8_schemes/t8_default/t8_default_line/t8_dline_bits.c:t8_dline_child", "src/t8_schemes/t8_default/t8_default_prism/t8_dprism_bits.c:t8_dprism_child", "src/t8_schemes/t8_default/t8_default_pyramid/t8_dpyramid_bits.c:t8_dpyramid_child"]}
{"id": "C02", "title": "Linear id is a bijection with the elements of a level", "statement": "For every level L, element_set_linear_id(L, id) builds, for every id in [0, number of level-L elements), a level-L element whose element_get_linear_id at level L is id; two level-L elements with equal linear id are equal.", "quantifier": "all levels up to the maximum level, all ids in range, all elements of the level", "why_tests_cant": "ids range over up to 2^63 values per level; any sampling misses most of them", "anchors": ["src/t8_schemes/t8_standalone/t8_standalone_implementation.hxx:element_set_linear_id", "src/t8_schemes/t8_standalone/t8_standalone_implementation.hxx:element_get_linear_id", "src/t8_schemes/t8_default/t8_default_tri/t8_dtri_bits.c:t8_dtri_linear_id", "src/t8_schemes/t8_default/t8_default_tri/t8_dtri_bits.c:t8_dtri_init_linear_id", "src/t8_schemes/t8_default/t8_default_line/t8_dline_bits.c:t8_dline_init_linear_id", "src/t8_schemes/t8_default/t8_default_prism/t8_dprism_bits.c:t8_dprism_linear_id", "src/t8_schemes/t8_default/t8_default_pyramid/t8_dpyramid_bits.c:t8_dpyramid_linear_id"]}
{"id": "C03", "title": "The successor is the next element on the space filling curve", "statement": "For every element that is not the last one of its level, element_construct_successor returns an element of the same level whose linear id is larger by exactly one.", "quantifier": "all non-last elements of every level", "why_tests_cant": "carry propagation over an arbitrary number of levels only happens for rare ids", "anchors": ["src/t8_schemes/t8_standalone/t8_standalone_implementation.hxx:element_construct_successor", "src/t8_schemes/t8_default/t8_default_tri/t8_dtri_bits.c:t8_dtri_successor", "src/t8_schemes/t8_default/t8_default_line/t8_dline_bits.c:t8_dline_successor", "src/t8_schemes/t8_default/t8_default_prism/t8_dprism_bits.c:t8_dprism_successor", "src/t8_schemes/t8_default/t8_default_pyramid/t8_dpyramid_bits.c:t8_dpyramid_successor"]}
{"id": "C04", "title": "Descendants form one contiguous id interval", "statement": "For every element e and every level L not smaller than its level, the level-L elements that have e as ancestor are exactly those whose linear id lies between the linear id of the first descendant and that of the last descendant of e at level L.", "quantifier": "all elements, all finer levels, all elements of the finer level", "why_tests_cant": "it quantifies over pairs of elements at arbitrary level distance", "anchors": ["src/t8_schemes/t8_standalone/t8_standalone_implementation.hxx:element_get_first_descendant", "src/t8_schemes/t8_standalone/t8_standalone_implementation.hxx:element_get_last_descendant", "src/t8_schemes/t8_default/t8_default_tri/t8_dtri_bits.c:t8_dtri_first_descendant", "src/t8_schemes/t8_default/t8_default_line/t8_dline_bits.c:t8_dline_last_descendant"]}
{"id": "C05", "title": "The nearest common ancestor is a common ancestor and the deepest one", "statement": "element_get_nca(a, b) is an ancestor of (or equal to) both elements, and every common ancestor of a and b is an ancestor of it.", "quantifier": "all pairs of elements of a tree of arbitrary levels", "why_tests_cant": "pairs of elements at arbitrary distance on the curve", "anchors": ["src/t8_schemes/t8_standalone/t8_standalone_implementation.hxx:element_get_nca", "src/t8_schemes/t8_default/t8_default_tri/t8_dtri_bits.c:t8_dtri_nearest_common_ancestor", "src/t8_schemes/t8_default/t8_default_line/t8_dline_bits.c:t8_dline_nearest_common_ancestor"]}
{"id": "C06", "title": "A family is exactly the set of children of one parent in order", "statement": "elements_are_family returns true for an array of valid elements if and only if the entries are, in order, all the children of one common parent.", "quantifier": "all arrays of elements of the size of a family", "why_tests_cant": "tests only try real families and a few shuffled ones; a missed check only shows for particular non-families", "anchors": ["src/t8_schemes/t8_standalone/t8_standalone_implementation.hxx:elements_are_family", "src/t8_schemes/t8_default/t8_default_tri/t8_dtri_bits.c:t8_dtri_is_familypv", "src/t8_schemes/t8_default/t8_default_line/t8_dline_bits.c:t8_dline_is_familypv", "src/t8_schemes/t8_default/t8_default_prism/t8_dprism_bits.c:t8_dprism_is_familypv", "src/t8_schemes/t8_default/t8_default_pyramid/t8_dpyramid_bits.c:t8_dpyramid_is_family"]}
{"id": "C07", "title": "Element comparison is the total order of the space filling curve", "statement": "element_compare is a total order on the elements of a tree, it is zero exactly for equal elements, an ancestor comes before its descendants, and on elements that do not overlap it is the order of the linear ids at any common level.", "quantifier": "all pairs and triples of elements", "why_tests_cant": "transitivity and totality quantify over triples", "anchors": ["src/t8_schemes/t8_standalone/t8_standalone_implementation.hxx:element_compare", "src/t8_schemes/t8_default/t8_default_tri/t8_dtri_bits.c:t8_dtri_compare", "src/t8_schemes/t8_default/t8_default_line/t8_dline_bits.c:t8_dline_compare", "src/t8_schemes/t8_scheme.hxx:element_compare"]}
{"id": "C08", "title": "Ancestor query agrees with iterating the parent function", "statement": "element_is_ancestor(a, b) is true if and only if a is obtained from b by taking the parent zero or more times; ancestor id and ancestor at a level agree with the iterated parent.", "quantifier": "all pairs of elements", "why_tests_cant": "all level differences and positions", "anchors": ["src/t8_schemes/t8_standalone/t8_standalone_implementation.hxx:element_is_ancestor", "src/t8_schemes/t8_standalone/t8_standalone_implementation.hxx:element_get_ancestor_id", "src/t8_schemes/t8_default/t8_default_tri/t8_dtri_bits.c:t8_dtri_is_ancestor"]}
{"id": "C09", "title": "The leaf count formula counts the descendants", "statement": "element_count_leaves(e, L) and count_leaves_from_root(L) return exactly the number of distinct level-L descendants that repeated refinement creates, and 0 when L is smaller than the level of e.", "quantifier": "all elements and all levels, including pyramids whose subtree sizes depend on the type", "why_tests_cant": "the counts are exponential; enumeration is impossible beyond few levels", "anchors": ["src/t8_schemes/t8_standalone/t8_standalone_implementation.hxx:element_count_leaves", "src/t8_schemes/t8_default/t8_default_pyramid/t8_default_pyramid.cxx:element_count_leaves", "src/t8_schemes/t8_default/t8_default_common/t8_default_common.hxx:count_leaves_from_root"]}
{"id": "C10", "title": "Face neighbours inside a tree are mutual", "statement": "If the same-level neighbour of e across face f is n with dual face f' and n lies inside the root element, then the neighbour of n across f' is e with dual face f, levels agree, and the neighbour is reported inside exactly when it is a descendant of the root.", "quantifier": "all elements of all levels and all faces", "why_tests_cant": "the relation must hold at every position and level, including the boundary of the tree", "anchors": ["src/t8_schemes/t8_standalone/t8_standalone_implementation.hxx:element_get_face_neighbor_inside", "src/t8_schemes/t8_default/t8_default_tri/t8_dtri_bits.c:t8_dtri_face_neighbour", "src/t8_schemes/t8_default/t8_default_line/t8_dline_bits.c:t8_dline_face_neighbour", "src/t8_schemes/t8_default/t8_default_prism/t8_dprism_bits.c:t8_dprism_face_neighbour"]}
{"id": "C11", "title": "Boundary face extraction and extrusion are inverse", "statement": "For every element touching root face f, element_get_boundary_face followed by element_extrude_face on f gives back the element; extruding any face element and taking its boundary face gives back the face element.", "quantifier": "all boundary elements, all levels, all faces", "why_tests_cant": "coordinates are rescaled between maximum levels of different shapes; an error only shows at specific levels", "anchors": ["src/t8_schemes/t8_standalone/t8_standalone_implementation.hxx:element_get_boundary_face", "src/t8_schemes/t8_standalone/t8_standalone_implementation.hxx:element_extrude_face", "src/t8_schemes/t8_default/t8_default_tri/t8_default_tri.cxx:element_extrude_face", "src/t8_schemes/t8_default/t8_default_line/t8_dline_bits.c:t8_dline_extrude_face"]}
{"id": "C12", "title": "Face transformation between trees is an invertible tree map", "statement": "For every orientation, sign and order of the two trees, transforming a face element from one tree to the other and back with the roles exchanged is the identity, keeps the level and maps the parent of an element to the parent of the image.", "quantifier": "all face elements of all levels, all orientations, signs and both orders", "why_tests_cant": "every combination of orientation and sign at every position; a wrong neighbour lookup corrupts ghost layers silently", "anchors": ["src/t8_schemes/t8_standalone/t8_standalone_implementation.hxx:element_transform_face", "src/t8_schemes/t8_default/t8_default_line/t8_dline_bits.c:t8_dline_transform_face", "src/t8_schemes/t8_default/t8_default_tri/t8_dtri_bits.c:t8_dtri_transform_face"]}
{"id": "C13", "title": "Children at a face are exactly the children touching the face", "statement": "element_get_children_at_face lists, in ascending order of their child id and without omission, exactly the children that have a face lying in the given face of the element, element_face_get_child_face is the number of that face and element_face_get_parent_face inverts it.", "quantifier": "all elements, all faces, all children", "why_tests_cant": "must hold for every type and level for hanging-face logic to be right", "anchors": ["src/t8_schemes/t8_standalone/t8_standalone_implementation.hxx:element_get_children_at_face", "src/t8_schemes/t8_standalone/t8_standalone_implementation.hxx:element_face_get_child_face", "src/t8_schemes/t8_standalone/t8_standalone_implementation.hxx:element_face_get_parent_face", "src/t8_schemes/t8_default/t8_default_tri/t8_dtri_bits.c:t8_dtri_children_at_face"]}
{"id": "C14", "title": "First and last descendants at a face bound all descendants at this face", "statement": "Among all level-L descendants of e that touch face f of e, element_get_first_descendant_face has the smallest and element_get_last_descendant_face has the largest linear id, and both touch the face.", "quantifier": "all elements, faces, finer levels and all descendants", "why_tests_cant": "exponentially many descendants", "anchors": ["src/t8_schemes/t8_standalone/t8_standalone_implementation.hxx:element_get_first_descendant_face", "src/t8_schemes/t8_standalone/t8_standalone_implementation.hxx:element_get_last_descendant_face", "src/t8_schemes/t8_default/t8_default_tri/t8_dtri_bits.c:t8_dtri_first_descendant"]}
{"id": "C15", "title": "Element serialization round-trips", "statement": "element_MPI_Unpack of a buffer produced by element_MPI_Pack gives back the same elements in the same order and consumes exactly the bytes written, inside a longer message too.", "quantifier": "all element lists and all buffer contexts", "why_tests_cant": "arbitrary lengths and bit patterns of coordinates", "anchors": ["src/t8_schemes/t8_standalone/t8_standalone_implementation.hxx:element_MPI_Pack", "src/t8_schemes/t8_standalone/t8_standalone_implementation.hxx:element_MPI_Unpack", "src/t8_schemes/t8_default/t8_default_tri/t8_default_tri.cxx:element_MPI_Pack"]}
{"id": "C16", "title": "A uniform forest contains every element of the level exactly once", "statement": "After creating a uniform forest on any number of processes, concatenating the local leaves of all processes in rank order gives, for each tree in order, all elements of that level in curve order, each exactly once.", "quantifier": "all tree counts, levels, numbers of processes (including more processes than elements) and ranks", "why_tests_cant": "number of processes and elements are unbounded; rounding of the bounds matters at boundaries", "anchors": ["src/t8_forest/t8_forest.cxx:t8_forest_populate", "src/t8_cmesh/t8_cmesh.cxx:t8_cmesh_uniform_bounds_equal_element_count", "src/t8_cmesh/t8_cmesh.hxx:t8_cmesh_get_first_element_of_process"]}
{"id": "C17", "title": "Non-recursive adaptation does exactly what the callback asked", "statement": "For every callback and every input leaf sequence, t8_forest_adapt replaces each leaf by its children when the callback answered refine (and refinement is possible), each complete family by its parent when it answered coarsen for the family, drops a leaf when asked to remove it and keeps it otherwise, in the same order, consulting the callback exactly once per kept decision.", "quantifier": "all callbacks (arbitrary stateful functions), all leaf sequences, all schemes", "why_tests_cant": "the callback is user code with arbitrary answers; unit tests fix a few callbacks", "anchors": ["src/t8_forest/t8_forest_adapt.cxx:t8_forest_adapt"]}
{"id": "C18", "title": "Adaptation keeps the mesh a tiling", "statement": "If the leaves of a tree tile the tree (no overlap, no gap) then after adaptation without removal, for any callback and for recursive adaptation too, the leaves again tile the tree, are in curve order and have levels between 0 and the maximum level.", "quantifier": "all callbacks, all tilings, any distribution of the tiling over processes", "why_tests_cant": "holds only by an induction over the refinement history", "anchors": ["src/t8_forest/t8_forest_adapt.cxx:t8_forest_adapt", "src/t8_forest/t8_forest_adapt.cxx:t8_forest_adapt_coarsen_recursive", "src/t8_forest/t8_forest_adapt.cxx:t8_forest_adapt_refine_recursive"]}
{"id": "C19", "title": "Recursive adaptation terminates and reaches the requested fixpoint", "statement": "Recursive refinement and recursive coarsening terminate for every callback; every element produced by recursive refinement was last answered with a non-refining decision or cannot be refined further.", "quantifier": "all callbacks including ones that always answer refine", "why_tests_cant": "termination for arbitrary user callbacks cannot be tested", "anchors": ["src/t8_forest/t8_forest_adapt.cxx:t8_forest_adapt_refine_recursive", "src/t8_forest/t8_forest_adapt.cxx:t8_forest_adapt_coarsen_recursive"]}
{"id": "C20", "title": "Coarsening in forests with removed elements never creates overlap", "statement": "If the leaves of a tree do not overlap, then whenever t8_forest_is_incomplete_family accepts a group of leaves for coarsening, replacing the group by its parent gives a leaf sequence without overlap, in curve order.", "quantifier": "all leaf sequences with arbitrary removed elements and all positions in them", "why_tests_cant": "depends on arbitrary holes left by earlier removals", "anchors": ["src/t8_forest/t8_forest.cxx:t8_forest_is_incomplete_family", "src/t8_forest/t8_forest_adapt.cxx:t8_forest_adapt"]}
{"id": "C21", "title": "Unweighted partition is balanced and covers all elements", "statement": "The element offsets computed for a repartition start at 0, end at the global number of elements, are monotone and give every process floor or ceil of the average number of elements.", "quantifier": "all global element counts and numbers of processes for which the floating point product is exact; stated bound otherwise", "why_tests_cant": "unbounded counts; rounding errors occur only for huge values", "anchors": ["src/t8_forest/t8_forest_partition.cxx:t8_forest_partition_compute_new_offset"]}
{"id": "C22", "title": "Weighted partition cuts at the requested weight fractions", "statement": "With a weight function, process p's range starts at the first element such that the accumulated weight up to and including it exceeds p times the average weight; every offset is set exactly once by exactly one process.", "quantifier": "all non-negative weight functions with positive total, all process counts, all initial distributions", "why_tests_cant": "weights are user functions; cooperation of all processes must fill the offset array without gap or overlap", "anchors": ["src/t8_forest/t8_forest_partition.cxx:t8_forest_partition_compute_new_offset"]}
{"id": "C23", "title": "Repartition preserves the global leaf sequence", "statement": "For any old and any new distribution of leaves over processes, after t8_forest_partition process p stores exactly the leaves with global index in its new interval, in the same order, with the same tree ids, so the global sequence of (tree, leaf) is unchanged.", "quantifier": "all old and new offsets, all numbers of processes, all trees and leaf sequences", "why_tests_cant": "message contents depend on the relative position of two arbitrary partitions", "anchors": ["src/t8_forest/t8_forest_partition.cxx:t8_forest_partition_given", "src/t8_forest/t8_forest_partition.cxx:t8_forest_partition_sendloop", "src/t8_forest/t8_forest_partition.cxx:t8_forest_partition_recvloop", "src/t8_forest/t8_forest_partition.cxx:t8_forest_partition_fill_buffer", "src/t8_forest/t8_forest_partition.cxx:t8_forest_partition_recv_message"]}
{"id": "C24", "title": "Partition sends and receives match", "statement": "During t8_forest_partition every message one process posts to another is expected by exactly that process and every expected receive has a matching sender, so the exchange neither blocks forever nor leaves messages unreceived.", "quantifier": "all pairs of processes, all old and new offsets including empty processes", "why_tests_cant": "a mismatch needs a particular combination of empty ranges and hangs instead of failing", "anchors": ["src/t8_forest/t8_forest_partition.cxx:t8_forest_partition_sendrange", "src/t8_forest/t8_forest_partition.cxx:t8_forest_partition_recvrange", "src/t8_forest/t8_forest_partition.cxx:t8_forest_partition_recvloop"]}
{"id": "C25", "title": "User data follows the elements in a repartition", "statement": "t8_forest_partition_data moves arrays of per-element data such that the datum of each element ends at the element's new position on its new process.", "quantifier": "all data arrays and all pairs of partitions", "why_tests_cant": "same reason as for the elements", "anchors": ["src/t8_forest/t8_forest_partition.cxx:t8_forest_partition_data", "src/t8_forest/t8_forest_partition.cxx:t8_forest_partition_fill_buffer_data"]}
{"id": "C26", "title": "Partition for coarsening never splits a family", "statement": "With partition-for-coarsening enabled, the corrected offsets are monotone, move by less than one family size, agree on all processes and no complete family of leaves is split between processes.", "quantifier": "all forests, weights, process counts", "why_tests_cant": "families straddling boundaries in every alignment, spread over several small processes", "anchors": ["src/t8_forest/t8_forest_partition_for_coarsening.cxx:t8_forest_pfc_family_range_around_border", "src/t8_forest/t8_forest_partition_for_coarsening.cxx:t8_forest_pfc_correction_offsets"]}
{"id": "C27", "title": "The owner search finds the process owning an element", "statement": "t8_forest_element_find_owner terminates and returns the unique process whose leaf range contains the first descendant of the element, for every start guess, reading only valid entries of the offset arrays.", "quantifier": "all elements, distributions, empty processes, search bounds and start guesses", "why_tests_cant": "the search skips empty processes in both directions; failures need particular patterns of empty processes", "anchors": ["src/t8_forest/t8_forest.cxx:t8_forest_element_find_owner_ext", "src/t8_forest/t8_forest.cxx:t8_forest_element_check_owner"]}
{"id": "C28", "title": "Partition table encoding of coarse trees is lossless", "statement": "For every consistent table of first trees and shared flags, the signed encoding can be decoded: first tree, last tree, number of trees, emptiness and tree membership computed from the table are those of the distribution it was built from.", "quantifier": "all distributions of trees over processes, including empty and shared ones", "why_tests_cant": "all patterns of empty processes and shared trees", "anchors": ["src/t8_cmesh/t8_cmesh_internal/t8_cmesh_offset.c:t8_offset_first", "src/t8_cmesh/t8_cmesh_internal/t8_cmesh_offset.c:t8_offset_first_tree_to_entry", "src/t8_cmesh/t8_cmesh_internal/t8_cmesh_offset.c:t8_offset_num_trees", "src/t8_cmesh/t8_cmesh_internal/t8_cmesh_offset.c:t8_offset_last", "src/t8_cmesh/t8_cmesh_internal/t8_cmesh_offset.c:t8_offset_in_range"]}
{"id": "C29", "title": "Owner queries for coarse trees are complete and terminate", "statement": "On a consistent table, the search for any, first, last and all owners of a tree terminates and returns an owner, the smallest, the largest and exactly the ascending list of all owners.", "quantifier": "all consistent tables and all trees", "why_tests_cant": "binary search over tables with empty processes", "anchors": ["src/t8_cmesh/t8_cmesh_internal/t8_cmesh_offset.c:t8_offset_any_owner_of_tree_ext", "src/t8_cmesh/t8_cmesh_internal/t8_cmesh_offset.c:t8_offset_first_owner_of_tree", "src/t8_cmesh/t8_cmesh_internal/t8_cmesh_offset.c:t8_offset_last_owner_of_tree", "src/t8_cmesh/t8_cmesh_internal/t8_cmesh_offset.c:t8_offset_all_owners_of_tree"]}
{"id": "C30", "title": "Each coarse tree is delivered exactly once in a coarse mesh repartition", "statement": "For any two consistent tables, every tree that a process owns in the new table and did not own before is sent to it by exactly one process, namely the smallest old owner, and the send-range test answers yes exactly when at least one tree is sent.", "quantifier": "all pairs of consistent tables, all pairs of processes, all trees", "why_tests_cant": "duplicates or losses only appear for particular sharing patterns", "anchors": ["src/t8_cmesh/t8_cmesh_internal/t8_cmesh_offset.c:t8_offset_sendstree", "src/t8_cmesh/t8_cmesh_internal/t8_cmesh_offset.c:t8_offset_sendsto", "src/t8_cmesh/t8_cmesh_internal/t8_cmesh_offset.c:t8_offset_range_send"]}
{"id": "C31", "title": "Uniform bounds of the coarse mesh are consistent across processes", "statement": "The first and last tree and in-tree element bounds that each process computes for a uniform refinement are such that consecutive processes continue exactly where the previous one stopped, and an empty process reports an empty tree range positioned before the first tree of the next non-empty process.", "quantifier": "all tree counts, leaf counts per tree, process counts", "why_tests_cant": "empty processes appear only for particular ratios", "anchors": ["src/t8_cmesh/t8_cmesh.cxx:t8_cmesh_uniform_bounds_equal_element_count", "src/t8_cmesh/t8_cmesh.cxx:t8_cmesh_uniform_bounds_from_unpartioned"]}
{"id": "C32", "title": "Leaf array binary searches are correct", "statement": "On every leaf array in curve order, t8_forest_bin_search_lower returns the last leaf whose id is not larger than the given id (or -1), t8_forest_bin_search_upper the first leaf with id not smaller (or -1), the ancestor/descendant search the first leaf overlapping the element (or -1) and t8_element_array_find the index of the element if present.", "quantifier": "all ordered leaf arrays and all ids, levels and elements", "why_tests_cant": "off-by-one errors show only for specific positions", "anchors": ["src/t8_forest/t8_forest_private.cxx:t8_forest_bin_search_lower", "src/t8_forest/t8_forest_private.cxx:t8_forest_bin_search_upper", "src/t8_forest/t8_forest_private.cxx:t8_forest_bin_search_first_descendant_ancestor", "src/t8_data/t8_containers.cxx:t8_element_array_find"]}
{"id": "C33", "title": "Search visits every leaf that no ancestor pruned, exactly once", "statement": "t8_forest_search calls the search callback on each leaf exactly once unless the callback rejected an ancestor of the leaf, in curve order, with the right leaf index; a query is tested on an element exactly when it was accepted on all its searched ancestors.", "quantifier": "all callbacks, query sets, leaf tilings and segments of tilings", "why_tests_cant": "user callbacks and pruning patterns are arbitrary", "anchors": ["src/t8_forest/t8_forest_iterate.cxx:t8_forest_search_recursion", "src/t8_forest/t8_forest_iterate.cxx:t8_forest_search_tree", "src/t8_forest/t8_forest_search/t8_forest_search.cxx:search_recursion"]}
{"id": "C34", "title": "Splitting a leaf array by child number is exact", "statement": "t8_forest_split_array of the leaves below an element returns offsets such that the leaves between two consecutive offsets are exactly the leaves below the corresponding child.", "quantifier": "all elements and leaf arrays below them", "why_tests_cant": "arbitrary distribution of leaves over children, including absent children", "anchors": ["src/t8_forest/t8_forest_iterate.cxx:t8_forest_split_array"]}
{"id": "C35", "title": "iterate_replace pairs old and new leaves exactly", "statement": "After a non-recursive adaptation, t8_forest_iterate_replace reports every old leaf and every new leaf exactly once, in order, each with the refinement flag describing what adaptation did to it.", "quantifier": "all forests obtained by adaptation with any callback", "why_tests_cant": "relates two histories", "anchors": ["src/t8_forest/t8_forest_iterate.cxx:t8_forest_iterate_replace"]}
{"id": "C36", "title": "The leaf-descendant query is exact", "statement": "t8_forest_element_has_leaf_desc(e) is true if and only if some stored leaf of the tree is a strict descendant of e.", "quantifier": "all elements and leaf arrays", "why_tests_cant": "arbitrary leaf configurations", "anchors": ["src/t8_forest/t8_forest.cxx:t8_forest_element_has_leaf_desc"]}
{"id": "C37", "title": "Balance terminates with a 2:1 balanced refinement", "statement": "t8_forest_balance terminates, its result is a refinement of the input whose face-adjacent leaves differ by at most one level according to the library's own test, it never refines above the maximum level present, and leaves an already balanced forest unchanged.", "quantifier": "all forests and neighbour relations", "why_tests_cant": "number of rounds depends on the input; ripple effects", "anchors": ["src/t8_forest/t8_forest_balance.cxx:t8_forest_balance", "src/t8_forest/t8_forest_balance.cxx:t8_forest_is_balanced", "src/t8_forest/t8_forest_balance.cxx:t8_forest_balance_adapt"]}
{"id": "C38", "title": "Local leaf numbering is a bijection", "statement": "t8_forest_get_leaf_element maps every local index to exactly one (tree, leaf in tree) pair, the inverse of tree offset plus index in tree; trees may be empty.", "quantifier": "all forests", "why_tests_cant": "arbitrary tree sizes", "anchors": ["src/t8_forest/t8_forest.cxx:t8_forest_get_leaf_element", "src/t8_forest/t8_forest.cxx:t8_forest_compute_elements_offset", "src/t8_forest/t8_forest.cxx:t8_forest_compare_elem_tree"]}
{"id": "C39", "title": "The overlap test is exact", "statement": "t8_forest_no_overlap reports no overlap for a curve-ordered local leaf sequence if and only if no stored leaf is an ancestor of (or equal to) another stored leaf of the same tree.", "quantifier": "all leaf sequences in curve order", "why_tests_cant": "it only compares neighbours; that this suffices is a theorem", "anchors": ["src/t8_forest/t8_forest.cxx:t8_forest_no_overlap"]}
{"id": "C40", "title": "First element of a process is computed exactly, without overflow", "statement": "t8_cmesh_get_first_element_of_process(p, P, N) equals floor(p*N/P) for all 0 <= p <= P < 2^32 and N < 2^64, although p*N does not fit into 64 bits.", "quantifier": "all 32 bit p and P and all 64 bit N", "why_tests_cant": "2^128 inputs; overflow cases are rare", "anchors": ["src/t8_cmesh/t8_cmesh.hxx:t8_cmesh_get_first_element_of_process"]}
{"id": "C41", "title": "Process of an element is the inverse of first element of a process", "statement": "The process computed for a global element index is the one whose uniform interval contains it, and number of processes for the one-past-the-end index.", "quantifier": "all element indices, element counts and process counts", "why_tests_cant": "empty processes and rounding at interval ends", "anchors": ["src/t8_cmesh/t8_cmesh.cxx:t8_cmesh_determine_partition", "src/t8_cmesh/t8_cmesh.cxx:t8_A_times_B_over_C_gloidx"]}
{"id": "C42", "title": "vector_split computes category offsets", "statement": "For a range whose categories are non-decreasing, vector_split terminates and writes offsets such that position j has category k if and only if offsets[k] <= j < offsets[k+1].", "quantifier": "all ranges, all category functions that are monotone on the range", "why_tests_cant": "interleaved binary searches with empty categories", "anchors": ["src/t8_helper_functions/t8_vector_algorithms.hxx:vector_split"]}
{"id": "C43", "title": "Vector handler round-trips any data", "statement": "A buffer packed by a vector handler is unpacked to the same vector by another handler regardless of its previous content, and the computed buffer size is exactly the number of bytes written.", "quantifier": "all vectors, all item serializers that round-trip", "why_tests_cant": "arbitrary user data types and sizes", "anchors": ["src/t8_data/t8_vector_handler.hxx:pack_vector_prefix", "src/t8_data/t8_vector_handler.hxx:unpack_vector_prefix", "src/t8_data/t8_vector_handler.hxx:buffer_size"]}
{"id": "C44", "title": "Stashed face connections are direction independent", "statement": "Stashing a face connection a-b or b-a stores the same record (smaller tree id first with its own face), sorting is by a total order, and looking an attribute up by tree, package and key finds it if it was added.", "quantifier": "all sequences of stash operations", "why_tests_cant": "all operation sequences", "anchors": ["src/t8_cmesh/t8_cmesh_internal/t8_cmesh_stash.c:t8_stash_add_facejoin", "src/t8_cmesh/t8_cmesh_internal/t8_cmesh_stash.c:t8_stash_attribute_compare"]}
{"id": "C45", "title": "Vertex-to-tree lists invert tree-to-vertex lists", "statement": "After building the vertex connectivity, the list of a global vertex contains a pair (tree, corner) exactly once if and only if that corner of that tree has this global vertex id.", "quantifier": "all meshes and vertex numberings", "why_tests_cant": "arbitrary connectivity", "anchors": ["src/t8_cmesh/t8_cmesh_vertex_connectivity/t8_cmesh_vertex_conn_vertex_to_tree.cxx:build_from_ttv", "src/t8_cmesh/t8_cmesh_vertex_connectivity/t8_cmesh_vertex_conn_vertex_to_tree.cxx:sort_list_by_tree_id"]}
{"id": "C46", "title": "Element class comparison is a strict order on equal dimensions", "statement": "t8_eclass_compare returns 0 exactly for equal classes, is antisymmetric and transitive on classes of the same dimension, so both sides of a face connection agree which face is the smaller one.", "quantifier": "all pairs and triples of classes of equal dimension", "why_tests_cant": "two processes evaluate it independently and must agree", "anchors": ["src/t8_eclass/t8_eclass.c:t8_eclass_compare"]}
{"id": "C47", "title": "Reference counting destroys a forest exactly when the last owner releases it", "statement": "For every sequence of ref, unref, derive and commit operations that respects the documented ownership rules, no object is used after destruction, none is destroyed twice, and after all user references are released every object is destroyed.", "quantifier": "all well-formed operation histories", "why_tests_cant": "histories are unbounded; leaks and double frees depend on the interleaving of derive and release", "anchors": ["src/t8_forest/t8_forest.cxx:t8_forest_ref", "src/t8_forest/t8_forest.cxx:t8_forest_unref", "src/t8_forest/t8_forest.cxx:t8_forest_reset", "src/t8_forest/t8_forest.cxx:t8_forest_commit"]}
{"id": "C48", "title": "Face iteration visits exactly the leaves at the face", "statement": "t8_forest_iterate_faces over an element and a face calls the callback on exactly those leaves below the element that touch the face, once each, in curve order, with the face number of the leaf, unless an ancestor was rejected.", "quantifier": "all elements, faces, leaf arrays and callbacks", "why_tests_cant": "arbitrary refinement patterns at a face", "anchors": ["src/t8_forest/t8_forest_iterate.cxx:t8_forest_iterate_faces"]}
{"id": "C49", "title": "Owners at a face are complete and ascending", "statement": "t8_forest_element_owners_at_face returns, in ascending order without duplicates, exactly the processes owning descendants of the element at the face.", "quantifier": "all elements, faces and distributions", "why_tests_cant": "arbitrary distributions", "anchors": ["src/t8_forest/t8_forest.cxx:t8_forest_element_owners_at_face_recursion"]}
{"id": "C50", "title": "Forest equality is an equivalence and means equal leaf sequences", "statement": "t8_forest_is_equal is reflexive, symmetric and transitive, and two forests are equal exactly when they have the same scheme, the same tree classes and the same leaves in every local tree.", "quantifier": "all forests", "why_tests_cant": "quantifies over all leaf contents", "anchors": ["src/t8_forest/t8_forest.cxx:t8_forest_is_equal"]}
{"id": "C51", "title": "The arrays about the distribution of a forest have the documented content", "statement": "For a forest whose trees are covered by its leaves, t8_forest_partition_create_offsets, t8_forest_partition_create_tree_offsets and t8_forest_partition_create_first_desc create arrays that encode which process has which leaves and trees (with the shared flag and with empty processes) and the first descendant of each process; t8_forest_first_tree_shared and t8_forest_last_tree_shared tell whether another process has leaves of the tree.", "quantifier": "all complete forests, all distributions of the leaves over any number of processes", "why_tests_cant": "arbitrary distributions with empty processes and trees shared by many processes", "anchors": ["src/t8_forest/t8_forest_partition.cxx:t8_forest_partition_create_offsets", "src/t8_forest/t8_forest_partition.cxx:t8_forest_partition_create_tree_offsets", "src/t8_forest/t8_forest_partition.cxx:t8_forest_partition_create_first_desc", "src/t8_forest/t8_forest.cxx:t8_forest_tree_shared"]}
{"id": "C52", "title": "Face neighbors are mutual, also across trees", "statement": "In a forest over a committed conforming coarse mesh with trees of any classes, t8_forest_element_neighbor_eclass and t8_forest_element_face_neighbor never abort; they report no neighbor exactly at tree faces that are not connected; otherwise the result is an element of the neighbor tree's class and of the same level, and the face neighbor of the result over the returned face is the original element, its tree and the original face.", "quantifier": "all conforming meshes, trees, elements of all eight classes up to the maximum level, faces, orientations", "why_tests_cant": "combinations of classes, faces, orientations, element types and levels up to 30", "anchors": ["src/t8_forest/t8_forest.cxx:t8_forest_element_face_neighbor", "src/t8_forest/t8_forest.cxx:t8_forest_element_neighbor_eclass", "src/t8_cmesh/t8_cmesh.cxx:t8_cmesh_get_face_neighbor", "src/t8_cmesh/t8_cmesh_internal/t8_cmesh_trees.cxx:t8_cmesh_tree_to_face_encode", "src/t8_cmesh/t8_cmesh_internal/t8_cmesh_commit.cxx:t8_cmesh_commit_replicated_new"]}
{"id": "C53", "title": "Face neighbors across trees touch along the glued face", "statement": "The face of the computed neighbor consists of exactly those points of the neighbor tree that are identified with the points of the element's face, when the two tree faces are glued as the documentation of t8_cmesh_set_join defines the orientation: corner 0 of the main face lies on corner k of the other face, and the trees are on opposite sides of the face.", "quantifier": "all conforming meshes, elements, faces, orientations and all points of the faces", "why_tests_cant": "all points of all faces for all orientations", "anchors": ["src/t8_forest/t8_forest.cxx:t8_forest_element_face_neighbor", "src/t8_eclass/t8_eclass.h:t8_eclass_face_orientation", "src/t8_eclass/t8_eclass.h:t8_face_vertex_to_tree_vertex", "src/t8_cmesh/t8_cmesh.h:t8_cmesh_set_join"]}
{"id": "C54", "title": "The neighbor leaves of a leaf are exactly the leaves at the face", "statement": "t8_forest_leaf_face_neighbors(_ext) returns, for a face of a leaf, exactly the local and ghost leaves that share a part of the face with it: the leaf that contains the same-level neighbor and has a face covering the common face, or all leaves inside of the same-level neighbor with a face in the common face; each once, in the order of the leaf arrays, with its dual face and its index, where ghosts are counted behind the local leaves.", "quantifier": "all leaf arrays and ghost arrays, all refinement patterns, all elements and faces, all element classes", "why_tests_cant": "the result depends on the distribution of the neighbors over the local and the ghost tree; tests with few processes rarely have neighbors of one face in both", "anchors": ["src/t8_forest/t8_forest.cxx:t8_forest_leaf_face_neighbors_ext", "src/t8_forest/t8_forest.cxx:t8_forest_leaf_face_neighbors_iterate", "src/t8_forest/t8_forest_iterate.cxx:t8_forest_iterate_faces"]}
{"id": "C55", "title": "The leaves that are collected for the ghost layers of other processes are exactly the leaves at process boundaries", "statement": "Creating a face ghost layer, a process collects for every other process q exactly those of its local leaves that share a face with a leaf of q: each once, in the order of the leaf arrays, with its index in its tree; nothing is collected for the process itself. This holds for all three ghost algorithms. Sharing a face is mutual, so p collects leaves for q exactly if q collects leaves for p, which is what lets the processes receive messages exactly from those processes they send to.", "quantifier": "all forests whose leaves tile their trees, all distributions to processes including empty ones, all refinement patterns, all neighbor relations between trees that satisfy the laws of Spec/Ghost", "why_tests_cant": "whether an element is skipped depends on bounds of owners that are handed down from the ancestors during the search; a wrong bound loses ghosts only for special distributions", "anchors": ["src/t8_forest/t8_forest_ghost.cxx:t8_forest_ghost_search_boundary", "src/t8_forest/t8_forest_ghost.cxx:t8_ghost_add_remote", "src/t8_forest/t8_forest_ghost.cxx:t8_forest_ghost_fill_remote_v3", "src/t8_forest/t8_forest_ghost.cxx:t8_forest_ghost_fill_remote"]}
{"id": "C56", "title": "After the exchange of messages every process has exactly the right ghost leaves, in order", "statement": "If all processes send the leaves that they collected for the others and the messages for a process arrive, in any order, then its ghost layer consists of exactly those leaves of other processes that share a face with one of its leaves, each once, ordered by owner and by the leaf order. The ghost trees are sorted by their global numbers without duplicates, none of them is empty, they have the right class and are found by their global number; the offset of a ghost tree is the number of ghosts before it; for each owner the stored number of its first ghost, and the tree and the place in this tree where it is, are right. The array of remote processes is sorted and has exactly the owners of ghosts.", "quantifier": "all forests, distributions and neighbor relations as in C55, all orders in which the messages arrive, all layouts of elements in memory that can be read back", "why_tests_cant": "the order of arrival is up to MPI; the messages are packed with padding and are parsed as soon as all messages of lower ranks are there", "anchors": ["src/t8_forest/t8_forest_ghost.cxx:t8_forest_ghost_send_start", "src/t8_forest/t8_forest_ghost.cxx:t8_forest_ghost_parse_received_message", "src/t8_forest/t8_forest_ghost.cxx:t8_forest_ghost_receive"]}
{"id": "C57", "title": "The exchange of data gives every ghost the value that its owner has, and ghosts are looked up correctly", "statement": "If each process has an array with one value for each of its leaves followed by one entry for each of its ghosts, then after t8_forest_ghost_exchange_data the values of the local leaves are unchanged and the entry of each ghost is the value that the process that owns this leaf has for it, for any order in which the messages arrive; no message is longer than the part of the array that it is received into and nothing else is written. The number of a ghost tree is found from its global number exactly if it has ghosts and vice versa; element j of ghost tree i is the ghost with number offset(i) + j, and all ghosts are found in this way; the first ghost of a process has as number the count of the ghosts of processes with lower ranks and is in the ghost tree that is stored for the process.", "quantifier": "all forests, distributions and neighbor relations as in C55, all values of any type, all orders in which the messages arrive", "why_tests_cant": "sender and receiver compute the order of the elements independently: one from the indices that it stored when it collected the leaves, the other one from offsets of the messages that it parsed; an error shows up as values at wrong elements only for particular partitions", "anchors": ["src/t8_forest/t8_forest_ghost.cxx:t8_forest_ghost_exchange_fill_send_buffer", "src/t8_forest/t8_forest_ghost.cxx:t8_forest_ghost_exchange_begin", "src/t8_forest/t8_forest_ghost.cxx:t8_forest_ghost_exchange_data", "src/t8_forest/t8_forest_ghost.cxx:t8_forest_ghost_get_ghost_treeid", "src/t8_forest/t8_forest_ghost.cxx:t8_forest_ghost_remote_first_tree", "src/t8_forest/t8_forest_ghost.cxx:t8_forest_ghost_remote_first_elem"]}
{"id": "C58", "title": "Ghost layer, partition and balance work together on distributed forests", "statement": "For each complete forest over a conforming coarse mesh with the default scheme that is stored on P processes: the arrays about the distribution, the ghost layer and the partition are computed from the stored trees without a failure on any process. The ghost layer of a process consists of exactly the leaves of other processes that share a face with one of its leaves. Partition gives the same forest with about N i / P leaves before process i. Balance, which calls adapt, ghost creation and partition in a loop on all processes, comes to an end; the result is a complete forest on the same processes that refines the given one without exceeding its level and in which the levels of leaves that share a face differ by at most one, also across trees of different shapes and across process boundaries; t8_forest_is_balanced accepts it.", "quantifier": "all conforming coarse meshes, all complete forests with at most 39000000 leaves after refinement up to the finest level, all distributions including empty processes, all orders in which messages arrive, with and without repartition", "why_tests_cant": "the result depends on the interplay of six algorithms that run on all processes; each of them relies on conditions that the one before has to establish, and tests only see few meshes, partitions and orders of messages", "anchors": ["src/t8_forest/t8_forest_balance.cxx:t8_forest_balance", "src/t8_forest/t8_forest_ghost.cxx:t8_forest_ghost_create_ext", "src/t8_forest/t8_forest_partition.cxx:t8_forest_partition", "src/t8_forest/t8_forest.cxx:t8_forest_commit"]}
{"id": "C59", "title": "Coordinates of corners, points and centroids fit together across faces", "statement": "The vertex reference coordinates of an element are its corners in the reference tree, and the map from the reference element to the tree sends the tabulated reference corners to the same points and the tabulated centroid to the mean of the corners. The linear geometry sends the corners of a tree to its vertices and is continuous across joined faces: if the vertices of the joined trees fit together, then points of the two faces that are the same point of the mesh have the same coordinates. Therefore each corner of the common face of two face neighbors has the same coordinates in both elements, also across trees of different classes and for each orientation of the face connection. The centroid of an element is the mean of the coordinates of its corners (for trees that are pyramids: if the base is a parallelogram). Points given with stretch factors are evaluated at the stretched reference coordinates.", "quantifier": "all eight classes, all valid elements of each level, all conforming coarse meshes, all positions of the vertices that fit together at the joins, all points of the faces", "why_tests_cant": "the fit of the corners depends on element types, face numbers, orientations and levels at the same time; tests compare coordinates for a few meshes with a tolerance that hides small errors", "anchors": ["src/t8_forest/t8_forest.cxx:t8_forest_element_coordinate", "src/t8_forest/t8_forest.cxx:t8_forest_element_from_ref_coords_ext", "src/t8_forest/t8_forest.cxx:t8_forest_element_centroid", "src/t8_geometry/t8_geometry_helpers.c:t8_geom_compute_linear_geometry", "src/t8_element/t8_element.cxx:t8_element_corner_ref_coords"]}
{"id": "C60", "title": "Face connections found from the coordinates of the vertices", "statement": "t8_cmesh_set_join_by_vertices joins two faces of a mesh if and only if they have the same vertices, in whatever order; each connection is set once, so that the result is a conforming mesh; and the orientation that it computes is the one of the definition at t8_cmesh_set_join: corner 0 of the main face is the corner of the other face with this number. If the trees at the faces lie on opposite sides (in dimension one and two: always), then the vertices of all joined trees fit together in the sense of C59. With do_both_directions the array of connections is symmetric. The tolerance has to separate different vertices; no face has more than two trees.", "quantifier": "all meshes of lines, of triangles and quads, and of tetrahedra, hexahedra, prisms and pyramids, with any number of trees and any vertices; any rounding in the computation of bins and distances", "why_tests_cant": "the result depends on the numbering of the vertices of all pairs of classes and faces, on hash collisions and on the order of the trees; tests compare with the known connections of some example meshes", "anchors": ["src/t8_cmesh/t8_cmesh_helpers.cxx:t8_cmesh_set_join_by_vertices", "src/t8_cmesh/t8_cmesh.h:t8_cmesh_set_join", "src/t8_eclass/t8_eclass.c:t8_eclass_compare"]}
{"id": "C61", "title": "Points inside elements", "statement": "t8_forest_element_points_inside reports a point as inside an element of dimension three, in a tree that is an affine image of the reference tree, if and only if the point is in the convex hull of the corners of the element; so among a list of elements one is found for a point exactly if one contains it. For all classes no point of the convex hull is missed, whatever the tolerance. A point that is accepted for a triangle or quad agrees with a point of it up to the tolerance (if it is not perpendicular to the plane of the first two coordinates), and one that is accepted for a line is within the tolerance of the line prolonged by the tolerance. The test of the axis-aligned geometry is exact for hexahedra and monotone in the tolerance.", "quantifier": "all elements of all classes and levels, all points, all vertices of the trees with the stated conditions, all tolerances that are not negative", "why_tests_cant": "the test suite checks points of some elements in a few meshes; which side of a face a point is on depends on the order of the corners at all faces of all types of elements, and on the direction of the normals", "anchors": ["src/t8_geometry/t8_geometry_implementations/t8_geometry_linear.cxx:t8_geom_point_batch_inside_element", "src/t8_geometry/t8_geometry_helpers.c:t8_triangle_point_inside", "src/t8_geometry/t8_geometry_helpers.c:t8_plane_point_inside", "src/t8_forest/t8_forest.cxx:t8_forest_element_face_normal"]}
{"id": "C62", "title": "Measures of elements and faces", "statement": "In trees that are affine images of the reference tree, t8_forest_element_volume is the reference volume of the shape times the volume of the tree divided by 2^(dim*level), so the volumes of the leaves of every refinement add up to the volume of the tree, for pyramids with children of two shapes too. t8_forest_element_face_normal is orthogonal to the face and points out of the element: all corners are behind the face and the center is strictly behind it. In dimension three, the normals weighted with the areas add up to zero, and the sum of area times <centroid, normal> over the faces is three times the volume. The two elements at a face, in the same or different trees of any classes and with any orientation, agree on its area and its centroid, and have opposite normals if they lie on different sides.", "quantifier": "all elements of all classes, types and levels, all affine trees, all refinements of a tree, all face connections of conforming meshes, all square roots with the stated properties", "why_tests_cant": "tests compare the volume with known values for uniform meshes of unit trees, and normals for a few meshes; the sums over all adaptive refinements and the agreement across all face connections cannot be enumerated", "anchors": ["src/t8_forest/t8_forest.cxx:t8_forest_element_volume", "src/t8_forest/t8_forest.cxx:t8_forest_element_face_area", "src/t8_forest/t8_forest.cxx:t8_forest_element_face_centroid", "src/t8_forest/t8_forest.cxx:t8_forest_element_face_normal"]}
{"id": "C63", "title": "Padded hypercube meshes", "statement": "t8_cmesh_new_hypercube_pad_ext divides a box into polygons_x * polygons_y * polygons_z cubes of 1, 2 or 6 trees. Its face connections are those of a conforming mesh: no face is connected twice, both faces have the same class and the orientation is a corner of the face. Two faces are connected if and only if they are the same face of the grid of cubes, up to translations in the periodic directions, and the orientation identifies exactly the vertices that are the same. The coordinates of the vertices of the trees are the images of the points of the grid under the multilinear map through the corners of the boundary.", "quantifier": "all classes except pyramids, all numbers of cubes in the three directions, all periodicities, all boundaries that meet the assertions", "why_tests_cant": "tests build meshes of one box with a few cubes in each direction; the numbers of cubes, the periodicities and the shape of the box are unbounded", "anchors": ["src/t8_cmesh/t8_cmesh_examples.cxx:t8_cmesh_new_hypercube_pad_ext", "src/t8_cmesh/t8_cmesh_examples.cxx:t8_cmesh_set_vertices_2D", "src/t8_cmesh/t8_cmesh_examples.cxx:t8_cmesh_set_vertices_3D", "src/t8_cmesh/t8_cmesh_examples.cxx:t8_resize_box", "src/t8_cmesh/t8_cmesh_examples.cxx:t8_update_box_face_edges"]}
{"id": "C64", "title": "Curved trees keep their curves and surfaces", "statement": "The geometry of a tree with linked CAD curves and surfaces maps each point of an edge with a linked curve or surface to the point of the curve or surface at the parameter between the parameters of the two vertices, and each point of a face with a linked surface to a point of the surface. Edges without links in faces without links stay straight. So trees that share a curve or a surface leave no gap.", "quantifier": "all curves, surfaces and parameters that pass through the vertices, all combinations of linked edges and faces where linked faces meet in curves, all points of edges and faces of hexahedra, tetrahedra and prisms", "why_tests_cant": "tests evaluate a few points of one curved tree of each class with one shape; the shapes and the combinations of links are unbounded", "anchors": ["src/t8_geometry/t8_geometry_implementations/t8_geometry_cad.cxx:t8_geom_evaluate_cad_hex", "src/t8_geometry/t8_geometry_implementations/t8_geometry_cad.cxx:t8_geom_evaluate_cad_tet", "src/t8_geometry/t8_geometry_implementations/t8_geometry_cad.cxx:t8_geom_evaluate_cad_prism", "src/t8_geometry/t8_geometry_helpers.c:t8_geom_get_tet_face_intersection", "src/t8_geometry/t8_geometry_helpers.c:t8_geom_get_scaling_factor_of_edge_on_face_tet"]}
{"id": "C65", "title": "Curved quads and triangles keep their curves and surfaces", "statement": "The geometry of a quad or triangle with linked CAD curves or a linked surface maps each point of an edge to the point of its curve or surface at the parameter between the parameters of the two vertices, and all points of a tree with a linked surface to points of this surface. The image of a point does not depend on the other points of the batch.", "quantifier": "all curves and surfaces through the vertices, all combinations of linked edges and face, all points and batches", "why_tests_cant": "tests evaluate single points of a few shapes and no face with a linked surface and a linked curve; the shapes, points and batches are unbounded", "anchors": ["src/t8_geometry/t8_geometry_implementations/t8_geometry_cad.cxx:t8_geom_evaluate_cad_quad", "src/t8_geometry/t8_geometry_implementations/t8_geometry_cad.cxx:t8_geom_evaluate_cad_tri", "src/t8_geometry/t8_geometry_helpers.c:t8_geom_get_ref_intersection", "src/t8_geometry/t8_geometry_helpers.c:t8_geom_get_triangle_scaling_factor"]}
{"id": "C66", "title": "The tables of the element classes describe the reference elements", "statement": "The tables of faces, edges, their incidences, orientations, types and numbers of the element classes are those of the reference elements, which are convex hulls of their vertices: the rows of the face table are the faces, the rows of the edge table the edges, each exactly once; the edges of faces, the faces of edges and the edges that leave a face are right; orientation 0 means that the normal points to the inside; the tables of VTK corners are inverse to each other and follow the order of VTK.", "quantifier": "all classes, all sets and pairs of vertices, all affine functions that support a face or an edge", "why_tests_cant": "tests compare some of the tables with each other, so that a table that is consistent but describes a wrong polyhedron passes; that a set of vertices is no face is a statement about all affine functions", "anchors": ["src/t8_eclass/t8_eclass.h:t8_face_vertex_to_tree_vertex", "src/t8_eclass/t8_eclass.h:t8_face_edge_to_tree_edge", "src/t8_eclass/t8_eclass.h:t8_face_to_edge_neighbor", "src/t8_eclass/t8_eclass.h:t8_edge_vertex_to_tree_vertex", "src/t8_eclass/t8_eclass.h:t8_edge_to_face", "src/t8_eclass/t8_eclass.h:t8_eclass_face_orientation", "src/t8_eclass/t8_eclass.h:t8_reference_face_normal_tet", "src/t8_eclass/t8_eclass.h:t8_eclass_vtk_to_t8_corner_number", "src/t8_eclass/t8_eclass.h:t8_eclass_boundary_count"]}
{"id": "C67", "title": "Lagrange geometries interpolate their nodes exactly and fit together at faces", "statement": "The Lagrange geometry of degree 1 or 2 of lines, triangles, quads and hexahedra maps the reference nodes to the nodes of the tree, reproduces every map whose components are polynomials of this degree, and is the linear geometry for degree 1. On each face it is the Lagrange geometry of the face with the nodes that get_face_nodes returns and the coordinates that map_on_face returns, so trees that share the nodes of a face leave no gap.", "quantifier": "all positions of the nodes, all polynomial maps, all points of the reference elements and of their faces", "why_tests_cant": "tests compare faces with volumes at random points for one set of nodes, and polynomials for a few samples; a wrong basis function or node number can cancel there", "anchors": ["src/t8_geometry/t8_geometry_implementations/t8_geometry_lagrange.cxx:t8_geom_evaluate", "src/t8_geometry/t8_geometry_implementations/t8_geometry_lagrange.cxx:t8_geom_compute_basis", "src/t8_geometry/t8_geometry_implementations/t8_geometry_lagrange.cxx:t8_geom_h27_basis", "src/t8_geometry/t8_geometry_implementations/t8_geometry_lagrange.cxx:get_face_nodes", "src/t8_geometry/t8_geometry_implementations/t8_geometry_lagrange.cxx:map_on_face", "src/t8_geometry/t8_geometry_implementations/t8_geometry_lagrange.cxx:decompose"]}
{"id": "C68", "title": "Disk and sphere geometries hit the circle or sphere and their trees fit together", "statement": "The surface geometries map every tree to the sphere through its vertices. Over the faces of a cube the image depends on the linear position only, so trees of different faces fit together without gaps; they do not overlap; the corners of the cube stay; in shells the radius grows linearly with the third coordinate, so layers fit together. The outer side of a tree of the disk or the ball is on the circle or sphere through its last vertex, and its inner side is the side of the linear tree in the center.", "quantifier": "all trees in the faces of all cubes around the origin, all radii, all reference points; all trees of a disk or ball whose outer side is orthogonal to the first vertex", "why_tests_cant": "tests compare images at sample points for a few meshes with a tolerance; gaps between trees and wrong signs of tangents show only for particular faces and points", "anchors": ["src/t8_geometry/t8_geometry_implementations/t8_geometry_examples.cxx:t8_geometry_quadrangulated_disk::t8_geom_evaluate", "src/t8_geometry/t8_geometry_implementations/t8_geometry_examples.cxx:t8_geom_evaluate_sphere_tri_prism", "src/t8_geometry/t8_geometry_implementations/t8_geometry_examples.cxx:t8_geometry_tessellated_spherical_surface::t8_geom_evaluate", "src/t8_geometry/t8_geometry_implementations/t8_geometry_examples.cxx:t8_geometry_cubed_spherical_shell::t8_geom_evaluate", "src/t8_geometry/t8_geometry_implementations/t8_geometry_examples.cxx:t8_geometry_cubed_sphere::t8_geom_evaluate", "src/t8_types/t8_vec.hxx:t8_orthogonal_tripod"]}
{"id": "C69", "title": "The example meshes of disks and spheres have the requested radius and no gaps", "statement": "For every radius, every tree of the quadrangulated and the triangulated cube mesh of a sphere is mapped to the sphere of this radius, and trees fit together. For every number of trees and layers, the cubed shell maps each tree between the spheres of its layer, and neighbouring trees, faces and layers fit together. The outer sides of the trees of the disk and of the cubed sphere are mapped to the circle or sphere of the given radius, and neighbouring trees fit together.", "quantifier": "all radii and thicknesses, all numbers of trees and layers, all trees, all reference points", "why_tests_cant": "tests build a few of these meshes with one radius and compare areas or volumes with a tolerance; a wrong rotation or vertex of one tree changes those only a little or not at all", "anchors": ["src/t8_cmesh/t8_cmesh_examples.cxx:t8_cmesh_new_quadrangulated_spherical_surface", "src/t8_cmesh/t8_cmesh_examples.cxx:t8_cmesh_new_triangulated_spherical_surface_cube", "src/t8_cmesh/t8_cmesh_examples.cxx:t8_cmesh_new_cubed_spherical_shell", "src/t8_cmesh/t8_cmesh_examples.cxx:t8_cmesh_new_quadrangulated_disk", "src/t8_cmesh/t8_cmesh_examples.cxx:t8_cmesh_new_cubed_sphere", "src/t8_helper_functions/t8_mat.h:t8_mat_mult_vec"]}
