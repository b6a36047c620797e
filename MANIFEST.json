{
 "claims": [
  {
   "property": "C01",
   "status": "proved",
   "theorems": [
    "Verif.DisjointSet.c01_find_iff_connected"
   ],
   "note": ""
  },
  {
   "property": "C02",
   "status": "proved",
   "theorems": [
    "Verif.DisjointSet.c02_n_groups"
   ],
   "note": ""
  },
  {
   "property": "C03",
   "status": "proved",
   "theorems": [
    "Verif.DisjointSet.c03_output_partition"
   ],
   "note": ""
  },
  {
   "property": "C04",
   "status": "proved",
   "theorems": [
    "Verif.DisjointSet.c04_queries_transparent"
   ],
   "note": ""
  },
  {
   "property": "C59",
   "status": "proved",
   "theorems": [
    "Verif.DisjointSet.c59_recursion_depth_log"
   ],
   "note": ""
  },
  {
   "property": "C39",
   "status": "proved",
   "theorems": [
    "Verif.Tet.c39_handle_algebra",
    "Verif.Tet.c39_versions_even_permutations"
   ],
   "note": ""
  },
  {
   "property": "C40",
   "status": "proved",
   "theorems": [
    "Verif.Tet.c40_bond_fsym"
   ],
   "note": ""
  },
  {
   "property": "C41",
   "status": "proved",
   "theorems": [
    "Verif.Tet.c41_initial_delaunay"
   ],
   "note": ""
  },
  {
   "property": "C42",
   "status": "proved",
   "theorems": [
    "Verif.Tet.c42_incident"
   ],
   "note": ""
  },
  {
   "property": "C45",
   "status": "partial",
   "theorems": [
    "Verif.Tet.c45_link_live_partial",
    "Verif.Tet.c45_large_cavity_link_dead"
   ],
   "note": "The code violates the property in the branch for cavities with at least 1024 boundary vertices: refuted by c45_large_cavity_link_dead; proved for the other branch."
  },
  {
   "property": "C60",
   "status": "proved",
   "theorems": [
    "Verif.Tet.c60_insert_vertex"
   ],
   "note": "Branch for cavities with fewer than 1024 boundary vertices."
  },
  {
   "property": "C38",
   "status": "proved",
   "theorems": [
    "Verif.InSphere.c38_symbolic_perturbation",
    "Verif.InSphere.c38_antisymmetric"
   ],
   "note": "Exact ordered-field model of insphere_s; floats and the adaptive stages are not part of this theorem."
  },
  {
   "property": "C43",
   "status": "proved",
   "theorems": [
    "Verif.Hilbert.c43_hilbert_split",
    "Verif.Hilbert.c43_hilbert_sort",
    "Verif.Hilbert.c43_brio_sort",
    "Verif.Hilbert.c43_tetrahedralize_order"
   ],
   "note": "Coordinates in an arbitrary linear order with an arbitrary midpoint function; any random values."
  },
  {
   "property": "C44",
   "status": "partial",
   "theorems": [
    "Verif.Tet.c44_duplicate_panics",
    "Verif.Tet.c44_uninserted_point_panics",
    "Verif.Tet.c44_no_duplicate_partial"
   ],
   "note": "Refuted by the code: with a duplicate point the insertion loop breaks and the final renumbering indexes with an invalid link. Negation proved on a concrete input and for every mesh with an uninserted point; the partial theorem covers the case that all points were inserted."
  },
  {
   "property": "C61",
   "status": "proved",
   "theorems": [
    "Verif.Tet.c61_ring",
    "Verif.Tet.c61_seeds"
   ],
   "note": ""
  },
  {
   "property": "C62",
   "status": "proved",
   "theorems": [
    "Verif.Tet.c62_locate"
   ],
   "note": "Exact arithmetic in any ordered field; termination of the walk is C83."
  },
  {
   "property": "C63",
   "status": "proved",
   "theorems": [
    "Verif.Tet.c63_finish"
   ],
   "note": ""
  },
  {
   "property": "C36",
   "status": "proved",
   "theorems": [
    "Verif.Geom.c36_mis_alignment",
    "Verif.Geom.c36_point_in_inner_segment",
    "Verif.Geom.c36_point_in_segment",
    "Verif.Geom.c36_point_in_segment_general",
    "Verif.Geom.c36_same_half_plane",
    "Verif.Geom.c36_inner_segments_cross"
   ],
   "note": "Exact arithmetic in any ordered field."
  },
  {
   "property": "C37",
   "status": "proved",
   "theorems": [
    "Verif.Geom.c37_point_in_inner_triangle",
    "Verif.Geom.c37_point_in_triangle",
    "Verif.Geom.c37_inner_segment_cross_inner_triangle",
    "Verif.Geom.c37_inner_segment_cross_triangle"
   ],
   "note": "Exact arithmetic. The point-in-triangle theorems need a proper triangle and a point of its plane (the stated use); inner_segment_cross_triangle needs a segment not contained in the plane."
  },
  {
   "property": "C64",
   "status": "proved",
   "theorems": [
    "Verif.Geom.c64_axis",
    "Verif.Geom.c64_vert_in_tri"
   ],
   "note": "Exact arithmetic; the magnitude estimate of a component is an arbitrary function vanishing only at 0."
  },
  {
   "property": "C30",
   "status": "proved",
   "theorems": [
    "Verif.Pred.c30_orient3d",
    "Verif.Pred.c30_antisymmetric",
    "Verif.Pred.c30_undefined"
   ],
   "note": "Exact arithmetic; the static and dynamic filters are arbitrary functions assumed to be correct when they answer (C34 shows that the dynamic one is not always)."
  },
  {
   "property": "C31",
   "status": "proved",
   "theorems": [
    "Verif.Pred.c31_ieee",
    "Verif.Pred.c31_iiee",
    "Verif.Pred.c31_iiie",
    "Verif.Pred.c31_iiii",
    "Verif.Pred.c31_iee",
    "Verif.Pred.c31_iie",
    "Verif.Pred.c31_iii",
    "Verif.Pred.c31_lt"
   ],
   "note": "Polynomial identities in any commutative ring."
  },
  {
   "property": "C32",
   "status": "proved",
   "theorems": [
    "Verif.Pred.c32_orient2d"
   ],
   "note": "Same assumptions as C30."
  },
  {
   "property": "C33",
   "status": "partial",
   "theorems": [
    "Verif.Pred.c33_less_than_partial",
    "Verif.Pred.c33_less_than_swapped",
    "Verif.Pred.c33_refuted",
    "Verif.Pred.c33_witness"
   ],
   "note": "Refuted by the code: (Explicit,LPI), (Explicit,TPI) and (TPI,LPI) swap the arguments without reversing the answer. Proved for the other six combinations; for these three the answer is proved to be always that of the swapped comparison."
  },
  {
   "property": "C35",
   "status": "proved",
   "theorems": [
    "Verif.Pred.c35_lpi",
    "Verif.Pred.c35_tpi",
    "Verif.Pred.c35_exact"
   ],
   "note": "Exact arithmetic in any ordered field."
  },
  {
   "property": "C22",
   "status": "proved",
   "theorems": [
    "Verif.Float.c22_two_sum",
    "Verif.Float.c22_two_diff",
    "Verif.Float.c22_fast_two_sum",
    "Verif.Float.c22_fast_two_diff",
    "Verif.Float.c22_fast_two_sum_needs_order"
   ],
   "note": "doubles are rationals of at most 53 bits, rounding to nearest even, unbounded exponent"
  },
  {
   "property": "C23",
   "status": "proved",
   "theorems": [
    "Verif.Float.c23_exact_init",
    "Verif.Float.c23_exact_init_fuel",
    "Verif.Float.c23_split",
    "Verif.Float.c23_two_product",
    "Verif.Float.c23_two_product_pre_split",
    "Verif.Float.c23_square"
   ],
   "note": "same rounding model; the splitter is the one exact_init computes"
  },
  {
   "property": "C24",
   "status": "partial",
   "theorems": [
    "Verif.Float.c24_sum_partial",
    "Verif.Float.c24_diff_partial",
    "Verif.Float.c24_lost",
    "Verif.Float.c24_refuted",
    "Verif.Float.c24_grow"
   ],
   "note": "Holds (value, nonoverlapping, no zeros) whenever the inputs have two components together, in particular for nonempty expansions; refuted for an empty expansion with a one-component one (the component is dropped) and for two empty ones (panic). Rounding model: round to nearest even with 53 bits, no overflow or underflow."
  },
  {
   "property": "C25",
   "status": "partial",
   "theorems": [
    "Verif.Float.c25_value",
    "Verif.Float.c25_expansion_sum_partial",
    "Verif.Float.c25_refuted"
   ],
   "note": "The code violates the property: the second loop iterates over earr instead of farr. c25_value gives the value actually computed."
  },
  {
   "property": "C26",
   "status": "proved",
   "theorems": [
    "Verif.Float.c26_scale",
    "Verif.Float.c26_mul",
    "Verif.Float.c26_empty",
    "Verif.Float.c26_invert"
   ],
   "note": "Value and nonoverlapping property for all nonempty expansions; rounding model without overflow and underflow."
  },
  {
   "property": "C27",
   "status": "proved",
   "theorems": [
    "Verif.Float.c27_sign",
    "Verif.Float.c27_decide",
    "Verif.Float.c27_orient3d",
    "Verif.Float.c27_orient2d",
    "Verif.Float.c27_less_than"
   ],
   "note": "All expansion numbers built by the arithmetic; the exact stages of the predicates on implicit points executed with expansions find the right answer."
  },
  {
   "property": "C19",
   "status": "proved",
   "theorems": [
    "Verif.Interval.c19_of",
    "Verif.Interval.c19_add_sub",
    "Verif.Interval.c19_f64",
    "Verif.Interval.f64_sound"
   ],
   "note": "For every rounding and next_up meeting Arith.Sound, and for double precision with gradual underflow (no overflow) in particular."
  },
  {
   "property": "C20",
   "status": "partial",
   "theorems": [
    "Verif.Interval.c20_mul_partial",
    "Verif.Interval.c20_mul_definite_partial",
    "Verif.Interval.c20_negated",
    "Verif.Interval.c20_refuted",
    "Verif.Interval.c20_refuted_arm8",
    "Verif.Interval.c20_reachable"
   ],
   "note": "False in the code: the arms 0 and 8 of mul exchange the bounds, so they enclose the negated product; proved in all other arms; no panic."
  },
  {
   "property": "C21",
   "status": "partial",
   "theorems": [
    "Verif.Interval.c21_signs_partial",
    "Verif.Interval.c21_exchanged",
    "Verif.Interval.c21_refuted"
   ],
   "note": "False in the code: positive() and negative() are exchanged; not_zero is right."
  },
  {
   "property": "C34",
   "status": "partial",
   "theorems": [
    "Verif.Interval.c34_no_panic",
    "Verif.Interval.c34_odd_partial",
    "Verif.Interval.c34_reversed",
    "Verif.Interval.c34_witness",
    "Verif.Interval.c34_refuted",
    "Verif.Interval.c34_wrong_coordinate",
    "Verif.Interval.c34_refuted_arms"
   ],
   "note": "False in the code: iiee, iiii, iii and less_than_ii answer with the reversed sign; less_than_ii takes x on every axis; products through the faulty arms give wrong signs even in the other predicates. Proved: the predicates of odd degree are right on runs that avoid the faulty arms; no stage panics."
  },
  {
   "property": "C05",
   "status": "proved",
   "theorems": [
    "Verif.Surface.c05_new"
   ],
   "note": "for every order in which the hash map returns its values"
  },
  {
   "property": "C06",
   "status": "proved",
   "theorems": [
    "Verif.Surface.c06_edges"
   ],
   "note": ""
  },
  {
   "property": "C07",
   "status": "proved",
   "theorems": [
    "Verif.Surface.c07_rings",
    "Verif.Surface.c07_new"
   ],
   "note": "c07_rings is for every valid mesh"
  },
  {
   "property": "C08",
   "status": "proved",
   "theorems": [
    "Verif.Surface.c08_split_edge",
    "Verif.Surface.c08_loop_refuted"
   ],
   "note": "edges with distinct ends; c08_loop_refuted shows that a loop edge is broken by split_edge"
  },
  {
   "property": "C09",
   "status": "proved",
   "theorems": [
    "Verif.Surface.c09_split_face",
    "Verif.Surface.c09_split_face_once"
   ],
   "note": ""
  },
  {
   "property": "C10",
   "status": "proved",
   "theorems": [
    "Verif.Surface.c10_add_face"
   ],
   "note": ""
  },
  {
   "property": "C11",
   "status": "partial",
   "theorems": [
    "Verif.Surface.c11_iterators",
    "Verif.Surface.c11_counts_partial",
    "Verif.Surface.c11_refuted"
   ],
   "note": "the code violates the property for unused indices (c11_refuted); the rest is proved"
  },
  {
   "property": "C12",
   "status": "proved",
   "theorems": [
    "Verif.Surface.c12_prev_next",
    "Verif.Surface.c12_twin",
    "Verif.Surface.c12_twin_manifold"
   ],
   "note": ""
  },
  {
   "property": "C65",
   "status": "proved",
   "theorems": [
    "Verif.Surface.c65_vertex_edges"
   ],
   "note": ""
  },
  {
   "property": "C66",
   "status": "proved",
   "theorems": [
    "Verif.Surface.c66_reachable_valid"
   ],
   "note": ""
  },
  {
   "property": "C13",
   "status": "proved",
   "theorems": [
    "Verif.Flow.c13_arc_builder"
   ],
   "note": "All cost vectors over any commutative group, all add_arc sequences with indices in range."
  },
  {
   "property": "C14",
   "status": "proved",
   "theorems": [
    "Verif.Flow.c14_max_flow"
   ],
   "note": "Total correctness (termination, feasibility, maximality, min cut value) over any linearly ordered commutative group, i.e. exact arithmetic; no self-loops (see C17)."
  },
  {
   "property": "C15",
   "status": "partial",
   "theorems": [
    "Verif.Flow.c15_refuted",
    "Verif.Flow.c15_min_cut_partial"
   ],
   "note": "False of the code: concrete network where the reported sides have a cut of capacity 21 while the maximum flow is 1. Partial: a minimum cut whenever every node reported on the sink side still reaches the sink."
  },
  {
   "property": "C16",
   "status": "proved",
   "theorems": [
    "Verif.Flow.c16_source_side"
   ],
   "note": ""
  },
  {
   "property": "C17",
   "status": "partial",
   "theorems": [
    "Verif.Flow.c17_network_partial",
    "Verif.Flow.c17_self_loop_refuted"
   ],
   "note": "Proved for arc lists without self-loops; false for a self-loop (witness)."
  },
  {
   "property": "C49",
   "status": "proved",
   "theorems": [
    "Verif.Poly.c49_remove_duplicates",
    "Verif.Poly.c49_zero",
    "Verif.Poly.c49_near"
   ],
   "note": "For every outcome of the unstable sort; rational coordinates (the code scales by powers of two, so rounding only differs on overflow/underflow)."
  },
  {
   "property": "C50",
   "status": "partial",
   "theorems": [
    "Verif.Poly.c50_refuted",
    "Verif.Poly.c50_distinct_partial"
   ],
   "note": "False of the code: points are compared before they are rounded. Partial: distinct if different inputs never round to the same grid point."
  },
  {
   "property": "C54",
   "status": "proved",
   "theorems": [
    "Verif.Poly.c54_merge_colinear",
    "Verif.Poly.c54_panics"
   ],
   "note": "For an edge_in_group filled with INVALID_IND, as the only caller passes it."
  },
  {
   "property": "C56",
   "status": "proved",
   "theorems": [
    "Verif.Poly.c56_make_loop",
    "Verif.Poly.c56_needs_distinct_ends"
   ],
   "note": ""
  },
  {
   "property": "C57",
   "status": "proved",
   "theorems": [
    "Verif.Poly.c57_insert_coplanar"
   ],
   "note": "slice::binary_search is modelled by its documented result on ascending lists."
  },
  {
   "property": "C53",
   "status": "partial",
   "theorems": [
    "Verif.Poly.c53_verts_orient",
    "Verif.Poly.c53_copied_partial",
    "Verif.Poly.c53_copied_refuted"
   ],
   "note": "verts_orient_wrt_plane is proved exact for all genealogies of vertices, all orders of queries and all sound caches, given sound filters (C30). The copies that split_cell makes for coplanar triangles are exact when both triangles are projected along the same axis; in f64 arithmetic the axes can differ and the copy is then reversed (witness in c53_copied_refuted)."
  },
  {
   "property": "C51",
   "status": "proved",
   "theorems": [
    "Verif.Poly.c51_subdivide",
    "Verif.Poly.c51_fuel"
   ],
   "note": "For every linked complex and every sequence of outcomes of the geometric tests the loop ends within an explicit number of rounds, with no inner triangles left, or stops at the assertion in split_cell that both sides of a cut are non-empty (a panic), which happens only if a test declares the triangle improper."
  },
  {
   "property": "C52",
   "status": "proved",
   "theorems": [
    "Verif.Poly.c52_new",
    "Verif.Poly.c52_split_cell",
    "Verif.Poly.c52_subdivide"
   ],
   "note": "The initial complex of every consistent mesh is linked and its faces are the triangles of the solid tetrahedra with the stated orientation; split_cell and the whole subdivision keep the links. Face geometry during splitting (the SurfaceMesh part) is covered by C07, C08 and C66."
  },
  {
   "property": "C67",
   "status": "partial",
   "theorems": [
    "Verif.Poly.c67_new_partial",
    "Verif.Poly.c67_marks_refuted",
    "Verif.Poly.c67_original",
    "Verif.Poly.c67_parts"
   ],
   "note": "Proved for the cuts, and for the initial complex when the marks of the two sides of a face agree. Refuted otherwise: lines 174-179 insert the marks of the neighbour a second time instead of those of the current tetrahedron."
  },
  {
   "property": "C55",
   "status": "partial",
   "theorems": [
    "Verif.Poly.c55_edge_map",
    "Verif.Poly.c55_actual",
    "Verif.Poly.c55_partial",
    "Verif.Poly.c55_apex",
    "Verif.Poly.c55_place",
    "Verif.Poly.c55_refuted"
   ],
   "note": "The edge map, the choice of the apex and the effect on the triangle list are proved. The decision is characterised exactly (c55_actual): it depends only on the directions in which the triangles run through the edge, so the stated criterion holds for single triangles and unfolded consistently oriented surfaces (c55_partial) and fails in four ways otherwise (c55_refuted): half edge i is stored as the edge from corner i but read as the edge opposite to corner i."
  },
  {
   "property": "C58",
   "status": "partial",
   "theorems": [
    "Verif.Poly.c58_sound",
    "Verif.Poly.c58_found_partial",
    "Verif.Constraint.c58_delaunay_partial",
    "Verif.Poly.c58_found_refuted"
   ],
   "note": "For Delaunay meshes nothing else is assumed. Soundness, termination and restoration of the marks are proved for all consistent meshes. Completeness holds if a tetrahedron that the search looks at has one of the other two corners; it fails in general because the loop over the neighbours is left (break) at the corner itself instead of skipping it: concrete Delaunay mesh of six points."
  },
  {
   "property": "C46",
   "status": "proved",
   "theorems": [
    "Verif.Tri.c46_unique_indices"
   ],
   "note": "All index lists."
  },
  {
   "property": "C48",
   "status": "proved",
   "theorems": [
    "Verif.Tri.c48_soup"
   ],
   "note": "For any triangulate that returns triples of indices of the points it was given; projections are arbitrary functions."
  },
  {
   "property": "C47",
   "status": "proved",
   "theorems": [
    "Verif.Tri.c47_flip"
   ],
   "note": "flip on the full triangle mesh: neighbour links, corners, marks, vertex map"
  },
  {
   "property": "C68",
   "status": "partial",
   "theorems": [
    "Verif.Tri.c68_insert_partial",
    "Verif.Tri.c68_skeleton_partial",
    "Verif.Tri.c68_last_partial",
    "Verif.Tri.c68_scout",
    "Verif.Tri.c68_refuted",
    "Verif.Tri.c68_triangulate_refuted",
    "Verif.Tri.c68_collinear_panics"
   ],
   "note": "false when a vertex lies on the segment (the first part is left unmarked, witness c68_refuted; wrong output of triangulate, c68_triangulate_refuted) and panics when all points are collinear (c68_collinear_panics); proved for runs in which every flipped quadrilateral has two different apexes and no other vertex lies on the line of the segment"
  },
  {
   "property": "C69",
   "status": "proved",
   "theorems": [
    "Verif.Tri.c69_flood"
   ],
   "note": ""
  },
  {
   "property": "C70",
   "status": "proved",
   "theorems": [
    "Verif.Float.c70_orient2d",
    "Verif.Float.c70_swap"
   ],
   "note": "orient2d/orient2d_adapt are modelled operation by operation in the 53-bit round-to-nearest-even model with unbounded exponents; the proof covers the early returns, the three filters with the code's own error constants and the exact expansion stage."
  },
  {
   "property": "C29",
   "status": "partial",
   "theorems": [
    "Verif.Float.c29_orient3d_partial",
    "Verif.Float.c29_no_spurious_partial",
    "Verif.Float.c29_exact_differences_partial",
    "Verif.Float.c29_integers_partial",
    "Verif.Float.c29_refuted",
    "Verif.Float.c29_coplanar_refuted",
    "Verif.Float.c29_order_refuted"
   ],
   "note": "orient3d/orient3d_adapt are modelled operation by operation. For every input the result has the sign of the determinant or of the determinant plus the spurious term (all three filters are proved sound with the code's constants); the full claim is refuted with double witnesses."
  },
  {
   "property": "C71",
   "status": "proved",
   "theorems": [
    "Verif.Float.c71_incircle",
    "Verif.Float.c71_circle",
    "Verif.Float.c71_swap"
   ],
   "note": "all four stages modelled operation by operation: the three error bounds are proved sufficient and the exact stage exact; in the rounding model with unbounded exponents"
  },
  {
   "property": "C72",
   "status": "proved",
   "theorems": [
    "Verif.Float.c72_orient4d",
    "Verif.Float.c72_hyperplane",
    "Verif.Float.c72_swap"
   ],
   "note": "all four stages modelled operation by operation, the three error bounds proved sufficient, the last stage exact; rounding model with unbounded exponents"
  },
  {
   "property": "C73",
   "status": "partial",
   "theorems": [
    "Verif.Float.c73_insphere_partial",
    "Verif.Float.c73_exact_differences",
    "Verif.Float.c73_exact_stage",
    "Verif.Float.c73_sphere_partial"
   ],
   "note": "for all doubles it does not panic and the sign is right unless a difference of coordinates is inexact and the determinant is below 21/2^106 times the sum of the absolute values of its products (static filter and last stage fully proved); missing: the second and third error bound for such tiny determinants"
  },
  {
   "property": "C28",
   "status": "proved",
   "theorems": [
    "Verif.Float.c28_orient2d_collinear",
    "Verif.Float.c28_orient2d_similar",
    "Verif.Float.c28_orient2d_mirror",
    "Verif.Float.c28_incircle_similar",
    "Verif.Float.c28_incircle_mirror",
    "Verif.Float.c28_orient4d_similar",
    "Verif.Float.c28_orient4d_insphere",
    "Verif.Float.c28_fast_error",
    "Verif.Float.c28_fast_sign",
    "Verif.Float.c28_fast_inexact"
   ],
   "note": "for the floating point code with all its stages, in the rounding model with unbounded exponents; c28_fast_inexact shows that the hypothesis of c28_fast_sign is needed"
  },
  {
   "property": "C18",
   "status": "partial",
   "theorems": [
    "Verif.Cut.c18_max_flow",
    "Verif.Cut.c18_feasible",
    "Verif.Cut.c18_is_sink_partial",
    "Verif.Cut.c18_is_sink_tree_partial",
    "Verif.Cut.c18_is_sink_refuted",
    "Verif.Cut.c18_returns_unit",
    "Verif.Cut.c18_returns"
   ],
   "note": "max_flow returns for all rational capacities (so for all finite doubles computed without rounding), and flow is the capacity of a minimum cut and of a feasible flow; is_sink refuted for nodes outside both trees, and proved under the condition that these have is_sink true; a node in a tree is on the side given by is_sink in every minimum cut; doubles are elements of an ordered group"
  },
  {
   "property": "C74",
   "status": "proved",
   "theorems": [
    "Verif.Bsp.c74_split_face_verts"
   ],
   "note": "signs of the vertices are the input; the shape of a convex polygon is the hypothesis Convex"
  },
  {
   "property": "C75",
   "status": "proved",
   "theorems": [
    "Verif.Bsp.c75_split_cell"
   ],
   "note": "the mesh is the list of cycles of its faces; the convexity of the faces and the single closed curve are hypotheses (CutOk), which C95 proves for convex cells; tests other than the signs are arbitrary"
  },
  {
   "property": "C76",
   "status": "proved",
   "theorems": [
    "Verif.Bsp.c76_kept_faces",
    "Verif.Bsp.c76_all_cuts"
   ],
   "note": "the set of kept cells is arbitrary"
  },
  {
   "property": "C77",
   "status": "partial",
   "theorems": [
    "Verif.Bsp.c77_cells_partial",
    "Verif.Bsp.c77_refuted"
   ],
   "note": "violated: is_sink can be stale (C15), so a cell that belongs to every cheapest choice can be dropped (c77_refuted: two tetrahedra whose surface has a hole of 1/9 of the area; one is dropped and the price is 1/3). Proved: the run ends, every kept cell belongs to a cheapest choice of a shell, and if no reported side is stale the kept cells are the union of cheapest choices. Areas are exact, the tests of the triangles are inputs."
  },
  {
   "property": "C78",
   "status": "proved",
   "theorems": [
    "Verif.Bsp.c78_fits"
   ],
   "note": "areas are exact, the tests of the triangles are inputs"
  },
  {
   "property": "C79",
   "status": "partial",
   "theorems": [
    "Verif.Bsp.c79_outlines_partial",
    "Verif.Bsp.c79_refuted"
   ],
   "note": "violated: he_next_map has the edge as its key, and an inner edge whose two ends are corners of several outlines is inserted twice; c79_refuted is a set of seven polygons and an order of the hash map for which the code panics. Proved for all sets without such an inner edge."
  },
  {
   "property": "C80",
   "status": "proved",
   "theorems": [
    "Verif.Bsp.c80_groups",
    "Verif.Bsp.c80_mergeable"
   ],
   "note": "the plane of a face is an arbitrary function; built on C01-C04 and C76"
  },
  {
   "property": "C81",
   "status": "proved",
   "theorems": [
    "Verif.Bsp.Output.c81_output",
    "Verif.Bsp.Output.c81_orientation"
   ],
   "note": "exact areas; the triangulation is an input with valid indices (its own properties are C60-C68)"
  },
  {
   "property": "C82",
   "status": "proved",
   "theorems": [
    "Verif.Bsp.c82_initial",
    "Verif.Bsp.c82_kept"
   ],
   "note": "the tetrahedral mesh is any consistent one (C60, C63 show that tetrahedralize gives such a mesh)"
  },
  {
   "property": "C83",
   "status": "proved",
   "theorems": [
    "Verif.Delaunay.c83_locate_stops"
   ],
   "note": "At most 1021 points, so that all cavities take the small branch (C45)."
  },
  {
   "property": "C84",
   "status": "proved",
   "theorems": [
    "Verif.Delaunay.c84_insert_next"
   ],
   "note": "At most 1021 points, so that all cavities take the small branch (C45)."
  },
  {
   "property": "C85",
   "status": "partial",
   "theorems": [
    "Verif.Delaunay.c85_tetrahedralize_partial",
    "Verif.Delaunay.c85_taken_for_flat"
   ],
   "note": "Violated: nine points with a cube among them are taken for flat, because the three closeness tests are relative to the bounding box only (c85_taken_for_flat); and insertions with large cavities are wrong (C45). Proved for all other inputs: at most 1021 points or no large cavity, and the points not flat in the sense of the tests."
  },
  {
   "property": "C86",
   "status": "partial",
   "theorems": [
    "Verif.Delaunay.c86_returns_partial",
    "Verif.Delaunay.c86_few_points",
    "Verif.Delaunay.c86_three_points"
   ],
   "note": "Violated for fewer than four points: index out of range in the choice of the first four points. Proved for 4 to 1021 distinct points."
  },
  {
   "property": "C87",
   "status": "proved",
   "theorems": [
    "Verif.Constraint.c87_tet_type",
    "Verif.Constraint.c87_ghost"
   ],
   "note": ""
  },
  {
   "property": "C88",
   "status": "partial",
   "theorems": [
    "Verif.Constraint.c88_hole",
    "Verif.Constraint.c88_quad",
    "Verif.Constraint.c88_interior_partial",
    "Verif.Constraint.c88_insert_partial"
   ],
   "note": "Violated in two ways: interior_intersections spreads over faces only, but the faces in a constraint and the tetrahedra it cuts can hang together along edges only (c88_hole, ten points); constraint_intersect_empty misses a tetrahedron cut in a quadrilateral with three corners on the sides of the constraint (c88_quad, seven points). Proved end to end, for every list of constraints on every Delaunay tetrahedralization: everything that hangs together by faces with the tetrahedra touched by the sides is marked, in the right array; of the tetrahedra touched by the sides only those with a side along a diagonal of the section can be missed (C94)."
  },
  {
   "property": "C89",
   "status": "partial",
   "theorems": [
    "Verif.Constraint.c89_beyond",
    "Verif.Constraint.c89_interior_partial",
    "Verif.Constraint.c89_insert_partial"
   ],
   "note": "Violated: vert_point_in_inner_triangle includes the sides, so tetrahedra beyond a side with a corner on it are marked (c89_beyond). Proved end to end for all tetrahedra that no side of the constraint touches; face marks and marks without a corner in the plane are always true (C94)."
  },
  {
   "property": "C90",
   "status": "proved",
   "theorems": [
    "Verif.Constraint.c90_improper",
    "Verif.Constraint.c90_interior"
   ],
   "note": ""
  },
  {
   "property": "C91",
   "status": "proved",
   "theorems": [
    "Verif.Constraint.c91_complex"
   ],
   "note": ""
  },
  {
   "property": "C92",
   "status": "proved",
   "theorems": [
    "Verif.Constraint.c92_sides"
   ],
   "note": ""
  },
  {
   "property": "C93",
   "status": "proved",
   "theorems": [
    "Verif.Constraint.c93_insert",
    "Verif.Constraint.c93_tetrahedralize",
    "Verif.Constraint.c93_flat"
   ],
   "note": "c93_flat: coplanar input panics, as the mesh has no tetrahedra."
  },
  {
   "property": "C94",
   "status": "proved",
   "theorems": [
    "Verif.Constraint.c94_faces",
    "Verif.Constraint.c94_cut"
   ],
   "note": "Together with C88 and C89 this describes all marks. The exception for diagonals is needed (c88_quad); marks as cut with a corner in the plane may be wrong (c89_beyond)."
  },
  {
   "property": "C95",
   "status": "proved",
   "theorems": [
    "Verif.Bsp.c95_split_cell",
    "Verif.Bsp.Geo.hull"
   ],
   "note": "the vertices of the cell are compared exactly with the plane; a new vertex is the exact intersection of the edge with the plane"
  },
  {
   "property": "C96",
   "status": "proved",
   "theorems": [
    "Verif.Bsp.c96_from_points",
    "Verif.Bsp.c96_tiling",
    "Verif.Bsp.sliced_parts"
   ],
   "note": "the planes of the cuts are arbitrary; a call of split_cell that panics because no vertex is on one of the sides ends the run"
  },
  {
   "property": "C97",
   "status": "proved",
   "theorems": [
    "Verif.Bsp.c97_from_points",
    "Verif.Bsp.c97_subdivide"
   ],
   "note": "the vertices of the constraints are points of the mesh; the axes of the triangles are arbitrary here"
  },
  {
   "property": "C98",
   "status": "partial",
   "theorems": [
    "Verif.Bsp.c98_tri_cell",
    "Verif.Bsp.c98_tri_poly_partial",
    "Verif.Bsp.c98_orientation_refuted"
   ],
   "note": "is_triangle_intersects_cell: complete. is_triangle_intersects_poly: triangles with the orientation of the pivot; for the opposite orientation the claim is false (c98_orientation_refuted)"
  },
  {
   "property": "C99",
   "status": "partial",
   "theorems": [
    "Verif.Bsp.c99_resolved_partial",
    "Verif.Bsp.c99_from_points_partial",
    "Verif.Bsp.c99_orientation_refuted"
   ],
   "note": "coplanar triangles must have the same orientation, otherwise the claim is false (c99_orientation_refuted); that insert_constraints reaches all tetrahedra is a hypothesis (see c88_hole, c88_quad)"
  },
  {
   "property": "C100",
   "status": "proved",
   "theorems": [
    "Verif.Bsp.c100_whole_faces"
   ],
   "note": "Geometry is exact. A side shared only with coplanar triangles is not covered by the hypothesis on the sides."
  },
  {
   "property": "C101",
   "status": "proved",
   "theorems": [
    "Verif.Bsp.c101_unique"
   ],
   "note": "For positive face areas (a face of area 0 has no weight in the cut)."
  },
  {
   "property": "C102",
   "status": "proved",
   "theorems": [
    "Verif.Bsp.c102_solid"
   ],
   "note": "That the tests on the faces are right (FaceTests) and that no triangle passes through a cell (C99) are hypotheses."
  },
  {
   "property": "C103",
   "status": "proved",
   "theorems": [
    "Verif.Bsp.c103_loop_lists",
    "Verif.Bsp.c103_start_lists",
    "Verif.Bsp.c103_face_tests"
   ],
   "note": "Exact arithmetic. That the start lists are right needs that the constraint insertion reaches every tetrahedron with a face on the triangle (AllFaced)."
  },
  {
   "property": "C104",
   "status": "partial",
   "theorems": [
    "Verif.Bsp.c104_from_points_partial"
   ],
   "note": "Exact arithmetic. Missing: that the constraint insertion reaches every tetrahedron that the triangle crosses or whose face it covers (AllReached and AllFaced are hypotheses), and triangles in one plane must turn the same way (refuted otherwise, see C99). The areas are any positive numbers with sum 1."
  },
  {
   "property": "C105",
   "status": "proved",
   "theorems": [
    "Verif.Bsp.c105_reached",
    "Verif.Bsp.c105_faced",
    "Verif.Bsp.c105_marks",
    "Verif.Bsp.c105_aligned",
    "Verif.Bsp.c105_from_points",
    "Verif.Bsp.c105_tetrahedralize"
   ],
   "note": "General position is a hypothesis on the points only (no four in one plane); it discharges the hypotheses AllReached, AllFaced and Aligned of C104. Areas of the faces are a parameter (positive, sum 1). Beside them a tetrahedron with a point inside and one outside, and a large triangle around a small tetrahedron which is found although no side touches it."
  },
  {
   "property": "C106",
   "status": "proved",
   "theorems": [
    "Verif.Bsp.c106_input",
    "Verif.Bsp.c106_virtual",
    "Verif.Bsp.c106_proper",
    "Verif.Bsp.c106_mesh",
    "Verif.Bsp.c106_solid",
    "Verif.Poly.c55_closed"
   ],
   "note": "Exact rational arithmetic. That different points stay different on the grid is a hypothesis because `remove_duplicates` compares before rounding (C50). Flat points and more than 1021 points are excluded (C85, C45)."
  },
  {
   "property": "C107",
   "status": "proved",
   "theorems": [
    "Verif.Bsp.c107_area",
    "Verif.Bsp.c107_start",
    "Verif.Bsp.c107_split",
    "Verif.Bsp.c107_areas",
    "Verif.Bsp.c107_solid"
   ],
   "note": "Exact coordinates and an exact norm (the square root is abstract: not negative, zero only at zero, additive for vectors in the same direction; shown for the Euclidean norm)."
  },
  {
   "property": "C108",
   "status": "proved",
   "theorems": [
    "Verif.Bsp.c108_input",
    "Verif.Bsp.c108_mesh"
   ],
   "note": "Exact rational arithmetic. `triangulate` on points of the plane is any function that does not panic for valid indices and returns non-degenerate triangles between its points (its Delaunay and constraint code is covered only in part: C20, C21, C33, C34). An incomplete last chunk of axes panics also when it is not reached."
  },
  {
   "property": "C109",
   "status": "proved",
   "theorems": [
    "Verif.Bsp.c109_faces",
    "Verif.Bsp.c109_volume",
    "Verif.Bsp.c109_surface"
   ],
   "note": "exact arithmetic; general position as in C105; surface of a solid as in C102"
  },
  {
   "property": "C110",
   "status": "partial",
   "theorems": [
    "Verif.Bsp.c110_closed_partial",
    "Verif.Bsp.c110_closed_geo_partial",
    "Verif.Bsp.c110_groups",
    "Verif.Bsp.c110_solid",
    "Verif.Bsp.c110_straight",
    "Verif.Bsp.c110_output",
    "Verif.Bsp.c110_refuted"
   ],
   "note": "c110_groups, c110_solid: the faces of a group have their front on the same side of one plane and pass no edge twice in one direction, so the condition of C79 holds (c110_solid from the input points on). c110_output: closed loops give a closed set of output triangles if the triangulation keeps the boundary of each face. Closed loops are proved for the whole of merge_faces when no third outline edge ends at a vertex over which an outline goes straight on, for groups whose edges of one original edge lie on a line. The general claim is false: edge_in_group is never written, so merge_colinear_edges decides for each outline alone; c110_refuted is a tetrahedron with a notch where the code returns a T-junction."
  },
  {
   "property": "C111",
   "status": "proved",
   "theorems": [
    "Verif.Tri.c111_merge",
    "Verif.Tri.base2_part",
    "Verif.Tri.base3flat_part",
    "Verif.Tri.base3pos_part",
    "Verif.Tri.base3neg_part",
    "Verif.Tri.c111_handles"
   ],
   "note": "For every run that returns. The base cases of the recursion (two points, three collinear points, three points in either order) give such meshes."
  },
  {
   "property": "C112",
   "status": "partial",
   "theorems": [
    "Verif.Tri.c112_recursion_partial"
   ],
   "note": "Missing: that the handles returned by merge_hulls lie at the ghost vertex. This needs the geometry of the hulls (the leftmost point stays on the hull); it is a hypothesis about the run, proved for up to three points and checked for the example of seven points."
  },
  {
   "property": "C113",
   "status": "proved",
   "theorems": [
    "Verif.Tri.c113_ghost",
    "Verif.Tri.c113_ghost_all",
    "Verif.Tri.c113_vmap"
   ],
   "note": "that all ghost triangles are marked is stated for meshes with one fan at the ghost vertex (OneFan)"
  },
  {
   "property": "C114",
   "status": "partial",
   "theorems": [
    "Verif.Tri.c114_good_partial",
    "Verif.Tri.c114_output_partial"
   ],
   "note": "Missing: Handles as in C112, and that the triangles at the ghost vertex form one fan (OneFan). Both are hypotheses about the run; they are checked by evaluation for the example of seven points."
  }
 ]
}