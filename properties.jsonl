{"id": "C01", "title": "Union-find answers exactly the equivalence generated by the merges", "statement": "After DisjointSet::new(n) and any sequence of merge(x,y) calls with in-range arguments, find_set(x) == find_set(y) holds if and only if x and y are connected by a chain of merged pairs (reflexive-symmetric-transitive closure).", "quantifier": "every n, every finite sequence of in-range merges, every pair x,y < n", "why_tests_cant": "Path compression and union by rank interact over unboundedly long histories; tests sample a few merge orders and can never show that no order joins or separates a wrong pair.", "anchors": ["src/disjoint_set/mod.rs: DisjointSet::new, merge, link, find_set"]}
{"id": "C02", "title": "n_groups is the exact number of classes", "statement": "After any sequence of in-range merges on DisjointSet::new(n), the public field n_groups equals the number of equivalence classes of the relation generated by the merges (equivalently the number of distinct find_set values).", "quantifier": "every n and every finite merge history, including repeated and self merges", "why_tests_cant": "A missed or double decrement may only show for special repeat patterns of merges; the claim quantifies over all histories.", "anchors": ["src/disjoint_set/mod.rs: DisjointSet::n_groups, merge, link"]}
{"id": "C03", "title": "output() lists each class once, complete and in ascending order", "statement": "After any history, output() has one entry per class, keyed by that class's representative (find_set of each member), whose value lists exactly the members of the class, in ascending order, each once; every element 0..n appears in exactly one entry.", "quantifier": "every n, every history", "why_tests_cant": "Completeness/uniqueness of a partition over all histories cannot be enumerated.", "anchors": ["src/disjoint_set/mod.rs: DisjointSet::output"]}
{"id": "C04", "title": "Queries never change the partition", "statement": "find_set terminates, returns a fixed point (find_set(find_set(x)) == find_set(x)), and interleaving any find_set queries (which compress paths) between merges changes neither later find_set comparisons nor n_groups.", "quantifier": "every n, every interleaving of merges and queries", "why_tests_cant": "Interference of the mutating query with later operations depends on unbounded interleavings.", "anchors": ["src/disjoint_set/mod.rs: DisjointSet::find_set"]}
{"id": "C05", "title": "SurfaceMesh::new reproduces every input polygon", "statement": "For a list of non-empty polygons, walking face f from its halfedge through he_next visits exactly polygons[f].len() halfedges before returning, and their tail vertices are exactly the vertices of polygons[f] in order (starting with the first); each of these halfedges reports face f; n_faces, n_halfedges, n_vertices are the number of polygons, the total number of corners and the largest index + 1.", "quantifier": "every non-empty list of non-empty index lists (any non-manifold, repeated or degenerate polygons)", "why_tests_cant": "Input meshes are arbitrary; only a proof covers all index patterns.", "anchors": ["src/mesh/surface_mesh.rs: SurfaceMesh::new"]}
{"id": "C06", "title": "Edges of a new mesh are exactly the unordered vertex pairs", "statement": "In SurfaceMesh::new(polygons), two halfedges report the same edge iff they join the same unordered pair of vertices; edge ids are 0..n_edges with every id used; following he_sibling from any halfedge visits every halfedge of its edge exactly once and returns; e_halfedge(e) is on e.", "quantifier": "every input polygon list, every pair of halfedges", "why_tests_cant": "The sibling rings are built incrementally with a hash map over arbitrary non-manifold multiplicities.", "anchors": ["src/mesh/surface_mesh.rs: SurfaceMesh::new, he_sibling, e_halfedge"]}
{"id": "C07", "title": "Vertex iterators return exactly the incident halfedges", "statement": "In SurfaceMesh::new(polygons), iterating the outgoing (incoming) halfedges of a vertex v visits exactly the halfedges whose tail (tip) is v, each exactly once, and terminates.", "quantifier": "every input, every vertex used by some polygon", "why_tests_cant": "Linked-list threading over arbitrary vertex degrees.", "anchors": ["src/mesh/surface_mesh.rs: vertex_cycle, SurfaceMesh::new", "src/mesh/element/vertex.rs: VOHIter, VIHIter"]}
{"id": "C08", "title": "split_edge inserts one vertex into every face on the edge and nothing else", "statement": "On a valid mesh, split_edge(e) returns a new vertex m such that in every face each traversal u->v of an edge-e halfedge becomes u->m->v and all other boundary steps are unchanged; n_vertices, n_edges grow by one, n_halfedges by the number of halfedges on e, n_faces is unchanged, and the result is again a valid mesh.", "quantifier": "every valid surface mesh (including non-manifold edges with any number of halfedges), every edge that joins two distinct vertices", "why_tests_cant": "The local surgery rewires six linked structures for arbitrary multiplicity.", "anchors": ["src/mesh/surface_mesh.rs: split_edge, insert_halfedge"]}
{"id": "C09", "title": "split_face cuts a face into two faces along the new edge", "statement": "On a valid mesh, split_face(f, va, vb), where the boundary of f reads P...,u1,Q...,u2,R... with u1 and u2 the two given vertices in the order in which they are met, leaves two faces with the boundaries u2,u1,Q... (face f) and u1,u2,R...,P... (the new face), each closed by one of the two halfedges of one new edge; every other face is unchanged; n_faces, n_edges grow by one, n_halfedges by two; the returned halfedge runs from u1 to u2 in the new face; the result is valid.", "quantifier": "every valid mesh, every face and every two distinct vertices of it that occur once", "why_tests_cant": "All boundary lengths and positions of the two vertices must be covered.", "anchors": ["src/mesh/surface_mesh.rs: split_face"]}
{"id": "C10", "title": "add_face_by_halfedges adds exactly the requested face", "statement": "On a valid mesh, add_face_by_halfedges(hs) for a closed chain of halfedges adds one face whose boundary passes through the tail vertices of hs in order over the same edges, adds hs.len() halfedges, no vertex, no edge, leaves every other face unchanged and keeps the mesh valid.", "quantifier": "every valid mesh, every closed chain of halfedges", "why_tests_cant": "Chains of any length over edges of any multiplicity.", "anchors": ["src/mesh/surface_mesh.rs: add_face_by_halfedges, insert_halfedge"]}
{"id": "C11", "title": "Element iterators and counters agree", "statement": "vertices() yields n_vertices() items, halfedges() n_halfedges(), edges() n_edges(), faces() n_faces(), each element once.", "quantifier": "every mesh built by SurfaceMesh::new", "why_tests_cant": "Counts over all index patterns, including indices skipped by all polygons.", "anchors": ["src/mesh/surface_mesh.rs: n_vertices", "src/mesh/element/vertex.rs: VertexIter"]}
{"id": "C12", "title": "he_prev inverts he_next and he_twin crosses a manifold edge", "statement": "he_prev(he_next(h)) == h and he_next(he_prev(h)) == h for every halfedge; if an edge has exactly two halfedges of opposite direction then he_twin exchanges them, and whenever he_twin(h) != h it is a halfedge of the same edge.", "quantifier": "every valid mesh, every halfedge", "why_tests_cant": "Faces and sibling rings have unbounded length.", "anchors": ["src/mesh/surface_mesh.rs: he_prev, he_twin"]}
{"id": "C13", "title": "ArcBuilder encodes the terminal costs and arcs faithfully", "statement": "ArcBuilder::new(source_costs, sink_costs) followed by any add_arc calls yields the network on len+2 nodes in which the total capacity from source to node i is source_costs[i], from node i to sink is sink_costs[i], and between nodes i and j is the sum of the added capacities (both directions for bidirectional arcs).", "quantifier": "every cost vector (non-negative), every sequence of add_arc calls", "why_tests_cant": "Index shifting and skipping of zero costs over arbitrary sequences.", "anchors": ["src/graphcut/mod.rs: ArcBuilder::new, add_arc"]}
{"id": "C14", "title": "find_max_flow computes a feasible preflow and the maximum flow value", "statement": "After PushRelabelFifo::find_max_flow on a network with non-negative capacities and no self-loops, the residual capacities correspond to a function within the capacities with non-negative excess at every node except the source, and the amount that reached the sink equals the maximum source-sink flow value.", "quantifier": "every finite network with non-negative capacities", "why_tests_cant": "All graphs and all FIFO/relabel schedules.", "anchors": ["src/graphcut/push_relabel_fifo.rs: PushRelabelFifo::find_max_flow, push, relabel, global_relabel"]}
{"id": "C15", "title": "is_sink is a minimum cut", "statement": "After find_max_flow, the set of nodes with is_sink(i) false is the source side of a minimum cut: no residual arc leads from a node with is_sink false to a node with is_sink true.", "quantifier": "every finite network", "why_tests_cant": "Requires exhibiting or excluding one special schedule among all networks.", "anchors": ["src/graphcut/push_relabel_fifo.rs: PushRelabelFifo::is_sink"]}
{"id": "C16", "title": "Nodes reported on the source side cannot reach the sink", "statement": "After find_max_flow, a node with is_sink(i) false has no residual path to the sink.", "quantifier": "every finite network with non-negative capacities", "why_tests_cant": "A statement over all residual paths of all graphs.", "anchors": ["src/graphcut/push_relabel_fifo.rs: is_sink"]}
{"id": "C17", "title": "Network construction pairs every arc with its reverse", "statement": "PushRelabelFifo::from((arcs, n)) builds, for every pair of nodes joined by an input arc, exactly one arc u->v and one arc v->u; the capacity of each is the sum of the capacities of the input arcs from its start to its end, and each of the two knows the index of the other; nothing else is added.", "quantifier": "every arc list with endpoints < n, including self-loops", "why_tests_cant": "Index bookkeeping over arbitrary arc orders.", "anchors": ["src/graphcut/push_relabel_fifo.rs: From for PushRelabelFifo"]}
{"id": "C18", "title": "GraphCut::max_flow (Boykov-Kolmogorov) returns the value of a minimum cut", "statement": "max_flow returns for all capacities that are multiples of a common unit, so for all rational ones. When max_flow returns, flow equals the capacity of the cut made by the source tree and is at most the capacity of every cut; there is a flow of that value within all capacities that is conserved at every node. The nodes whose public is_sink is false are the source side of a minimum cut. The last sentence fails: a node that both trees have left keeps its last is_sink; it holds when such nodes have is_sink true, and for every node in a tree is_sink is its side in every minimum cut.", "quantifier": "every number of nodes, all terminal capacities, all edges (also loops and parallel edges) with non-negative capacities in any linearly ordered group, every number of iterations after which the loop ends", "why_tests_cant": "All graphs, capacities and orders of growing, augmenting and adopting.", "anchors": ["src/graphcut/mod.rs: GraphCut::new, add_edge, max_flow, augment, process_source_orphan, process_sink_orphan, set_active, next_active"]}
{"id": "C19", "title": "Interval addition and subtraction enclose", "statement": "For intervals a, b holding real values x, y (as built by From<f64> and operations), a+b encloses x+y and a-b encloses x-y, whatever the rounding of the two lane operations to nearest.", "quantifier": "all finite f64 endpoints without overflow, all enclosed reals", "why_tests_cant": "2^128 operand pairs.", "anchors": ["src/predicates/interval_number.rs: add, sub, next_up"]}
{"id": "C20", "title": "Interval multiplication encloses", "statement": "For valid intervals a, b holding x, y, a*b encloses x*y.", "quantifier": "all finite endpoints without overflow, all sign cases", "why_tests_cant": "Nine sign cases over all doubles.", "anchors": ["src/predicates/interval_number.rs: mul"]}
{"id": "C21", "title": "Interval sign tests agree with the enclosed value", "statement": "If positive() returns true every enclosed real is positive; if negative() returns true every enclosed real is negative; not_zero() implies no enclosed real is zero.", "quantifier": "all valid intervals", "why_tests_cant": "All doubles.", "anchors": ["src/predicates/interval_number.rs: positive, negative, not_zero"]}
{"id": "C22", "title": "two_sum/two_diff are error-free", "statement": "For all finite doubles a,b without overflow, two_sum(a,b) = [y,x] satisfies x = fl(a+b) and x + y = a + b exactly; two_diff likewise for a - b; fast_two_sum likewise when |a| >= |b|.", "quantifier": "all doubles in range, round to nearest ties to even", "why_tests_cant": "2^128 pairs.", "anchors": ["src/predicates/predicates.rs: two_sum, fast_two_sum, two_diff"]}
{"id": "C23", "title": "two_product is error-free", "statement": "For all doubles a,b whose product neither overflows nor underflows, two_product(a,b) returns x = fl(a*b) and y with x + y = a*b exactly, through Dekker splitting.", "quantifier": "all doubles in range", "why_tests_cant": "2^128 pairs.", "anchors": ["src/predicates/predicates.rs: split, two_product, two_product_presplit, square"]}
{"id": "C24", "title": "Expansion sum/difference with zero elimination preserve the exact value", "statement": "fast_expansion_sum_zeroelim(e,f) returns an expansion whose exact sum is sum(e)+sum(f); fast_expansion_diff_zeroelim gives sum(e)-sum(f).", "quantifier": "all expansions e,f (lists of doubles without overflow), every length", "why_tests_cant": "Unbounded lengths and values.", "anchors": ["src/predicates/predicates.rs: fast_expansion_sum_zeroelim, fast_expansion_diff_zeroelim"]}
{"id": "C25", "title": "expansion_sum adds both expansions", "statement": "expansion_sum(e,f) returns an expansion whose exact sum is sum(e)+sum(f).", "quantifier": "all expansions", "why_tests_cant": "Unbounded lengths and values.", "anchors": ["src/predicates/predicates.rs: expansion_sum"]}
{"id": "C26", "title": "Expansion scaling and products preserve the exact value", "statement": "scale_expansion_zeroelim(e,b) has exact sum b*sum(e), mul_expansion_zeroelim(e,f) has exact sum sum(e)*sum(f).", "quantifier": "all expansions without over/underflow", "why_tests_cant": "Unbounded lengths and values.", "anchors": ["src/predicates/predicates.rs: scale_expansion_zeroelim, mul_expansion_zeroelim"]}
{"id": "C27", "title": "The sign of a nonoverlapping expansion is the sign of its last component", "statement": "For the expansions produced by the arithmetic, ExpansionNum::negative and not_zero (which look only at the last component) decide the sign of the exact value.", "quantifier": "all nonoverlapping expansions whose last component is the largest", "why_tests_cant": "Unbounded lengths and values.", "anchors": ["src/predicates/expansion_number.rs: not_zero, negative"]}
{"id": "C28", "title": "The predicates respect the symmetries of space", "statement": "Moving all points by the same vector and scaling them by the same factor never changes the sign that orient2d, incircle and orient4d return, as long as the moved points are doubles again, and mirroring them exactly reverses the sign of orient2d and incircle. orient2d returns zero exactly for points on a common line. orient4d with the squared lengths as heights agrees with the exact in-sphere stage, and adding an affine function to its heights changes nothing. orient3d_fast differs from the determinant by at most nine roundings of the sum of the absolute values of its products.", "quantifier": "for all points, vectors and factors for which the points before and after are doubles", "why_tests_cant": "Rounding breaks such symmetries exactly in the nearly degenerate cases; a random test never hits them.", "anchors": ["src/predicates/predicates.rs: :499-527", "src/predicates/predicates.rs: :1075-1112", "src/predicates/predicates.rs: :1934-2031", "src/predicates/predicates.rs: :791-812"]}
{"id": "C29", "title": "orient3d returns the exact sign for every input", "statement": "For any four points with double coordinates orient3d returns (never panics) a number with the sign of the real determinant of the differences to the last point; coplanar points give zero. The code violates this: the exact stage passes cdztail for cdxtail in the third call of helper2, so the returned sign is that of the determinant plus a spurious term; points in a common plane can be reported as a proper tetrahedron and the sign can be reversed. It holds whenever the spurious term vanishes, e.g. when the relevant coordinate differences are exact and for all integer coordinates of at most 52 bits.", "quantifier": "all quadruples of points with double coordinates (rounding to nearest-even with 53 bits; overflow and underflow excluded)", "why_tests_cant": "The filters are correct only if the error constants dominate every rounding pattern; the defect shows only in the last refinement stage, for near-degenerate inputs with nonzero tails.", "anchors": ["src/predicates/predicates.rs: :529-789", "src/predicates/predicates.rs: :52-54"]}
{"id": "C30", "title": "orient3d is the exact orientation sign for every mix of point types", "statement": "For every combination of explicit, line-plane and three-plane points the dispatcher returns the sign of the orientation determinant of the four represented points (given that the leaf routine is exact), hence it is antisymmetric under swapping any two arguments.", "quantifier": "all 81 type combinations and all point values", "why_tests_cant": "81 hand-written permutations whose parity matters.", "anchors": ["src/predicates/orient3d.rs: orient3d"]}
{"id": "C31", "title": "Implicit-point polynomials equal the true determinant up to the sign of the denominators", "statement": "The polynomials evaluated by orient3d_ieee/iiee/iiie/iiii_impl and orient2d_iee/iie/iii_impl equal the orientation determinant of the points lambda/d multiplied by the product of (powers of) the denominators d, so after normalising d > 0 their sign is the orientation sign.", "quantifier": "all homogeneous coordinates with non-zero d", "why_tests_cant": "Degree-8 polynomial identities.", "anchors": ["src/predicates/orient3d.rs: orient3d_ieee_impl, orient3d_iiee_impl, orient3d_iiie_impl, orient3d_iiii_impl", "src/predicates/orient2d.rs: orient2d_iee_impl, orient2d_iie_impl, orient2d_iii_impl"]}
{"id": "C32", "title": "orient2d dispatch is parity-correct", "statement": "For all 27 combinations of point types and each projection axis, orient2d_by_axis over mixed points returns the sign of the projected orientation of the represented points.", "quantifier": "all 27 combinations, 3 axes, all values", "why_tests_cant": "27x3 hand-written permutations.", "anchors": ["src/predicates/orient2d.rs: orient2d_xy, orient2d_yz, orient2d_zx, orient2d_by_axis"]}
{"id": "C33", "title": "less_than comparisons are antisymmetric", "statement": "less_than_on_x/y/z(a,b) is the sign of the coordinate difference of the represented points for every combination of point types, so swapping arguments reverses the result.", "quantifier": "all 9 type combinations, 3 axes", "why_tests_cant": "9x3 combinations each with several evaluation stages.", "anchors": ["src/predicates/less_than.rs: less_than_on_x, less_than_on_y, less_than_on_z"]}
{"id": "C34", "title": "The interval filter never reports a wrong sign", "statement": "Whenever the dynamic (interval) stage of orient3d/orient2d/less_than on implicit points returns a definite sign, it is the sign of the exact value.", "quantifier": "all inputs reaching the dynamic filter", "why_tests_cant": "Only near-degenerate inputs reach the stage.", "anchors": ["src/predicates/orient3d.rs: orient3d_iiee_dynamic ...", "src/predicates/generic_point.rs: dynamic"]}
{"id": "C35", "title": "Implicit points lie where they claim", "statement": "The homogeneous coordinates computed for an LPI point are those of the intersection of line pq with plane rst, and for a TPI point those of the common point of its three planes; the denominator is zero exactly when the line is parallel to the plane (the normals are dependent).", "quantifier": "all coordinates", "why_tests_cant": "Polynomial identities in 15 and 27 variables.", "anchors": ["src/predicates/generic_point.rs: ImplicitPointLPI, ImplicitPointTPI, lambda computations"]}
{"id": "C36", "title": "Collinearity and segment predicates decide their geometric meaning", "statement": "mis_alignment is true iff the three points are not collinear; point_in_inner_segment(u,v1,v2) is true iff u lies strictly between v1 and v2; inner_segments_cross is true iff the open segments cross in a single point, both properly.", "quantifier": "all points", "why_tests_cant": "Degenerate configurations (collinear, axis-parallel) form measure-zero sets that random tests miss.", "anchors": ["src/predicates/mod.rs: mis_alignment, point_in_inner_segment, inner_segments_cross, same_half_plane"]}
{"id": "C37", "title": "Segment-triangle predicates decide their geometric meaning", "statement": "inner_segment_cross_inner_triangle is true iff the open segment meets the open triangle in exactly one point, crossing its plane; point_in_triangle/point_in_inner_triangle decide membership for coplanar points.", "quantifier": "all points (non-degenerate triangles)", "why_tests_cant": "Same as C36.", "anchors": ["src/predicates/mod.rs: inner_segment_cross_inner_triangle, point_in_triangle, point_in_inner_triangle"]}
{"id": "C38", "title": "Simulation of simplicity gives a consistent non-zero in-sphere answer", "statement": "insphere_s never returns zero for a non-degenerate tetrahedron and a fifth distinct point, and exchanging two of the first four vertices reverses its answer.", "quantifier": "all points and all index orders", "why_tests_cant": "Requires cospherical input; all permutations of perturbation order.", "anchors": ["src/triangle/tetrahedron.rs: insphere_s"]}
{"id": "C39", "title": "Tetrahedron handles form a consistent algebra", "statement": "For every handle: enext three times is the identity and keeps the face, esym is an involution exchanging org/dest and apex/oppo, eprev undoes enext, and org/dest/apex/oppo are the four distinct corners of the tetrahedron in an orientation-preserving order.", "quantifier": "all tetrahedra and all 12 versions", "why_tests_cant": "Eleven hand-written lookup tables that must agree.", "anchors": ["src/triangle/tetrahedron.rs: ENEXT, EPREV, ESYM, ORG_PIVOT, DEST_PIVOT, APEX_PIVOT, OPPO_PIVOT, VPIVOT, EPIVOT"]}
{"id": "C40", "title": "bond glues two faces consistently", "statement": "After bond(t1,t2), fsym(t1) is the matching handle of t2 and fsym(t2) the matching one of t1, for every version rotation; if the two faces have the same three vertices glued org-to-dest then for each rotation org(fsym(t)) = dest(t) and dest(fsym(t)) = org(t); no other face is changed.", "quantifier": "all meshes, all pairs of handles on different faces", "why_tests_cant": "144 version combinations over all meshes.", "anchors": ["src/triangle/tetrahedron.rs: bond, fsym, fnext, BOND, FSYM"]}
{"id": "C41", "title": "initial_delaunay builds a closed, consistent complex", "statement": "For four vertices the initial complex has one solid and four hull tetrahedra, every face is glued to exactly one other face with the same vertex set in opposite orientation, hull tetrahedra have the ghost vertex last, and p2t of each vertex points to a tetrahedron containing it.", "quantifier": "all choices of four distinct vertices", "why_tests_cant": "Twenty hand-written gluings.", "anchors": ["src/triangle/tetrahedron.rs: initial_delaunay"]}
{"id": "C42", "title": "incident(v) enumerates exactly the tetrahedra around a vertex", "statement": "On a consistent mesh, incident(v) returns each solid tetrahedron that contains v and is face-connected around v to p2t[v] exactly once and leaves the marks of the mesh as they were.", "quantifier": "all consistent meshes, all vertices", "why_tests_cant": "Breadth-first search over arbitrary vertex stars.", "anchors": ["src/triangle/tetrahedron.rs: incident"]}
{"id": "C43", "title": "Spatial sorting only permutes", "statement": "hilbert_split, hilbert_sort and brio_multiscale_sort return a permutation of their input indices for any (finite) points; hilbert_split moves all points on one side of the split value before the others.", "quantifier": "all point sets, all index lists", "why_tests_cant": "All data-dependent swap sequences.", "anchors": ["src/triangle/tetrahedron.rs: hilbert_split, hilbert_sort, brio_multiscale_sort"]}
{"id": "C44", "title": "tetrahedralize handles duplicate points", "statement": "tetrahedralize on points that contain an exact duplicate returns a mesh in which every point is a vertex or is identified with its duplicate (it does not panic).", "quantifier": "all point sets with at least four affinely independent points", "why_tests_cant": "Existence of one failing input.", "anchors": ["src/triangle/tetrahedron.rs: tetrahedralize, insert_vertex_bw"]}
{"id": "C45", "title": "After inserting a vertex its point-to-tetrahedron link is live", "statement": "After insert_vertex_bw(p) returns true, p2t[p] is a live tetrahedron having p as a vertex and the search handle is live.", "quantifier": "all meshes, all cavity sizes", "why_tests_cant": "The branch for cavities with 1024 or more vertices is never reached by tests.", "anchors": ["src/triangle/tetrahedron.rs: insert_vertex_bw"]}
{"id": "C46", "title": "unique_indices is an invertible compaction", "statement": "unique_indices(idx) returns (new, back) where back has no repeats, lists exactly the values of idx in order of first occurrence, and back[new[i]] = idx[i] for all i.", "quantifier": "all index lists", "why_tests_cant": "All lists.", "anchors": ["src/triangle/triangle.rs: unique_indices"]}
{"id": "C47", "title": "Flipping keeps the triangulation consistent", "statement": "On a consistent triangle mesh (neighbour links symmetric, shared edges agree on their two vertices), flip keeps consistency, replaces the shared diagonal of the two triangles by the other one, keeps the four outer neighbours and touches nothing else.", "quantifier": "all consistent meshes and interior edges", "why_tests_cant": "All neighbour configurations including coinciding neighbours.", "anchors": ["src/triangle/triangle.rs: flip, bond, sym"]}
{"id": "C48", "title": "triangulate_polygon_soup reports one parent per triangle", "statement": "triangulate_polygon_soup returns index triples and a parents list with exactly one entry per triple, non-decreasing, and every triple of parent k only uses vertices of polygon k.", "quantifier": "all polygon soups (given that each polygon triangulates)", "why_tests_cant": "All soups.", "anchors": ["src/triangle/triangle.rs: triangulate_polygon_soup, triangulate_polygon"]}
{"id": "C49", "title": "remove_duplicates maps every point to its representative", "statement": "remove_duplicates(points, eps) returns (out, map) with out[map[i]] equal to point i rounded to the grid, for every i, so it differs from point i by at most eps / 4 in each coordinate; equal input points get equal images.", "quantifier": "all finite point lists, eps > 0", "why_tests_cant": "All lists and orders.", "anchors": ["src/polygonlization/mod.rs: remove_duplicates"]}
{"id": "C50", "title": "remove_duplicates returns pairwise distinct points", "statement": "The points returned by remove_duplicates are pairwise distinct.", "quantifier": "all finite point lists, eps > 0", "why_tests_cant": "Existence of one failing input.", "anchors": ["src/polygonlization/mod.rs: remove_duplicates"]}
{"id": "C51", "title": "The BSP subdivision loop terminates and leaves no unresolved triangle", "statement": "The loop of make_mesh_for_proper_triangles (while cid < n_cells, split or advance) terminates for every initial complex, and on exit no cell holds inner triangles.", "quantifier": "all complexes and all outcomes of the geometric tests", "why_tests_cant": "Termination over all inputs.", "anchors": ["src/polygonlization/mod.rs: make_mesh_for_proper_triangles", "src/polygonlization/bsp_complex.rs: split_cell, splittable, separate_out_coplanar_triangles"]}
{"id": "C52", "title": "BSP cells and faces refer to each other consistently", "statement": "In BSPComplex::new each solid tetrahedron becomes one cell with four faces, each shared face is stored once and lists exactly the cells that list it; split_cell keeps this.", "quantifier": "all consistent tetrahedral meshes", "why_tests_cant": "All meshes.", "anchors": ["src/polygonlization/bsp_complex.rs: BSPComplex::new, tet_face_is_new, remove_ghost_tets, split_cell"]}
{"id": "C53", "title": "Cached vertex orientations are exact", "statement": "verts_orient_wrt_plane only ever stores exact orientation signs, including those derived from the two parents of a subdivided edge and the 'built from plane' shortcut.", "quantifier": "all points, planes, vertex genealogies and query orders", "why_tests_cant": "All histories of cache population.", "anchors": ["src/polygonlization/bsp_complex.rs: verts_orient_wrt_plane, is_point_built_from_plane"]}
{"id": "C54", "title": "merge_colinear_edges keeps exactly the corners", "statement": "If some edge of the outline is not colinear with the next one in the list, the result lists, in order, exactly the end vertices of those edges whose successor (cyclically) is not colinear with them; otherwise the function panics.", "quantifier": "all outlines, any colinearity relation", "why_tests_cant": "All lengths and corner patterns, wrap-around included.", "anchors": ["src/polygonlization/bsp_complex.rs: merge_colinear_edges"]}
{"id": "C55", "title": "Virtual constraints are placed exactly on flat boundary edges", "statement": "add_virtual_constraint adds a triangle for an edge iff all triangles sharing this edge are coplanar and lie on the same side of it, and the added triangle contains the edge.", "quantifier": "all triangle soups", "why_tests_cant": "All configurations.", "anchors": ["src/polygonlization/conforming_mesh.rs: place_virtual_constraints, add_virtual_constraint"]}
{"id": "C56", "title": "make_loop orders the cut pieces into one closed chain", "statement": "If the pieces have distinct starts and distinct ends and every end is a start, make_loop terminates and returns a duplicate-free closed chain beginning with the first piece.", "quantifier": "all piece lists", "why_tests_cant": "All permutations.", "anchors": ["src/polygonlization/bsp_complex.rs: make_loop"]}
{"id": "C57", "title": "Face triangle lists are sorted sets", "statement": "insert_coplanar_triangles keeps the list strictly ascending and its members become the union with the non-virtual members of the source.", "quantifier": "all lists", "why_tests_cant": "All lists.", "anchors": ["src/polygonlization/bsp_complex.rs: insert_coplanar_triangles"]}
{"id": "C58", "title": "triangle_at_tet finds a mesh face when it exists", "statement": "If the three vertices are the corners of a face of the mesh, triangle_at_tet returns a handle to it; whenever it returns a handle, the handle's face has these vertices.", "quantifier": "all consistent meshes and vertex triples", "why_tests_cant": "All meshes.", "anchors": ["src/polygonlization/conforming_mesh.rs: triangle_at_tet"]}
{"id": "C59", "title": "find_set recursion depth is logarithmic", "statement": "With n elements no find_set call made by any history of merges and queries recurses deeper than log2(n)+1, so it cannot exhaust the stack.", "quantifier": "every n and every in-range history", "why_tests_cant": "The worst history grows with n.", "anchors": ["src/disjoint_set/mod.rs: link (union by rank), find_set"]}
{"id": "C60", "title": "Vertex insertion keeps the tetrahedral mesh consistent", "statement": "insert_vertex_bw, given a consistent closed mesh and any answers of the in-sphere test for which the boundary of the cavity is a non-empty edge-manifold surface, yields a consistent closed mesh: the cavity tetrahedra are dead, one new tetrahedron per cavity boundary face joins it to the new vertex, all faces of live tetrahedra are glued in pairs with matching vertices, and all marks are cleared.", "quantifier": "all consistent meshes, all cavities with fewer than 1024 boundary vertices, all outcomes of the geometric tests", "why_tests_cant": "Arbitrary cavity shapes and adjacency patterns.", "anchors": ["src/triangle/tetrahedron.rs: insert_vertex_bw"]}
{"id": "C61", "title": "Choosing the cavity seeds terminates and finds the whole ring", "statement": "After point location, insert_vertex_bw's choice of the first cavity tetrahedra does not panic; for a point on an edge the rotation about that edge comes back, and the tetrahedra collected are distinct, live and are all tetrahedra of the ring around the edge.", "quantifier": "all consistent meshes, all live handles, all location answers", "why_tests_cant": "Rings of any length; adjacency errors would loop forever.", "anchors": ["src/triangle/tetrahedron.rs: insert_vertex_bw (lines 878-904), fnext_self"]}
{"id": "C62", "title": "The answers of point location are correct", "statement": "locate_dt never panics on a consistent, negatively oriented mesh, and when it returns, the point is strictly inside the returned tetrahedron, in the relative interior of the returned face or edge, equal to the origin of the returned handle, or strictly beyond the returned hull face, according to the answer.", "quantifier": "all such meshes, all points, all live start handles, exact arithmetic", "why_tests_cant": "All positions of the point, including all degenerate ones.", "anchors": ["src/triangle/tetrahedron.rs: locate_dt"]}
{"id": "C63", "title": "The final renumbering keeps the tetrahedralization", "statement": "The end of tetrahedralize removes exactly the dead tetrahedra, renumbers the others in order without gaps, keeps their corners and gluing, and leaves every point linked to a solid tetrahedron having it as a corner.", "quantifier": "all meshes whose live part is consistent and whose points are all linked", "why_tests_cant": "All patterns of dead tetrahedra.", "anchors": ["src/triangle/tetrahedron.rs: tetrahedralize (lines 1221-1248)"]}
{"id": "C64", "title": "Projection axis of a triangle and point-in-triangle by projected orientations", "statement": "max_comp_in_tri_normal returns for every non-degenerate triangle an axis 0..2 along which its projection is non-degenerate (orient2d_by_axis of its corners is not Zero), and vert_in_tri applied to the three orient2d_by_axis values along that axis tells exactly whether a point of the plane is in the closed triangle.", "quantifier": "all non-degenerate triangles and all points of their planes, all filter thresholds, exact arithmetic", "why_tests_cant": "All triangles including almost axis-parallel ones.", "anchors": ["src/predicates/mod.rs: max_comp_in_tri_normal, orient2d_by_axis", "src/polygonlization/bsp_complex.rs: vert_in_tri"]}
{"id": "C65", "title": "Vertex neighbourhood iterators return every incident edge exactly once", "statement": "On a valid mesh, for a vertex without loop edges, vertex.edges() terminates and returns each edge incident to the vertex exactly once, and vertex.vertices() returns, in the same order, the other end of each of these edges.", "quantifier": "every valid surface mesh, every vertex with a halfedge and without loop edges", "why_tests_cant": "The iterator alternates between two linked rings and starts at the first canonical halfedge; degrees and multiplicities are unbounded.", "anchors": ["src/mesh/element/vertex.rs: VNeiState, VNeiIterImpl, VVIter, VEIter"]}
{"id": "C66", "title": "Every mesh reachable through the public operations is valid", "statement": "Any sequence of SurfaceMesh::new on non-empty polygons, split_edge on edges that are not loops, split_face at two vertices that occur once on the face and add_face_by_halfedges on closed chains gives a mesh whose face, edge and vertex rings are closed and complete, whose back references agree, and in which all halfedges of an edge join the same two vertices.", "quantifier": "every finite sequence of operations with every argument", "why_tests_cant": "Unbounded sequences of surgery on seven linked arrays.", "anchors": ["src/mesh/surface_mesh.rs: new, split_edge, split_face, add_face_by_halfedges"]}
{"id": "C67", "title": "A face lists exactly the original constraint triangles that lie on it", "statement": "A face of the initial BSP complex lists, in increasing order and without repetition, the original triangles marked on it from either of its two tetrahedra; when split_cell cuts a face each part keeps exactly the triangles with a corner on its side; virtual triangles are never recorded on a face, so every recorded triangle has a shell.", "quantifier": "all meshes, all marks, all complexes and all outcomes of the geometric tests", "why_tests_cant": "All histories of marks and cuts; a lost triangle shows only as a missing boundary in the final partition.", "anchors": ["src/polygonlization/bsp_complex.rs: BSPComplex::new, insert_coplanar_triangles, split_cell"]}
{"id": "C68", "title": "Segments become marked edges", "statement": "insert_segment / form_skeleton turn every given segment into a chain of edges of the triangulation that carry marks: mark 2i on the side where the segment runs forward and 2i+1 on the other side; marked edges are never lost, the mesh stays consistent and the number of triangles does not change. triangulate of the soup then keeps exactly the inside of the polygon.", "quantifier": "For all consistent triangle meshes with vertex map, all orientation and in-circle predicates with ccw(a,b,a) <= 0, all segments and lists of segments.", "why_tests_cant": "Whether a segment runs through another vertex, crosses marked edges, or crosses many edges, depends on the whole triangulation; the failing case needs a vertex exactly on a segment that is not reached along an edge.", "anchors": ["src/triangle/triangle.rs: form_skeleton", "src/triangle/triangle.rs: insert_segment", "src/triangle/triangle.rs: scout_segment", "src/triangle/triangle.rs: constrained_edge", "src/triangle/triangle.rs: delaunay_fixup"]}
{"id": "C69", "title": "The flood fill keeps or drops whole regions", "statement": "The flood fill in triangulate assigns the same verdict to all triangles of a region bounded by marked edges; it never un-marks a ghost; a region whose marks are all odd is dropped and a region without odd marks is kept.", "quantifier": "For all consistent triangle meshes with twin marks and all ghost sets.", "why_tests_cant": "The number of regions, their shapes and the order in which the queue visits them are unbounded.", "anchors": ["src/triangle/triangle.rs: triangulate"]}
{"id": "C70", "title": "orient2d returns the exact sign for every input", "statement": "For any three points whose coordinates are doubles, orient2d returns (it never panics) a number that is positive, zero or negative exactly when the real determinant (ax-cx)(by-cy)-(ay-cy)(bx-cx) is; in particular exchanging the first two points reverses the sign.", "quantifier": "all triples of points with double coordinates (rounding to nearest-even with 53 bits; overflow and underflow excluded)", "why_tests_cant": "The filters are correct only if every error constant dominates every rounding pattern, and the wrong sign would appear on a vanishing fraction of near-collinear inputs; the three filters and the exact stage each need inputs that random testing practically never produces.", "anchors": ["src/predicates/predicates.rs: :442-527", "src/predicates/predicates.rs: :48-51"]}
{"id": "C71", "title": "incircle returns the exact in-circle sign", "statement": "For any four points whose coordinates are doubles, incircle does not panic and returns a number with exactly the sign of the in-circle determinant: whichever of its four stages decides, the sign is right. Hence for a triangle that turns to the left the answer is positive exactly for points inside of its circle, negative exactly outside and zero exactly on it, and exchanging two points exactly reverses the answer.", "quantifier": "for all quadruples of points with double coordinates (53 bit significands, no overflow or underflow)", "why_tests_cant": "The wrong answers of a filter whose constant is too small, or of a wrong term of the exact stage, only appear for inputs within a few units of the last place of a degenerate configuration; random tests practically never reach the later stages.", "anchors": ["src/predicates/predicates.rs: :1075-1112", "src/predicates/predicates.rs: :814-1073", "src/predicates/predicates.rs: :55-57"]}
{"id": "C72", "title": "orient4d returns the exact sign", "statement": "For any five points with double coordinates and double heights, orient4d does not panic and returns a number with exactly the sign of the determinant of the lifted points, whichever of its four stages decides. Hence over a positively oriented tetrahedron the answer is positive exactly if the fifth lifted point lies below the hyperplane through the other four, negative exactly above and zero exactly on it, and exchanging two points with their heights exactly reverses the answer.", "quantifier": "for all quintuples of points with double coordinates and all double heights (53 bit significands, no overflow or underflow)", "why_tests_cant": "The later stages only decide inputs within a few units of the last place of a degenerate configuration, and whether an error bound is large enough is a statement about all inputs that no finite number of random ones can confirm.", "anchors": ["src/predicates/predicates.rs: :1602-2031"]}
{"id": "C73", "title": "insphere returns the in-sphere sign", "statement": "For any five points whose coordinates are doubles, insphere does not panic and returns a number with exactly the sign of the in-sphere determinant. Hence for a positively oriented tetrahedron the answer is positive exactly for points inside of its sphere, negative exactly outside and zero exactly on it.", "quantifier": "for all quintuples of points with double coordinates (53 bit significands, no overflow or underflow)", "why_tests_cant": "The static filter of the first stage and the error bounds of the later stages are claims about all inputs; wrong answers only appear for inputs that are degenerate up to a few units of the last place.", "anchors": ["src/predicates/predicates.rs: :1114-1600"]}
{"id": "C74", "title": "split_face_verts finds where the plane cuts a face", "statement": "For a face with distinct vertices that the plane meets like a convex polygon: if it has vertices on both sides, split_face_verts returns the place where the boundary comes to the positive side and the place where it leaves it, each a vertex in the plane or a crossed edge, ordered so that the part of the face on the positive side lies on the proper side of the cut as seen from the cell. If all vertices are on one closed side it says which, and on the positive side it lists the half-edges in the plane as one directed path, reversed when the face is oriented with the cell. It does not depend on where the list of half-edges begins.", "quantifier": "For all faces of any length, all positions of the starting half-edge, all sign patterns of a convex polygon and both orientations.", "why_tests_cant": "Faces have unbounded length and 4 structurally different sign patterns at every rotation; tests see a handful of faces.", "anchors": ["src/polygonlization/bsp_complex.rs: split_face_verts"]}
{"id": "C75", "title": "split_cell keeps every cell of the complex watertight", "statement": "Suppose cells and faces of the complex refer to each other, every edge is used in both directions, and the faces of each cell (with the orientation given by the order of their two cells) form a closed surface. If the plane of the pivot triangle meets the faces of the cell like convex polygons, in pieces that form one closed curve, then split_cell does not panic and the same holds afterwards for the cell that was cut, for the new cell and for all other cells, although edges and faces that they share were cut. If the cell was cut, all its vertices are on the closed negative side of the plane and those of the new cell on the closed positive side.", "quantifier": "For all complexes satisfying the invariant, all cells and planes, all outcomes of the remaining geometric tests.", "why_tests_cant": "A gap shows only for particular combinations of cut faces, shared edges and orientations; the number of faces, vertices and neighbouring cells is unbounded.", "anchors": ["src/polygonlization/bsp_complex.rs: BSPComplex::split_cell", "src/polygonlization/bsp_complex.rs: split_face_verts", "src/mesh/surface_mesh.rs: split_edge, split_face, add_face_by_halfedges, he_twin"]}
{"id": "C76", "title": "The faces between kept and dropped cells form a closed oriented surface", "statement": "After any number of cuts, whatever set of cells complex_partition keeps, the faces it selects (kept_faces) with the signs it gives them form a closed surface: along every edge and at each of its ends the selected faces leave as often as they arrive. A face is selected exactly if one of its two sides is kept and the other is not; the outside of the complex counts as not kept.", "quantifier": "For all complexes reachable by split_cell from a watertight one and all subsets of cells.", "why_tests_cant": "The number of subsets is exponential in the number of cells, and the cells are the outcome of arbitrarily many cuts.", "anchors": ["src/polygonlization/bsp_complex.rs: BSPComplex::complex_partition"]}
{"id": "C77", "title": "complex_partition keeps a cheapest set of cells", "statement": "For each shell complex_partition chooses cells such that no other choice has a lower price. The price of a choice is the area of the faces without a triangle of the shell that separate chosen cells from others or from the outside, plus half of the area of a face with a triangle for each of its cells that is not chosen as the triangle tells. A cell is kept if it is chosen for some shell. The outside is never chosen.", "quantifier": "For all complexes, all areas of the faces that are not negative and sum up to 1, all lists of triangles on the faces and all outcomes of the tests of the triangles.", "why_tests_cant": "The number of choices is exponential in the number of cells; a test would have to know the cheapest one.", "anchors": ["src/polygonlization/bsp_complex.rs: BSPComplex::complex_partition", "src/graphcut/PushRelabelFifo::find_max_flow", "src/graphcut/ArcBuilder::add_arc"]}
{"id": "C78", "title": "Triangles that bound a set of cells are reproduced", "statement": "If for every shell the triangles agree with some choice of the cells (the cells on both sides of a triangle are chosen as it tells, and no face without a triangle separates a chosen cell from the others), then complex_partition keeps exactly the cells of the largest such choices, one for each shell.", "quantifier": "For all complexes, all areas that are not negative and sum up to 1, all lists of triangles and all numbers of shells.", "why_tests_cant": "The claim is about all choices of cells; tests use closed surfaces of a few triangles.", "anchors": ["src/polygonlization/bsp_complex.rs: BSPComplex::complex_partition", "src/graphcut/PushRelabelFifo::global_relabel"]}
{"id": "C79", "title": "The outlines of merged faces are closed curves through each outline half-edge once", "statement": "For a set of oriented faces of which no two pass an edge in the same direction, extract_faces_outlines returns without panic, each returned outline is a closed curve, and together the outlines contain exactly the half-edges that one face passes and no face passes in the other direction, each exactly once.", "quantifier": "for all sets of faces with signs, whatever their number of vertices and holes, and for all orders in which the hash map gives the outline edges", "why_tests_cant": "whether it panics depends on the order of a hash map and on a rare pattern (an inner edge between two pinched vertices); tests on ordinary faces never meet it", "anchors": ["src/polygonlization/bsp_complex.rs: 927-1057"]}
{"id": "C80", "title": "merge_faces joins exactly the coplanar faces that meet alone in an edge", "statement": "merge_faces puts every kept face into exactly one group and nothing else; two faces are in the same group iff a chain of steps leads from one to the other, each between two faces of the same plane over an edge that these two alone pass among the kept faces. All faces of a group lie in one plane if equal ids and common triangles mean equal planes. A group with no edge that a third kept face passes is consistently oriented, so that its outlines can be extracted.", "quantifier": "for all meshes, all sets of kept faces and of kept cells, all ids and triangle lists", "why_tests_cant": "the groups are classes of an equivalence relation over arbitrary meshes; tests see a few shapes, and a wrong group or a face in two groups shows only as a hole or an overlap in the output", "anchors": ["src/polygonlization/bsp_complex.rs: 857-925", "src/polygonlization/bsp_complex.rs: 1380-1398"]}
{"id": "C81", "title": "The output arrays are consistent and the triangles of a face agree in orientation", "statement": "complex_partition writes each vertex of the merged loops once to the points, the triangle indices are valid and rename the triangulation of each face to these points; the plane points and segments given to the triangulation are those of the loops. A face with one loop of three vertices gives that triangle. If the triangulation turns counterclockwise, all triangles of a face turn like its loop of greatest area.", "quantifier": "for all lists of faces with any number of loops and vertices, all points and every triangulation function with valid indices", "why_tests_cant": "two levels of renumbering with tables that are reset in between; an error shows only for particular orders of shared vertices", "anchors": ["src/polygonlization/bsp_complex.rs: 758-855", "src/polygonlization/bsp_complex.rs: 1979-1987"]}
{"id": "C82", "title": "The initial BSP complex is watertight", "statement": "For every consistent tetrahedral mesh with at least one solid tetrahedron BSPComplex::new does not panic; its surface mesh is valid (all links between vertices, edges, halfedges and faces agree), every edge has two different ends and occurs in both directions, and along each edge of each cell the four faces of the cell, with their sides, cancel. So, with C76, after any cuts and for any kept cells the selected faces form a closed surface.", "quantifier": "for all consistent tetrahedral meshes of any size, all marks of constraint triangles, and all orders in which the hash map of the edges is walked", "why_tests_cant": "the faces are found through tables of neighbours in the order of the tetrahedra and the edges through a hash map; a single wrong side or a doubled face opens the surface only after particular cuts", "anchors": ["src/polygonlization/bsp_complex.rs: BSPComplex::new"]}
{"id": "C83", "title": "Point location ends in every Delaunay complex of the construction", "statement": "In every complex reached while tetrahedralize inserts distinct points, locate_dt started in any tetrahedron of the complex for any query point returns after at most as many rounds of the walk as there are tetrahedra, and the answer is right (inside, on a face, on an edge, on a vertex, outside).", "quantifier": "all lists of at most 1021 distinct points, all orders of insertion with a negatively oriented start, all prefixes of the insertion, all query points and start tetrahedra, exact arithmetic", "why_tests_cant": "Termination of the visibility walk is a theorem about Delaunay complexes, with the symbolic perturbation of cospherical points; tests see single walks.", "anchors": ["src/triangle/tetrahedron.rs: locate_dt", "src/triangle/tetrahedron.rs: insert_vertex_bw"]}
{"id": "C84", "title": "Every insertion succeeds and keeps the complex Delaunay", "statement": "Inserting the next point returns true; before and after, the live tetrahedra are glued consistently, ghosts sit on solid tetrahedra, every solid tetrahedron is negatively oriented with corners among the inserted points and no inserted point inside its circumsphere, every inserted point is linked to a live tetrahedron having it as a corner, and the insertion creates at most twice as many tetrahedra as there are inserted points with the ghost.", "quantifier": "all lists of at most 1021 distinct points, all orders of insertion with a negatively oriented start, all steps, exact arithmetic", "why_tests_cant": "Needs all point sets with all degeneracies (cospherical, coplanar, collinear points) and all histories; the size bound is Euler's formula for the star of the new vertex.", "anchors": ["src/triangle/tetrahedron.rs: insert_vertex_bw", "src/triangle/tetrahedron.rs: insert_vertex_bw (cavity, seeds, fill)", "src/predicates: insphere_s"]}
{"id": "C85", "title": "tetrahedralize returns the Delaunay tetrahedralization", "statement": "For distinct points that are not coplanar tetrahedralize returns a mesh that is consistent, whose solid tetrahedra are negatively oriented, have empty circumspheres and disjoint interiors and cover the convex hull of the points and meet in common faces, whose ghosts sit on the hull faces, and in which every point is linked to a solid tetrahedron having it as a corner.", "quantifier": "all lists of distinct points that are not coplanar, all shuffles, exact arithmetic", "why_tests_cant": "The statement is about all point sets and the whole pipeline (shuffle, sort, choice of four points, insertions, renumbering).", "anchors": ["src/triangle/tetrahedron.rs: tetrahedralize"]}
{"id": "C86", "title": "tetrahedralize returns for every set of points", "statement": "tetrahedralize returns, without panic and after a bounded number of steps, for every list of points.", "quantifier": "all lists of points, all shuffles, exact arithmetic", "why_tests_cant": "Termination for all inputs.", "anchors": ["src/triangle/tetrahedron.rs: tetrahedralize"]}
{"id": "C87", "title": "constraint_intersect_tet_type is exact inside of a constraint", "statement": "For a solid tetrahedron of the Delaunay tetrahedralization that no side of a constraint touches, constraint_intersect_tet_type returns 4 exactly if the constraint cuts through the inside of the tetrahedron, the index of a face exactly if this face lies in the constraint, and 5 otherwise; for ghosts it returns 5.", "quantifier": "all tetrahedra with volume, all non-degenerate constraints not touching them with a side, exact arithmetic over any ordered field", "why_tests_cant": "The answer is a geometric fact about infinitely many positions of a triangle and a tetrahedron; the code decides it by counting corners and testing six edges.", "anchors": ["src/polygonlization/conforming_mesh.rs: constraint_intersect_tet_type"]}
{"id": "C88", "title": "insert_constraints marks every tetrahedron that a constraint cuts", "statement": "After insert_constraints every solid tetrahedron whose inside a constraint cuts carries a mark of this constraint, so that the complex built from the marks conforms to all constraints.", "quantifier": "all Delaunay tetrahedralizations, all non-degenerate constraints, exact arithmetic", "why_tests_cant": "A missing mark only shows for constraints in special position, as a piece of the input surface that is missing in the output.", "anchors": ["src/polygonlization/conforming_mesh.rs: insert_constraints, interior_intersections, constraint_intersect_empty"]}
{"id": "C89", "title": "insert_constraints marks only tetrahedra that a constraint cuts", "statement": "A tetrahedron marked as cut by a constraint is cut by it, and a face marked as lying in a constraint lies in it.", "quantifier": "all Delaunay tetrahedralizations, all non-degenerate constraints, exact arithmetic", "why_tests_cant": "Needs the exact position of every marked tetrahedron.", "anchors": ["src/polygonlization/conforming_mesh.rs: insert_constraints, vert_point_in_inner_triangle, interior_intersections"]}
{"id": "C90", "title": "classifying tetrahedra against a constraint never panics", "statement": "In a Delaunay tetrahedralization set_improper_intersections never indexes vert_oris (which has one entry per tetrahedron but is indexed by vertices), zero_ori, pos_ori or neg_ori out of range for any solid tetrahedron and any constraint, and interior_intersections returns after at most one round per tetrahedron.", "quantifier": "all Delaunay tetrahedralizations with any number of points, all constraints, all solid tetrahedra", "why_tests_cant": "That there are always at least as many tetrahedra as points is a counting argument over all meshes.", "anchors": ["src/polygonlization/conforming_mesh.rs: set_improper_intersections, interior_intersections"]}
{"id": "C91", "title": "The tetrahedra form a simplicial complex and the queries find all of it", "statement": "In the mesh tetrahedralize returns, two solid tetrahedra meet in a common face, no oriented face occurs twice, incident(v) lists the solid tetrahedra with corner v, all of them and each once, and turning around an edge with fnext meets every tetrahedron with this edge, each once, before it comes back.", "quantifier": "all lists of 4 to 1021 distinct points, all shuffles, all vertices, all edges, exact arithmetic", "why_tests_cant": "Whether two tetrahedra overlap in less than a full dimension, or a vertex has two stars that touch only in the vertex, depends on degenerate positions that samples rarely meet.", "anchors": ["src/triangle/tetrahedron.rs: tetrahedralize", "src/triangle/tetrahedron.rs: incident", "src/triangle/tetrahedron.rs: fnext", "src/polygonlization/conforming_mesh.rs: edge_cross_constraint_side"]}
{"id": "C92", "title": "The walk along the sides of a constraint arrives and misses nothing", "statement": "For a constraint of three different vertices of a Delaunay tetrahedralization, constraint_sides_intersections returns, leaves the mesh as it is, and lists exactly the solid tetrahedra that a side of the constraint touches (in a point, along an edge, in a face or inside), each once; exactly these are marked as visited.", "quantifier": "all Delaunay tetrahedralizations, all triples of different vertices (also collinear ones), exact arithmetic over any ordered field", "why_tests_cant": "The walk passes from tetrahedra to vertices, edges and faces in every order; that it never stalls, turns back or skips a tetrahedron in degenerate positions cannot be sampled.", "anchors": ["src/polygonlization/conforming_mesh.rs: constraint_sides_intersections", "src/polygonlization/conforming_mesh.rs: vert_on_constraint_side", "src/polygonlization/conforming_mesh.rs: edge_cross_constraint_side", "src/polygonlization/conforming_mesh.rs: triangle_pierced_by_constraint_side"]}
{"id": "C93", "title": "insert_constraints returns for every list of constraints", "statement": "On a Delaunay tetrahedralization insert_constraints returns for every list of constraints of three different vertices each: no panic and no endless loop. The mesh is as before, and every mark names a face (0 to 3) or the inside (4) of an existing tetrahedron and a given constraint. On the empty mesh that tetrahedralize returns for coplanar points it panics.", "quantifier": "all Delaunay tetrahedralizations, all lists of constraints, exact arithmetic over any ordered field", "why_tests_cant": "The function indexes with the results of four nested searches; a panic needs one degenerate constraint among all possible ones.", "anchors": ["src/polygonlization/conforming_mesh.rs: insert_constraints", "src/polygonlization/conforming_mesh.rs: triangle_at_tet"]}
{"id": "C94", "title": "The marks of tetrahedra that a side of the constraint touches", "statement": "After insert_constraints a mark on a face means that the face lies in the plane of the constraint and overlaps it, and every such face of a tetrahedron that a side of the constraint touches is marked. Every tetrahedron that a side touches and that the constraint cuts through is marked as cut, unless a side of the constraint runs along a diagonal of the quadrilateral in which the plane cuts the tetrahedron. A mark as cut means that the plane separates two corners and, if no corner lies in the plane, that the constraint cuts through the tetrahedron.", "quantifier": "all Delaunay tetrahedralizations, all lists of constraints of three different vertices each, all non-degenerate constraints among them, exact arithmetic over any ordered field", "why_tests_cant": "set_improper_intersections decides by case distinctions on how many corners lie in the plane and on dozens of incidence tests; which positions slip through can only be found by going through all of them.", "anchors": ["src/polygonlization/conforming_mesh.rs: set_improper_intersections", "src/polygonlization/conforming_mesh.rs: constraint_intersect_face", "src/polygonlization/conforming_mesh.rs: constraint_intersect_edge", "src/polygonlization/conforming_mesh.rs: constraint_intersect_vertex", "src/polygonlization/conforming_mesh.rs: constraint_intersect_empty"]}
{"id": "C95", "title": "split_cell cuts a convex cell into two convex cells", "statement": "Suppose that the vertices of the complex have positions such that every face is a convex polygon in its plane and every cell lies on the inner sides of its faces. Then split_cell with a plane that has vertices of the cell on both sides does not panic. Afterwards, with the new vertices where the edges meet the plane, all faces and cells are convex again. If the cell is cut, the points of the old cell on the negative side are exactly the points of the cell with the old number, those on the positive side are exactly the points of the new cell, and all other cells have the same points as before. A cell is the convex hull of its vertices.", "quantifier": "all convex complexes, all cells, all planes that have vertices of the cell on both sides, all outcomes of the other tests, exact arithmetic over any ordered field", "why_tests_cant": "Whether the section of a polyhedron by a plane is one closed curve, and whether the pieces of all faces go to the right side, depends on all positions of a plane relative to a polyhedron of any shape, including planes through vertices and along edges.", "anchors": ["src/polygonlization/bsp_complex.rs: split_cell", "src/polygonlization/bsp_complex.rs: split_face_verts", "src/polygonlization/bsp_complex.rs: make_loop", "src/mesh/surface_mesh.rs: split_edge", "src/mesh/surface_mesh.rs: split_face"]}
{"id": "C96", "title": "The cells tile the convex hull of the points", "statement": "For four or more (at most 1021) distinct points, tetrahedralize returns, and unless the points are taken for flat, BSPComplex::new makes a complex of its result such that after any number of calls of split_cell that return: the complex is watertight, all faces are convex polygons, all cells are convex polyhedra, a point lies in some cell exactly if it lies in the convex hull of the points, and no point is inside of two cells.", "quantifier": "all point sets, all shuffles, all orders of the hash map of the edges, all marks, all sequences of cuts with arbitrary planes, exact arithmetic over any ordered field", "why_tests_cant": "The complex after hundreds of cuts cannot be compared point by point with the convex hull; gaps and overlaps would be of measure too small to sample.", "anchors": ["src/triangle/tetrahedron.rs: tetrahedralize", "src/polygonlization/bsp_complex.rs: new", "src/polygonlization/bsp_complex.rs: split_cell", "src/polygonlization/mod.rs: make_mesh_for_proper_triangles"]}
{"id": "C97", "title": "The subdivision by the constraints ends without panic and tiles the convex hull", "statement": "For four or more (at most 1021) distinct points and constraints between three points not on a line: tetrahedralize returns and, unless the points are taken for flat, insert_constraints and BSPComplex::new return and the loop over the cells (with all its geometric tests carried out) ends after finitely many cuts without panic. Then no cell has unresolved triangles, all cells are convex polyhedra bounded by convex polygons, and they tile the convex hull of the points.", "quantifier": "all point sets, all shuffles, all lists of constraints, all hash orders, exact arithmetic over any ordered field", "why_tests_cant": "Whether split_cell meets its preconditions depends on the geometric tests of all earlier cuts; a test set covers few of the combinations.", "anchors": ["src/polygonlization/mod.rs: make_mesh_for_proper_triangles", "src/polygonlization/bsp_complex.rs: split_cell", "src/polygonlization/bsp_complex.rs: new", "src/polygonlization/conforming_mesh.rs: insert_constraints"]}
{"id": "C98", "title": "The tests of triangles against cells and sections miss no intersection", "statement": "If a triangle has a point inside a convex cell, is_triangle_intersects_cell returns true. If a triangle in the plane of a cut has a point inside the cell, is_triangle_intersects_poly returns true for the section of the cell.", "quantifier": "all convex cells, all triangles, exact arithmetic over any ordered field", "why_tests_cant": "The tests are separating-line tests; a missed configuration shows only for special relative positions of triangle and polygon.", "anchors": ["src/polygonlization/bsp_complex.rs: is_triangle_intersects_cell", "src/polygonlization/bsp_complex.rs: is_triangle_intersects_poly"]}
{"id": "C99", "title": "After the subdivision no constraint passes through the inside of a cell", "statement": "If every triangle that passes through the inside of a cell is listed as unresolved in this cell, then at the end of the loop over the cells no triangle has a point inside a cell: all constraints lie on faces. Starting from a Delaunay tetrahedralization the lists made by insert_constraints serve, if its flood reaches all tetrahedra that are cut.", "quantifier": "all watertight convex complexes, all lists of triangles, exact arithmetic over any ordered field", "why_tests_cant": "Lost triangles concern tiny cells after many cuts; the output looks right except for a leak in one of them.", "anchors": ["src/polygonlization/mod.rs: make_mesh_for_proper_triangles", "src/polygonlization/bsp_complex.rs: split_cell", "src/polygonlization/bsp_complex.rs: separate_out_coplanar_triangles", "src/polygonlization/bsp_complex.rs: is_triangle_intersects_cell", "src/polygonlization/bsp_complex.rs: is_triangle_intersects_poly"]}
{"id": "C100", "title": "A triangle that lies on a face after the subdivision covers the whole face", "statement": "Let no triangle pass through the inside of a cell. If a point inside a face lies on a triangle of the plane of the face, and every side of this triangle belongs to another triangle with a corner on a side where the face has a cell, then all points of the face lie on the triangle. So it is enough to test one point of a face.", "quantifier": "for all complexes with convex cells, all sets of triangles, all faces and all points", "why_tests_cant": "A test tries a few subdivisions; the claim is about every face and every position of the triangles", "anchors": ["src/polygonlization/bsp_complex.rs: complex_partition", "src/polygonlization/bsp_complex.rs: face_intersects_tri"]}
{"id": "C101", "title": "The choice of cells that agrees with the triangles of a shell is unique", "statement": "Two choices of cells that both agree with a shell on every face (the cells on both sides of a face differ exactly if a triangle of the shell lies on it, in the way its orientation tells) are the same on every cell: a set of cells without a boundary face is empty, since the volume of the cells would vanish.", "quantifier": "for all watertight complexes with convex cells, all shells and all choices of cells", "why_tests_cant": "Uniqueness is a statement about all 2^n choices of cells in every complex", "anchors": ["src/polygonlization/bsp_complex.rs: complex_partition"]}
{"id": "C102", "title": "The kept cells are the inside of the shells", "statement": "Let the triangles of each shell be the surface of a solid, with normals to the outside, let no triangle pass through a cell, and let the tests on the faces be right. Then complex_partition keeps exactly the cells whose inside lies in one of the solids.", "quantifier": "for all complexes with convex cells, all solids bounded by triangles and all positive face areas", "why_tests_cant": "A test can only compare a few models with a known result; the claim is about every solid and every subdivision", "anchors": ["src/polygonlization/bsp_complex.rs: complex_partition", "src/polygonlization/mod.rs: make_polyhedral_mesh"]}
{"id": "C103", "title": "The tests of complex_partition on the faces are right", "statement": "While the cells are cut, every face keeps listing the original triangles of its plane that reach its inside and no triangles outside its plane, and the faces with a cell on one side only stay on the boundary of the hull. With such lists, in exact arithmetic, find_uncoplanar_verts finds a vertex, point_in_face finds the center of a face inside the face, and a face counts as lying on a listed triangle if and only if its center lies in the triangle; so no triangle of the face is overlooked and the orientation is that of the first cell.", "quantifier": "for all complexes with convex cells, all lists of non-degenerate triangles where triangles in one plane turn the same way, and all runs of the cutting loop", "why_tests_cant": "A test sees a few faces and triangles; a missed triangle on one face of one subdivision can turn the kept volume inside out", "anchors": ["src/polygonlization/bsp_complex.rs: split_cell", "src/polygonlization/bsp_complex.rs: complex_partition", "src/polygonlization/bsp_complex.rs: face_intersects_tri", "src/polygonlization/bsp_complex.rs: point_in_face", "src/polygonlization/bsp_complex.rs: find_uncoplanar_verts", "src/polygonlization/bsp_complex.rs: face_center"]}
{"id": "C104", "title": "From points and triangles to the kept cells", "statement": "Take points, their Delaunay tetrahedra and triangles between the points, such that the triangles of each shell are the surface of a bounded solid with normals to the outside. Marking the tetrahedra, building the complex, cutting it by all constraints and choosing the cells by minimum cut ends without panic, the cells tile the convex hull of the points, and exactly the cells inside one of the solids are kept.", "quantifier": "for all point sets, all closed shells of non-degenerate triangles where triangles in one plane turn the same way, all additional constraints and all positive face areas", "why_tests_cant": "The claim is about the whole chain of steps on every input; tests run the chain on a few models and compare the result by eye", "anchors": ["src/polygonlization/mod.rs: make_polyhedral_mesh", "src/polygonlization/bsp_complex.rs: new", "src/polygonlization/bsp_complex.rs: split_cell", "src/polygonlization/bsp_complex.rs: complex_partition", "src/polygonlization/conforming_mesh.rs: insert_constraints"]}
{"id": "C105", "title": "In general position the search for the cut tetrahedra is complete and the way from points to kept cells is right", "statement": "If no four of the points lie in one plane, then `insert_constraints` gives each constraint to every tetrahedron whose inside the constraint meets and to exactly those faces of tetrahedra that lie in it; every tetrahedron a constraint cuts is touched by a side of the constraint (and not along the diagonal of a quadrangular section) or hangs together with such tetrahedra by faces of cut tetrahedra. Hence, if no two constraints have the same vertices and the shells are closed, tetrahedralization, constraint insertion, `BSPComplex::new`, the splitting and `complex_partition` end without panic, the cells tile the convex hull, and a cell is kept exactly when it lies inside one of the shells. (Without general position the search misses tetrahedra, C88.)", "quantifier": "all ordered fields of coordinates, all point lists without four coplanar points, all Delaunay tetrahedralizations of them (and, up to 1021 points, the one the code builds from every shuffle), all lists of constraints with different vertices, all closed shells among them, all face areas", "why_tests_cant": "The search walks from the sides of the triangle inwards over neighbours; whether it can get stuck before a pierced tetrahedron in the middle depends on the whole tetrahedralization. Tests with some triangles never show that no arrangement of points makes an island, and the known islands need points in special position.", "anchors": ["src/polygonlization/conforming_mesh.rs: insert_constraints", "src/polygonlization/conforming_mesh.rs: interior_intersections", "src/polygonlization/bsp_complex.rs: complex_partition"]}
{"id": "C106", "title": "make_mesh_for_triangles from the arrays of the caller to the subdivided hull", "statement": "`make_mesh_for_triangles` keeps exactly the triangles that are not degenerate after the points are rounded to the grid, in their order, with their shells, with the rounded points as corners. Virtual constraints are proper triangles between the points, appended after the given ones; if every half edge has an opposite one, none is added. If different points stay different on the grid, there are at least four and at most 1021, and they are not flat in the sense of the tests of `tetrahedralize`, then the function gets through tetrahedralization, virtual constraints, constraint insertion, `BSPComplex::new` and the cutting loop without panic, and the cells tile the convex hull of the rounded points without overlap. In general position with closed oriented shells the cells kept afterwards are exactly those inside a shell.", "quantifier": "all arrays of rational coordinates, triangles with valid indices and shells, all outcomes of the unstable sort, the shuffle, the hash map order and the numbering of edges", "why_tests_cant": "The composition has four unspecified orders (unstable sort, random shuffle, hash map, edge numbers); a test sees one of each. A wrong index map between the caller's triangles, the kept ones and the shells gives a plausible mesh for most inputs.", "anchors": ["src/polygonlization/mod.rs: make_mesh_for_triangles", "src/polygonlization/mod.rs: make_mesh_for_proper_triangles", "src/polygonlization/mod.rs: remove_duplicates", "src/polygonlization/conforming_mesh.rs: place_virtual_constraints"]}
{"id": "C107", "title": "The areas of the faces in complex_partition", "statement": "For a convex plane face `face_area` returns the length of the sum of the cross products around the face, that is twice its area; it is positive, does not depend on the half-edge from which the walk starts, and when `split_face` cuts the face in two convex faces of the plane their areas add up. In `complex_partition` the areas are computed without panic, are positive, sum up to 1 and are in the ratio of the areas of the faces. So for closed oriented shells in general position the whole way from points and triangles over the complex and its areas to the kept cells gives exactly the cells inside a shell, without any condition on the areas.", "quantifier": "all convex faces of every complex, every start, every diagonal; all points in general position and all closed oriented shells on them", "why_tests_cant": "A fan of triangles from the first vertex is right only for convex faces, and a zero sum of areas would give NaN in every capacity; tests see neither the hidden condition nor its invariant through all cuts.", "anchors": ["src/polygonlization/bsp_complex.rs: face_area", "src/polygonlization/bsp_complex.rs: complex_partition", "src/math/mod.rs: norm"]}
{"id": "C108", "title": "make_polyhedral_mesh from the arrays of the caller to the subdivided hull", "statement": "`make_polyhedral_mesh` merges equal points, renames the ends of the edges of every face, drops exactly the edges whose ends were merged, and turns the faces into triangles: every triangle belongs to one face, the triangles follow the order of the faces, each has the shell of its face, its corners are vertices of the face rounded to the grid that end an edge with two different ends, and it is not degenerate. If different points stay different on the grid, there are at least four and at most 1021, and they are not flat in the sense of the tests of `tetrahedralize`, the function gets through tetrahedralization, virtual constraints, constraint insertion, `BSPComplex::new` and the cutting loop without panic, and the cells tile the convex hull of the rounded points without overlap.", "quantifier": "all arrays of rational coordinates, faces with an even number of valid indices, axes and shells for every face, all outcomes of the unstable sort, the shuffle, the hash map order and the numbering of edges, every triangulate that returns non-degenerate triangles", "why_tests_cant": "The parents of the triangles index the shells of the faces after merging and dropping of edges; a shift appears only for some mixtures of faces, and the composition has several unspecified orders.", "anchors": ["src/polygonlization/mod.rs: make_polyhedral_mesh, make_mesh_for_proper_triangles", "src/triangle/triangle.rs: triangulate_polygon_soup, triangulate_polygon"]}
{"id": "C109", "title": "The faces used for the result are the boundary of the solids", "statement": "Let triangles in general position bound solids, shell by shell. Then the faces that complex_partition uses for its result form a closed surface; each of them has a solid on exactly one side and, with its sign, shows its front to the outside; every other face lies inside a solid or outside of all of them; and the volume enclosed by the used faces is the sum of the volumes of the kept cells, each of which is positive.", "quantifier": "for all lists of 4 to 1021 points in general position, all triangles between them that bound solids, all choices of the hash maps and shuffles, and all points inside the faces and directions from there", "why_tests_cant": "the sign of a face depends on the two cells beside it, the orientation of its half-edges on the history of the cuts; a test would have to look at both sides of every face of every arrangement", "anchors": ["src/polygonlization/bsp_complex.rs: 741-757", "src/polygonlization/bsp_complex.rs: 585-755", "src/polygonlization/mod.rs: 19-61"]}
{"id": "C110", "title": "The loops of the merged faces form a closed surface", "statement": "The faces between kept and other cells form a closed surface. merge_faces joins coplanar faces to groups, takes the outlines of each group and drops the vertices over which an outline goes straight on. The loops that it returns are closed again: each directed segment from vertex a to vertex b occurs as often as the segment from b to a, so that the output has no gaps and no T-junctions. This holds if, wherever an outline goes straight on over a vertex, no third edge of an outline ends at this vertex. Without this condition it is false: each outline decides alone which vertices it drops.", "quantifier": "all cell complexes, all sets of kept cells, all orders of the hash maps, all edge ids and positions for which groups are plane", "why_tests_cant": "A T-junction needs a notch that touches a straight edge of the merged surface in a single vertex; random inputs do not produce this.", "anchors": ["src/polygonlization/bsp_complex.rs: 842-925", "src/polygonlization/bsp_complex.rs: 1059-1188"]}
{"id": "C111", "title": "merge_hulls keeps the triangle mesh closed whatever the predicates answer", "statement": "If two triangulations without a common vertex are closed meshes (every edge glued to exactly one opposite edge, one ghost vertex outside) and merge_hulls returns, then the mesh is closed and consistently oriented again, it has exactly two more triangles, the same points occur as corners, and the rest of the mesh is unchanged. Of orient2d and incircle it is only used that they are not positive when a point is repeated: errors of sign for different points cannot break the mesh.", "quantifier": "all meshes, all predicates that are not positive on repeated points, both cut directions, all runs that return", "why_tests_cant": "All meshes and all answers of the predicates.", "anchors": ["src/triangle/triangle.rs: merge_hulls lines 354-680", "src/triangle/triangle.rs: make_triangle, bond, set_org, set_dest, set_apex lines 214-239"]}
{"id": "C112", "title": "div_conq_recurse returns a closed mesh with 2n - 2 triangles", "statement": "div_conq_recurse of n different points returns a closed, consistently oriented mesh with exactly 2n - 2 triangles (ghost triangles included) in which exactly the given points and the ghost vertex occur; far_left goes to the ghost vertex and far_right comes from it.", "quantifier": "all lists of different points, all predicates that are not positive on repeated points", "why_tests_cant": "All point sets.", "anchors": ["src/triangle/triangle.rs: div_conq_recurse lines 682-823"]}
{"id": "C113", "title": "mark_ghost and make_vertex_map: exactly the ghost triangles are marked, and the vertex map avoids them", "statement": "In every closed mesh mark_ghost, started at a half edge to the ghost vertex, returns and marks only triangles with the ghost vertex; it marks all of them if the triangles at the ghost vertex form one fan. If all of them are marked, make_vertex_map returns and gives, for exactly the vertices of the triangles that are not marked, a half edge that leaves this vertex and lies in a triangle that is not marked.", "quantifier": "all closed meshes, all start half edges to the ghost vertex", "why_tests_cant": "mark_ghost is a loop without a bound that ends only if it comes back to its first half edge; a test sees this only for the meshes that it builds.", "anchors": ["src/triangle/triangle.rs: mark_ghost, make_vertex_map lines 825-866"]}
{"id": "C114", "title": "After div_conq_recurse the mesh is ready for segments and no ghost vertex reaches the output", "statement": "After div_conq_recurse of different points, mark_ghost and make_vertex_map return, and the mesh is ready for the insertion of segments: closed, the marks of both sides of each edge equal, the vertex map correct. Without segments every index in the output is one of the given points, never INVALID_IND, and there are three indices for each triangle that is not a ghost: n points with h ghost triangles give 2n - 2 - h triangles.", "quantifier": "all lists of different points and all predicates that are not positive on repeated points", "why_tests_cant": "All point sets; one INVALID_IND in the output is an index out of range for the caller.", "anchors": ["src/triangle/triangle.rs: triangulate lines 9-93", "src/triangle/triangle.rs: div_conq_recurse lines 682-823"]}
