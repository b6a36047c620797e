# Design: a machine-checked model of gpf

## Trusted base

* The Lean 4.33.0 kernel. Every theorem depends at most on the three standard axioms `propext`,
  `Classical.choice`, `Quot.sound`. There is no `sorry`, no own axiom, no `native_decide`, no `bv_decide`,
  no `implemented_by`, no `unsafe`. Concrete examples and witnesses are evaluated by the kernel (`decide`, `decide +kernel`, `rfl`, `norm_num`).
* Reading. `/repo` is read as text; the model is transcribed by hand, definition by definition, and each definition
  cites the file and lines it models and the simplifications made.
* Simplifications used throughout:
  * `usize` is an unbounded `Nat`; `INVALID_IND` (`usize::MAX`) is `none` where it is a value of interest.
  * A panic (index out of range, `unwrap` on `None`, `panic!`) is an explicit `none`.
  * `&mut` becomes "returns the new value"; a `while`/`loop` becomes structural recursion or recursion on fuel. Theorems then
    show that some stated amount of fuel suffices, or hold for every amount ("whenever the function returns").
  * Allocators (`Bump`, `A: Allocator`) have no semantic content and are dropped.
  * `HashMap` iteration order is not observable in the modelled results, unless stated.
* `f64` is modelled in one of three ways, stated in the header of each file:
  * *exact*: an arbitrary linearly ordered field (geometry) or ordered additive group (flows). NaN, infinities, rounding are outside the model.
  * *rounding* (`Verif/Float`): rationals `m * 2^e`, `|m| < 2^53`, with round to nearest, ties to even, and exponents unbounded
    in both directions. So neither overflow nor underflow happens. Shewchuk's theorems have the same assumption.
  * *rounding with gradual underflow* (`Verif/Interval`): as before with `e >= -1074`; still no overflow, NaN or signed zero.

## Layout

`lean/Verif/<Area>/` holds one area of the code. In the larger areas `Model.lean` transcribes code, `Spec.lean` holds the independent
specification, `Props.lean` the property theorems with a concrete example beside each, and the other files helper lemmas. In the areas
`Poly`, `Tri` and `Float` each file treats one function: model first, then specification, lemmas and the property theorems. Property theorems
are called `cNN_...`; a suffix `_partial` means that the property is proved under a condition that the property does not have, and
`_refuted` that the negation of the property is proved. `MANIFEST.json` lists the theorems of each property.

## Plan per property

| id | modelled as | proof |
|----|-------------|-------|
| C01-C04, C59 | parents/ranks as lists, recursive find on fuel | refinement to the equivalence closure of the merge list; size/rank argument for the depth |
| C05-C07, C11, C65 | polygons -> arrays of halfedge records, next/sibling/incident links | invariant over the construction folds; cycles of a permutation |
| C08-C10, C12, C66 | halfedge record mesh with validity predicate | preservation of validity + boundary cycle equations; induction over operation sequences |
| C13 | arc list | algebra on sums |
| C14-C17 | push-relabel state machine with fuel, global relabel BFS | preflow/labelling invariants, weak duality; witnesses for C15, C17 |
| C18 | the whole Boykov-Kolmogorov state machine: grow, augment, adopt, orphan queue, time stamps | invariants of both search trees, flow conservation, duality at the end; termination by the pair (units of flow missing, free nodes and queue) with chains bounded by time stamp and distance; witness for is_sink |
| C19-C21, C34 | two-lane intervals over the rounding model, stages of the filter | case analysis, witnesses |
| C22-C27 | rounding model | error-free transformation proofs, list induction over expansions |
| C28 | polynomials and the floating point functions composed with symmetries | `ring`, sign theorems of C70, C71 |
| C29, C70-C73 | predicates.rs operation by operation, with its own constants | forward error analysis of each filter, exactness of the last stage, witnesses for C29 |
| C30-C33 | dispatch tables over point types, determinants over a field | case analysis + determinant antisymmetry |
| C35-C37, C64 | ordered-field geometry | iff proofs with `nlinarith`/`field_simp` |
| C38 | bubble sort + symbolic perturbation | permutation parity |
| C39-C42, C45, C58, C60-C63 | handle tables, tet lists, Bowyer-Watson insertion, walk, renumbering | finite tables lifted to all meshes, BFS/ring invariants, frames for the fill loops |
| C43 | swaps on index lists | permutation induction |
| C44 | control flow of tetrahedralize | witness + partial |
| C46-C48, C68, C69 | triangle mesh, flips, segment insertion, flood fill | invariants under flips, induction over the stack |
| C49-C50 | sorted dedup | induction, witness |
| C51, C52, C57, C67 | cells, faces and their triangle lists; every geometric test an arbitrary oracle | well-founded measure, link invariants |
| C53 | vertex genealogy + cache | induction on parents |
| C54-C56 | list algorithms on half-edges | list induction |
| C74-C76 | mesh as cycles of faces; boundary of a set of faces as a chain (signed count per edge and end) | invariant of the loop over the cut faces, sums |
| C77-C78 | `complex_partition`: costs, arcs, flow, kept cells; price of a choice of cells as specification | capacity of a cut = price; minimum cut (C14-C16); a cut of capacity 0 leaves the labels exact |
| C79 | half-edges of the outline, the map of successors as the list of its insertions, the trace; the order of the hash map arbitrary | walk around a vertex (injective successor), counting |
| C80 | `merge_faces`: incidence lists, calls of the disjoint set, groups | C03 and renumbering; balance of C76 at an edge with two faces |
| C81 | output loop: tables, loops, segments, areas, swap; triangulation an input | invariant with the list of the vertices written so far |
| C82 | `BSPComplex::new` with its surface mesh, read as polygons | slots of C69, construction of C05-C07; four faces of an oriented tetrahedron cancel |
| C83 | `locate_dt` in complexes reached by insertions | heights (lifting to the paraboloid, perturbed as in `insphere_s`, ghost vertex far up) make every test the sign of a 5x5 determinant; the value of the point under the functional of the current tetrahedron decreases along the walk |
| C84 | `insert_vertex_bw` with location, seeds, cavity, fill | regular complex: every vertex on the positive side of every tetrahedron (`Reg`); cavity = tetrahedra that see the point; star bound by a double count of generic sides; extreme vertices stay on the boundary |
| C85 | `tetrahedralize` from the shuffle to the renumbering, squares instead of norms | specification `IsDelaunay` in `Delaunay/Spec.lean`; invariant `State` of C84; covering and disjointness from the lifted complex; circumspheres from the in-sphere polynomial; witness for the flat case |
| C86 | as C85 | C85 for four and more points, symbolic execution for fewer |
| C87 | `constraint_intersect_tet_type` with all predicates it calls | barycentric coordinates over any ordered field (`Constraint/Plane.lean`, `Type.lean`); a corner of the plane section that leaves the triangle would cross a side |
| C88 | `insert_constraints` whole (face search, walk along the sides, classification, spreading) | two witnesses evaluated on `tetrahedralize` of ten and seven points (Delaunay by C85); exact description of the spreading loop, C87 |
| C89 | as C88 | witness; C87 for the spreading loop |
| C90 | `set_improper_intersections` and the four tests, `interior_intersections` | four different tetrahedra at every point, double count: at least as many tetrahedra as points; length bookkeeping |
| C91 | `tetrahedralize`, `incident`, `fnext`, the loop around an edge | the lifted complex is convex: two tetrahedra with a common point share the carriers (`Delaunay/Complex.lean`); connectivity of the tetrahedra at a vertex or edge by a generic straight walk; C42 and the ring of `fnext` |
| C92 | `constraint_sides_intersections` with the three kinds of steps | coordinates of a point of the side with respect to the corners of a tetrahedron; every step finds the next tetrahedron (exists by the covering) and is sound; number of tetrahedra ahead falls; tetrahedra between two stops contain the carriers of the first |
| C93 | `insert_constraints` whole | C58, C90, C92 put together; also makes C88 and C89 end to end |
| C94 | `set_improper_intersections` with its four tests | coordinates with respect to the corners: from a point of the open cell in the constraint go along the constraint until it leaves the cell or a side is met; a side through the inside leaves through faces, edges or corners, each found by one of the tests |
| C95 | `split_cell` with the geometry: positions of the vertices, planes of the faces | every face is a convex polygon, so the plane meets it in one piece; the pieces leave and enter each vertex equally often and do not return because the section of the cell is a convex polygon: one closed curve (C75's hypothesis); both halves keep the planes of their faces and get the new one |
| C96 | `tetrahedralize`, `BSPComplex::new` and all cuts | cells of the initial complex are the tetrahedra (Cramer's rule); induction over the cuts with the map from each cell to the tetrahedron it is part of; pieces of the same tetrahedron are separated by planes, pieces of different tetrahedra by C85 |
| C97 | the loop of `make_mesh_for_proper_triangles` with `split_cell` and its geometric tests computed | invariant `Cutting`: the plane of every unresolved triangle separates vertices of its cell (at first by C94, then because `is_triangle_intersects_cell` asks for it); the weight of C69 decreases; C95 and C96 for each cut |
| C98 | `is_triangle_intersects_cell`, `is_triangle_intersects_poly` | from a point of the triangle inside the cell: an affine function that is nonnegative on the cell is positive there, so some corner of the triangle (of the cell, of the section) lies on the asked side |
| C99 | the same loop | invariant `Recorded`: a triangle that passes through a cell is in its list; for the halves by C98, for coplanar triangles because the new face separates the halves |
| C100 | faces and cells of the subdivision, triangles as sets of points | leaving the triangle inside the face means to cross one of its sides; the neighbour there has a corner on the side of a cell of the face, so it passes through this cell |
| C101 | `complex_partition`, the tests on the faces as in C78 | sum of the volumes of the cells on which two choices differ: inner faces cancel, there is no boundary face, so it is 0, but every cell has positive volume |
| C102 | `complex_partition` on a subdivision with positions | the cells inside a solid agree with its triangles (one crosses the surface exactly at a face with a triangle), so the minimum of C78 is attained there, and by C101 only there |
| C103 | `face_center`, `point_in_face`, `face_intersects_tri`, `find_uncoplanar_verts`, the lists `Listed` of the faces during `split_cell` | invariant of the loop: pieces of a face keep its list, the new face gets the triangles in its plane; the mean of the corners is inside a convex face, so only the first branch of the test runs |
| C104 | marks, complex, cutting loop and minimum cut in a row | composition of C94, C97, C99, C103 and C102 |
| C105 | the search of `insert_constraints` for points no four of which are coplanar | among all edges of missed tetrahedra that cross the plane take the one whose hit is farthest towards a corner of the triangle; the tetrahedra around it are missed too, and one of them goes on in that direction |
| C106 | `make_mesh_for_triangles`: `reserve`, `makeInput`, `makeProper`, `makeMesh` | induction over the triangles; composition of C49, C55, C85, C93, C97, C105 |
| C107 | `faceArea`, `faceAreas`: fan of norms of cross products, division by the sum; norm abstract (`IsNorm`), Euclidean norm as instance | every triangle of the fan is a nonnegative multiple of the normal; the vector sum telescopes to the loop sum; C104-C106 for the end-to-end claim |
| C108 | `facePairs`, `axesOf`, `polyInput`, `makePoly`; `triangulate` abstract (`Triangulates`) | induction over edges and polygons, three-by-three chunks of the concatenated triangles; C46, C49, C106 |
| C109 | `keptFaces` at the end of the chain of C104-C108 | from a point inside a face one enters the cell at once (`enter`); signs from C76; volumes from `FaceOk.size` and the closed sums of C101 |
| C110 | `edgeGroups`, `colinear`, `loopsOf`, `mergeFaces` on top of C79, C80, C54 | the merged edges are the maximal straight runs of the outlines (`IsRuns`); if the runs are the same for all outlines they come in pairs of opposite curves (`Uniform.balanced`); that the faces of a group do not overlap and have one front follows from the disjoint interiors of the cells (`no_overlap`, `adjacent_side`); counterexample by evaluation |
| C111 | `mergeHulls` with `tangent`, `knit`, `eatLeft`, `eatRight`, `knitTop`, `knitBottom` | the mesh has one hole with three sides while it is knitted (`Hole`); each step keeps it, left and right being mirror images (`Turn`); the base cases by evaluation with symbolic points |
| C112 | `divConq` | induction with `Part`: the new triangles are not glued to the old ones and have the given points as corners; the condition on the handles is `Handles` |
| C113 | `markGhost`, `vmapStep`, `makeVMap` | walking around a vertex is a permutation of the half edges to it, so the walk comes back to its start (`Reach.returns`); the vertex map by an invariant of the fold (`VInv`) |
| C114 | `divConq`, `markGhost`, `makeVMap`, `output` | C112 and C113; the recursion marks no edge (`divConq_mark`); `Handles` and `OneFan` are hypotheses about the run |

## What is missing in the partial properties

* **C11 Element iterators and counters agree.** The code violates the property for unused indices (c11_refuted); the rest is proved.
* **C15 is_sink is a minimum cut.** False of the code: concrete network where the reported sides have a cut of capacity 21 while the maximum flow is 1. Partial: a minimum cut whenever every node reported on the sink side still reaches the sink.
* **C17 Network construction pairs every arc with its reverse.** Proved for arc lists without self-loops; false for a self-loop (witness).
* **C18 GraphCut::max_flow (Boykov-Kolmogorov) returns the value of a minimum cut.** Max_flow returns for all rational capacities (so for all finite doubles computed without rounding), and flow is the capacity of a minimum cut and of a feasible flow; is_sink refuted for nodes outside both trees, and proved under the condition that these have is_sink true; a node in a tree is on the side given by is_sink in every minimum cut; doubles are elements of an ordered group.
* **C20 Interval multiplication encloses.** False in the code: the arms 0 and 8 of mul exchange the bounds, so they enclose the negated product; proved in all other arms; no panic.
* **C21 Interval sign tests agree with the enclosed value.** False in the code: positive() and negative() are exchanged; not_zero is right.
* **C24 Expansion sum/difference with zero elimination preserve the exact value.** Holds (value, nonoverlapping, no zeros) whenever the inputs have two components together, in particular for nonempty expansions; refuted for an empty expansion with a one-component one (the component is dropped) and for two empty ones (panic). Rounding model: round to nearest even with 53 bits, no overflow or underflow.
* **C25 expansion_sum adds both expansions.** The code violates the property: the second loop iterates over earr instead of farr. c25_value gives the value actually computed.
* **C29 orient3d returns the exact sign for every input.** Orient3d/orient3d_adapt are modelled operation by operation. For every input the result has the sign of the determinant or of the determinant plus the spurious term (all three filters are proved sound with the code's constants); the full claim is refuted with double witnesses.
* **C33 less_than comparisons are antisymmetric.** Refuted by the code: (Explicit,LPI), (Explicit,TPI) and (TPI,LPI) swap the arguments without reversing the answer. Proved for the other six combinations; for these three the answer is proved to be always that of the swapped comparison.
* **C34 The interval filter never reports a wrong sign.** False in the code: iiee, iiii, iii and less_than_ii answer with the reversed sign; less_than_ii takes x on every axis; products through the faulty arms give wrong signs even in the other predicates. Proved: the predicates of odd degree are right on runs that avoid the faulty arms; no stage panics.
* **C44 tetrahedralize handles duplicate points.** Refuted by the code: with a duplicate point the insertion loop breaks and the final renumbering indexes with an invalid link. Negation proved on a concrete input and for every mesh with an uninserted point; the partial theorem covers the case that all points were inserted.
* **C45 After inserting a vertex its point-to-tetrahedron link is live.** The code violates the property in the branch for cavities with at least 1024 boundary vertices: refuted by c45_large_cavity_link_dead; proved for the other branch.
* **C50 remove_duplicates returns pairwise distinct points.** False of the code: points are compared before they are rounded. Partial: distinct if different inputs never round to the same grid point.
* **C53 Cached vertex orientations are exact.** Verts_orient_wrt_plane is proved exact for all genealogies of vertices, all orders of queries and all sound caches, given sound filters (C30). The copies that split_cell makes for coplanar triangles are exact when both triangles are projected along the same axis; in f64 arithmetic the axes can differ and the copy is then reversed (witness in c53_copied_refuted).
* **C55 Virtual constraints are placed exactly on flat boundary edges.** The edge map, the choice of the apex and the effect on the triangle list are proved. The decision is characterised exactly (c55_actual): it depends only on the directions in which the triangles run through the edge, so the stated criterion holds for single triangles and unfolded consistently oriented surfaces (c55_partial) and fails in four ways otherwise (c55_refuted): half edge i is stored as the edge from corner i but read as the edge opposite to corner i.
* **C58 triangle_at_tet finds a mesh face when it exists.** For Delaunay meshes nothing else is assumed. Soundness, termination and restoration of the marks are proved for all consistent meshes. Completeness holds if a tetrahedron that the search looks at has one of the other two corners; it fails in general because the loop over the neighbours is left (break) at the corner itself instead of skipping it: concrete Delaunay mesh of six points.
* **C67 A face lists exactly the original constraint triangles that lie on it.** Proved for the cuts, and for the initial complex when the marks of the two sides of a face agree. Refuted otherwise: lines 174-179 insert the marks of the neighbour a second time instead of those of the current tetrahedron.
* **C68 Segments become marked edges.** False when a vertex lies on the segment (the first part is left unmarked, witness c68_refuted; wrong output of triangulate, c68_triangulate_refuted) and panics when all points are collinear (c68_collinear_panics); proved for runs in which every flipped quadrilateral has two different apexes and no other vertex lies on the line of the segment.
* **C73 insphere returns the in-sphere sign.** For all doubles it does not panic and the sign is right unless a difference of coordinates is inexact and the determinant is below 21/2^106 times the sum of the absolute values of its products (static filter and last stage fully proved); missing: the second and third error bound for such tiny determinants.
* **C77 complex_partition keeps a cheapest set of cells.** Violated: is_sink can be stale (C15), so a cell that belongs to every cheapest choice can be dropped (c77_refuted: two tetrahedra whose surface has a hole of 1/9 of the area; one is dropped and the price is 1/3). Proved: the run ends, every kept cell belongs to a cheapest choice of a shell, and if no reported side is stale the kept cells are the union of cheapest choices. Areas are exact, the tests of the triangles are inputs.
* **C79 The outlines of merged faces are closed curves through each outline half-edge once.** Violated: he_next_map has the edge as its key, and an inner edge whose two ends are corners of several outlines is inserted twice; c79_refuted is a set of seven polygons and an order of the hash map for which the code panics. Proved for all sets without such an inner edge.
* **C85 tetrahedralize returns the Delaunay tetrahedralization.** Violated: nine points with a cube among them are taken for flat, because the three closeness tests are relative to the bounding box only (c85_taken_for_flat); and insertions with large cavities are wrong (C45). Proved for all other inputs: at most 1021 points or no large cavity, and the points not flat in the sense of the tests.
* **C86 tetrahedralize returns for every set of points.** Violated for fewer than four points: index out of range in the choice of the first four points. Proved for 4 to 1021 distinct points.
* **C88 insert_constraints marks every tetrahedron that a constraint cuts.** Violated in two ways: interior_intersections spreads over faces only, but the faces in a constraint and the tetrahedra it cuts can hang together along edges only (c88_hole, ten points); constraint_intersect_empty misses a tetrahedron cut in a quadrilateral with three corners on the sides of the constraint (c88_quad, seven points). Proved end to end, for every list of constraints on every Delaunay tetrahedralization: everything that hangs together by faces with the tetrahedra touched by the sides is marked, in the right array; of the tetrahedra touched by the sides only those with a side along a diagonal of the section can be missed (C94).
* **C89 insert_constraints marks only tetrahedra that a constraint cuts.** Violated: vert_point_in_inner_triangle includes the sides, so tetrahedra beyond a side with a corner on it are marked (c89_beyond). Proved end to end for all tetrahedra that no side of the constraint touches; face marks and marks without a corner in the plane are always true (C94).
* **C98 The tests of triangles against cells and sections miss no intersection.** Is_triangle_intersects_cell: complete. is_triangle_intersects_poly: triangles with the orientation of the pivot; for the opposite orientation the claim is false (c98_orientation_refuted).
* **C99 After the subdivision no constraint passes through the inside of a cell.** Coplanar triangles must have the same orientation, otherwise the claim is false (c99_orientation_refuted); that insert_constraints reaches all tetrahedra is a hypothesis (see c88_hole, c88_quad).
* **C104 From points and triangles to the kept cells.** Exact arithmetic. Missing: that the constraint insertion reaches every tetrahedron that the triangle crosses or whose face it covers (AllReached and AllFaced are hypotheses), and triangles in one plane must turn the same way (refuted otherwise, see C99). The areas are any positive numbers with sum 1.
* **C110 The loops of the merged faces form a closed surface.** C110_groups, c110_solid: the faces of a group have their front on the same side of one plane and pass no edge twice in one direction, so the condition of C79 holds (c110_solid from the input points on). c110_output: closed loops give a closed set of output triangles if the triangulation keeps the boundary of each face. Closed loops are proved for the whole of merge_faces when no third outline edge ends at a vertex over which an outline goes straight on, for groups whose edges of one original edge lie on a line. The general claim is false: edge_in_group is never written, so merge_colinear_edges decides for each outline alone; c110_refuted is a tetrahedron with a notch where the code returns a T-junction.
* **C112 div_conq_recurse returns a closed mesh with 2n - 2 triangles.** Missing: that the handles returned by merge_hulls lie at the ghost vertex. This needs the geometry of the hulls (the leftmost point stays on the hull); it is a hypothesis about the run, proved for up to three points and checked for the example of seven points.
* **C114 After div_conq_recurse the mesh is ready for segments and no ghost vertex reaches the output.** Missing: Handles as in C112, and that the triangles at the ghost vertex form one fan (OneFan). Both are hypotheses about the run; they are checked by evaluation for the example of seven points.

## Defects found in the code

Each is proved as the negation of the expected property, with a concrete witness, unless marked *(read only)*.

1. `PushRelabelFifo::is_sink` is not a minimum cut (C15); the sides that `complex_partition` keeps depend on it.
2. `PushRelabelFifo::from` pairs a self-loop with itself (C17). *(read only)* `n_nodes = 0` underflows.
3. `IntervalNumber::mul` exchanges the bounds in two sign patterns (C20), `positive`/`negative` are exchanged (C21).
   *(read only)* `IntervalNumber::new` stores the low bound without negating it.
4. The filter stage of predicates of even degree answers with the reversed sign; `less_than_ii` reads the x coordinate on every axis (C34).
5. `less_than` on (Explicit, LPI), (Explicit, TPI), (TPI, LPI) swaps the arguments without reversing the answer (C33).
6. `expansion_sum` runs over the first expansion twice (C25).
7. `orient3d_adapt` passes `cdztail` for `cdxtail` (predicates.rs 731-733), which yields wrong signs (C29).
8. `fast_expansion_sum_zeroelim` drops a component or panics if an argument is empty (C24).
9. `n_vertices()` of a mesh counts unused indices (C11).
10. `tetrahedralize` panics on duplicate points (C44) and on fewer than four points (C86).
11. `insert_vertex_bw` leaves a dead link for cavities with 1024 boundary vertices or more (C45).
12. *(read only)* `triangulate` with one point does not return and with none panics.
13. `remove_duplicates` compares before rounding (C50). *(read only)* With `epsilon == 0` the map has three entries per point; the empty input panics.
14. `place_virtual_constraints` reads half-edges by another convention than it stores them (C55).
15. `triangle_at_tet` leaves the loop over neighbours where it should skip one (C58).
16. `merge_colinear_edges` panics if all edges are colinear (C54).
17. `split_edge` on a loop edge corrupts the face (C08).
18. `GraphCut::is_sink` is stale for nodes in no tree (C18).
19. `make_loop` does not return if the ends of the pieces are not distinct (C56).
20. `split_cell` can cache reversed orientations for coplanar triangles (C53).
21. `BSPComplex::new` inserts the marks of the neighbour twice instead of those of both sides (C67).
22. `constrained_edge` leaves the part of a segment before a collided vertex unmarked (C68), so `triangulate` can drop or keep wrong triangles.
23. `triangulate` panics on collinear points with a segment (C68).
24. `complex_partition` can drop a cell that belongs to every cheapest choice, because `is_sink` is stale (C77, from C15).
25. `extract_faces_outlines` keeps the successors around a vertex in a map whose key is the edge; an inner edge between two vertices with several outlines is inserted twice and the walk can panic, depending on the order of a `HashMap` (C79). It also joins two outlines that meet in a vertex when only one half-edge is left there.
26. `tetrahedralize` takes point sets that are not flat for flat and returns no tetrahedra: the tests for the first, second, third point accept points that are close together (relative distance just above `EPS`), and then every fourth point fails the test `ori.abs() / bbox_size3 < EPS`. Example: the corners of a cube of side 1000000 and the point (4, 0, 0) (C85).
27. `interior_intersections` reaches the tetrahedra inside of a constraint over faces only. Where coplanar mesh vertices form a polygon in the constraint whose inside is pierced by an edge, the cut tetrahedra hang together with the rest only along the edges of the polygon and are not marked (C88, `c88_hole`).
28. `constraint_intersect_empty` misses a tetrahedron cut in a quadrilateral if one side of the constraint runs along its diagonal and another one through a third corner (C88, `c88_quad`).
29. `vert_point_in_inner_triangle` calls `point_in_triangle`, which includes the sides; tetrahedra beyond a side are marked as cut (C89, `c89_beyond`).
30. For coplanar points (and for points taken for coplanar, see 26) the mesh has no tetrahedra and `insert_constraints` panics at the first constraint: `p2t` holds no tetrahedron (C93, `c93_flat`).
31. `is_triangle_intersects_poly` compares the corners of a triangle with the sides of the section in the orientation of this triangle, but the section is ordered by the orientation of the pivot: for a coplanar triangle of opposite orientation the test asks for a corner outside of each side and misses triangles inside the section; the triangle is lost (C98 `c98_orientation_refuted`, C99 `c99_orientation_refuted`).
32. `merge_faces` creates `edge_in_group` and passes it to `merge_colinear_edges`, but nobody writes to it. So the branches for edges that already belong to a group are dead, and each outline decides alone which vertices it drops. If a notch touches a straight edge in one vertex, one side drops the vertex and the other one keeps it, and the output has a T-junction (C110, `c110_refuted`).

## Coverage of the code

| file | modelled | not modelled |
|------|----------|--------------|
| `disjoint_set.rs` | all | |
| `graphcut/mod.rs`, `graphcut/push_relabel_fifo.rs` | all | `reverse_capacity` accessor; debug output |
| `math/` | determinant-free helpers `sub`, `dot`, `cross` (inlined) | |
| `mesh/surface_mesh.rs`, `mesh/element/*`, `mesh/mesh_core_data` | construction, iterators, `split_edge`, `split_face`, `add_face_by_halfedges`, accessors | `mesh/manifold_mesh.rs` (its whole content is commented out) |
| `predicates/predicates.rs` | two_* kernels, expansion arithmetic, orient2d/3d/4d, incircle, insphere with adaptive stages | overflow and underflow |
| `predicates/interval_number.rs` | arithmetic and sign tests | `from_f64x2`; SIMD encoding |
| `predicates/generic_point.rs`, `orient*.rs`, `less_than.rs` ... | point kinds, exact polynomials, dispatch, filter decision logic | caching of exact coordinates, static filters of implicit points |
| `predicates/` simple predicates, `get_exponent`, `max_comp_in_tri_normal` | all | |
| `triangle/tetrahedron.rs` | handles, Hilbert sort, initial tetrahedron, location, Bowyer-Watson insertion, removal of ghosts, renumbering, `triangle_at_tet`; `tetrahedralize` as a whole (shuffle an arbitrary permutation) | rounding, cavities with 1024 and more boundary vertices (C45) |
| `triangle/triangle.rs` | mesh, flips, divide and conquer, segment insertion, flood fill, polygon soup | |
| `polygonlization/mod.rs` | `remove_duplicates`, the subdivision loop, `make_mesh_for_triangles`, `make_mesh_for_proper_triangles`, `make_polyhedral_mesh` (with any triangulation) | - |
| `polygonlization/conforming_mesh.rs` | virtual constraints, face search, `insert_constraints` (walk along the sides, classification, spreading), exact predicates | the floating-point filters of the predicates |
| `polygonlization/bsp_complex.rs` | `new`, `split_cell` (links, triangle lists, mesh, geometric tests), `separate_out_coplanar_triangles`, `is_triangle_intersects_cell`, `is_triangle_intersects_poly`, `split_face_verts`, `complex_partition` with `face_center`, `face_area`, `point_in_face`, `face_intersects_tri`, `find_uncoplanar_verts`, `merge_faces`, orientations, `make_loop`, `merge_colinear_edges`, `extract_faces_outlines`, ... | rounding of the areas |
