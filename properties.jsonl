{"id": "C01", "title": "Interval enumeration is an order-preserving bijection", "statement": "For a compressed enumeration built from a list of disjoint increasing integer intervals, looking a value up and reading the value at the returned position are mutually inverse: position -> value -> position and value -> position -> value both give back the start, positions run over exactly 0..size-1, and larger positions hold larger values.", "quantifier": "all lists of disjoint, increasing, non-empty integer intervals (any number, any length, any sign) and all positions / values", "why_tests_cant": "the number of intervals, their lengths and gaps are unbounded; the binary search boundary cases depend on the whole list", "anchors": ["anifem++/interval/interval_enum.h: interval_enum", "anifem++/interval/interval_enum.inl: find_left, find_right, operator[]"]}
{"id": "C02", "title": "Interval enumeration lookup misses exactly the gaps", "statement": "Looking up a value that is in none of the intervals reports end(), looking up a value inside some interval never does, and lower_bound returns the position of the least stored value that is not smaller than the query (end if there is none).", "quantifier": "all interval lists and all integer queries", "why_tests_cant": "every gap of every list is a separate case; tests probe a few", "anchors": ["anifem++/interval/interval_enum.inl: find_right, lower_bound_right, contains"]}
{"id": "C03", "title": "Interval map insertion refines a partial function", "statement": "Inserting a bounded half-open interval with a value either succeeds, and then the map sends every key of the interval to the value and every other key where it did before, or reports a conflict (some key of the interval already has a different value) and then changes nothing. After every history of insertions the stored intervals stay sorted, disjoint and merged where they touch with equal values.", "quantifier": "all histories of bounded insertions, all keys", "why_tests_cant": "the state space is every possible history of overlapping, touching and nested intervals", "anchors": ["anifem++/interval/interval_map.h: interval_map", "anifem++/interval/interval_map.inl: insert, contains, find, operator[]"]}
{"id": "C04", "title": "Interval map with unbounded ends", "statement": "The same partial-function contract holds when an interval may start at minus infinity or end at plus infinity: a conflicting unbounded insertion is rejected and leaves the map unchanged, and look-ups inside an unbounded interval succeed.", "quantifier": "all histories mixing bounded and unbounded insertions, all keys", "why_tests_cant": "unbounded ends interact with every existing interval", "anchors": ["anifem++/interval/interval_map.inl: insert(start, Inf), insert(Inf, end), contains"]}
{"id": "C05", "title": "Extended index sets are ranked lexicographically", "statement": "An enumeration of index tuples built by repeatedly extending a set with a value-dependent range gives every tuple of the set a distinct number, the numbers are exactly 0..size-1, the numbering is inverted by indexing, and numbers increase with lexicographic order of the tuples; lower_bound and upper_bound of any tuple, of the set or not, stand at the first tuple not below and above it, and find stands at the tuple or at the end.", "quantifier": "all base sets, all extension ranges, any number of extension steps", "why_tests_cant": "the set depends on arbitrary range functions composed to arbitrary depth", "anchors": ["anifem++/interval/ext_array_enum.h: ext_range_array_enum, ext_array_enum", "anifem++/interval/ext_array_enum.inl: setup, operator[], begin", "anifem++/interval/ext_array_enum.inl:737-850 lower_bound", "anifem++/interval/ext_array_enum.h:76-122 iterator, find, upper_bound"]}
{"id": "C06", "title": "Local d.o.f. numbering of a primitive space is a bijection", "statement": "For a primitive finite element space described by how many d.o.f.s sit on a node, an edge (unoriented/oriented), a face (unoriented/oriented) and the cell, the number of d.o.f.s on a tetrahedron is the sum over its elements, every number 0..n-1 is located on exactly one (kind of element, element number, number on element) triple, every admissible triple has a number, and the two conversions are inverse.", "quantifier": "all d.o.f. distributions (any counts per element kind) and all local numbers / triples", "why_tests_cant": "distributions are arbitrary six-tuples of naturals; only a few standard spaces are exercised by tests", "anchors": ["anifem++/fem/tetdofmap.h: UniteDofMap", "anifem++/fem/tetdofmap.cpp: UniteDofMap::LocalOrderOnTet, TetDofID, NumDofOnTet"]}
{"id": "C07", "title": "Local d.o.f. numbering of a product of spaces is a bijection", "statement": "For a product of finitely many spaces the local numbers of the product are the consecutive blocks of the factors: the d.o.f. with number i of the k-th factor has number (sum of the sizes of the preceding factors) + i; location and number are inverse to each other; d.o.f.s of different factors that sit on the same element get different positions on that element, filling 0..(count on element)-1.", "quantifier": "all finite lists of spaces (nested arbitrarily) satisfying the base contract, all numbers", "why_tests_cant": "the list of factors and their nesting depth is unbounded", "anchors": ["anifem++/fem/tetdofmap.h: ComplexDofMap", "anifem++/fem/tetdofmap.cpp: ComplexDofMap::LocalOrderOnTet, TetDofID, NumDof"]}
{"id": "C08", "title": "Local d.o.f. numbering of a vector space (power of a space) is a bijection", "statement": "For the d-fold power of a space the number and the location of a d.o.f. determine each other and are inverse; components are stored one after another; on each element the positions of the components are disjoint consecutive blocks.", "quantifier": "all base spaces satisfying the base contract, all dimensions d, all numbers", "why_tests_cant": "dimension and base are arbitrary", "anchors": ["anifem++/fem/tetdofmap.h: VectorDofMap, VectorDofMapC", "anifem++/fem/tetdofmap.cpp: VectorDofMap::TetDofID, LocalOrderOnTet"]}
{"id": "C09", "title": "Composing and compressing d.o.f. maps keeps the layout", "statement": "Multiplying maps, raising to a power, merging and compressing never change the observable numbering: the composed map and its compressed form have the same number of d.o.f.s, and the same location for every local number.", "quantifier": "all expressions built from maps by product, power and compression", "why_tests_cant": "expressions are trees of unbounded depth; compression rewrites them recursively", "anchors": ["anifem++/fem/tetdofmap.h: DofMap, operator*, operator^, pow, merge, merge_with_simplifications", "anifem++/fem/tetdofmap.cpp: makeCompressed"]}
{"id": "C10", "title": "A nested view addresses its slice of the parent", "statement": "Extracting a component of a product (or of a power) gives a view whose i-th d.o.f. is the parent d.o.f. at (offset of the component)+i, at the same place of the tetrahedron, and an index is valid for the view exactly when it lies in that slice.", "quantifier": "all products/powers, all component paths, all indices", "why_tests_cant": "paths may have any depth", "anchors": ["anifem++/fem/tetdofmap.h: NestedDofMapBase, GetNestedDofMap", "anifem++/fem/tetdofmap.cpp"]}
{"id": "C11", "title": "Iterating a map over a set of tetrahedron elements visits exactly the selected d.o.f.s", "statement": "Iterating over the d.o.f.s of a space restricted to any set of nodes/edges/faces/cell visits every d.o.f. lying on a selected element exactly once, in increasing order of number, and no other d.o.f.", "quantifier": "all spaces, all subsets of the 15 elements of a tetrahedron", "why_tests_cant": "2^15 subsets times arbitrary spaces", "anchors": ["anifem++/fem/tetdofmap.h: TetGeomSparsity, BeginByGeomSparsity, IncrementByGeomSparsity", "anifem++/fem/tetdofmap.cpp"]}
{"id": "C12", "title": "Closure operations of element sets", "statement": "Selecting/unselecting an element together with its closure (set) selects exactly that element's faces, edges and nodes: the resulting set contains an element iff it was there before or it is contained in the selected element; unselecting removes exactly the requested elements.", "quantifier": "all element sets, all elements", "why_tests_cant": "depends on the complete incidence table of the tetrahedron for arbitrary previous sets", "anchors": ["anifem++/fem/tetdofmap.h: TetGeomSparsity::set, unset", "anifem++/fem/tetdofmap.cpp: TetGeomSparsity"]}
{"id": "C13", "title": "Renumbering of symmetric d.o.f.s is consistent for every vertex permutation", "statement": "When the vertices of a tetrahedron are renumbered, the d.o.f.s lying symmetrically on an element are permuted by a bijection; the identity renumbering moves nothing and renumbering twice equals renumbering by the composition.", "quantifier": "all 24 (and all pairs of) vertex permutations, all symmetry groups of elements", "why_tests_cant": "every pair of permutations and every symmetry class must agree", "anchors": ["anifem++/fem/tetdofmap.h: DofSymmetries", "anifem++/fem/tetdofmap.cpp: index_on_reorderd_elem, symmetry tables"]}
{"id": "C14", "title": "Carving work memory out of a raw buffer is safe", "statement": "If a raw buffer has at least the advertised sufficient size, then carving it succeeds whatever the address of the buffer, and the resulting arrays lie inside the buffer, are correctly aligned and do not overlap.", "quantifier": "all buffer addresses, all sizes of the requested arrays, all element sizes/alignments", "why_tests_cant": "addresses and sizes are arbitrary machine words", "anchors": ["anifem++/fem/fem_memory.h: PlainMemory::allocateFromRaw, enoughRawSize, PlainMemoryX::allocateFromRaw, enoughRawSize, allocateFromPlainMemory"]}
{"id": "C15", "title": "Dynamic work memory never hands out overlapping parts", "statement": "Whatever the history of allocations and releases, two parts that are live at the same time never overlap and every live part lies inside its chunk.", "quantifier": "all histories of allocations, releases and defragmentations", "why_tests_cant": "histories are unbounded; aliasing appears only for particular interleavings", "anchors": ["anifem++/fem/fem_memory.h: DynMem::alloc, clearChunk, defragment"]}
{"id": "C16", "title": "Thread memory slots are exclusive", "statement": "Whatever the interleaving of acquisitions and releases by any number of threads, a slot held by one holder is never given to another one until it is released; single slots and ranges of slots obey the same rule, and released slots are reused before new ones are created.", "quantifier": "all histories of acquire/release of single slots and ranges, any number of threads", "why_tests_cant": "interleavings are unbounded", "anchors": ["anifem++/fem/fem_memory_parallel.h: DynMemParallel::alloc, release, alloc_range, release_range, release_all"]}
{"id": "C17", "title": "Parallel loop splitting is a partition", "statement": "The index ranges given to the threads of a parallel loop are consecutive, disjoint, cover the whole range exactly once and their lengths differ by at most one.", "quantifier": "all iteration counts, all thread numbers >= 1", "why_tests_cant": "arbitrary naturals; off-by-one depends on the remainder", "anchors": ["anifem++/fem/mutex_type.h: ParallelFor::perform"]}
{"id": "C18", "title": "Small dense geometry is exact", "statement": "inverse3x3 returns the determinant and, when it is nonzero, a two-sided inverse; the cross product is orthogonal to both arguments; the triangle area is half of the norm of the cross product; the outward face normal of a nondegenerate tetrahedron is orthogonal to the face, of unit length and points away from the opposite vertex, whatever the orientation of the vertices.", "quantifier": "all real 3x3 matrices, vectors and tetrahedra", "why_tests_cant": "continuous domain", "anchors": ["anifem++/fem/geometry.h: inverse3x3, cross, tri_area, face_normal"]}
{"id": "C19", "title": "Cholesky solve solves the system", "statement": "For a symmetric positive definite matrix in packed storage the Cholesky solver returns the solution of the linear system for every right-hand side, and for a matrix that is not positive definite it reports an error instead of a result.", "quantifier": "all orders N, all symmetric matrices, all right-hand sides", "why_tests_cant": "continuous domain, arbitrary N", "anchors": ["anifem++/fem/geometry.h: cholesky_solve, cholesky_inverse"]}
{"id": "C20", "title": "Fully pivoted LU solve solves the system", "statement": "For a nonsingular square matrix the fully pivoted LU solver returns a vector x with A x = b for every right-hand side b, whatever row and column exchanges were made.", "quantifier": "all orders N, all nonsingular matrices, all right-hand sides", "why_tests_cant": "wrong results appear only for particular permutations produced by pivoting", "anchors": ["anifem++/fem/geometry.h: fullPivLU, LU_solve, fullPivLU_solve, fullPivLU_inverse"]}
{"id": "C21", "title": "Global numbering of d.o.f.s is a bijection on every process", "statement": "The global enumerator gives every (element owned by the process, d.o.f. on the element) a distinct number in the process range, every number of the range is used, and the inverse look-up returns the element and d.o.f.", "quantifier": "all meshes (numbers of elements per kind), all d.o.f. distributions, both storage layouts", "why_tests_cant": "mesh sizes and distributions are arbitrary", "anchors": ["anifem++/inmost_interface/global_enumerator.cpp: SimpleEnumerator::operator(), OrderedEnumerator"]}
{"id": "C22", "title": "Process ranges partition the global numbers", "statement": "The number ranges of the processes are disjoint and together cover exactly 0..(total number)-1.", "quantifier": "all numbers of processes, all distributions of elements over processes (including processes without elements)", "why_tests_cant": "distributions are arbitrary", "anchors": ["anifem++/inmost_interface/global_enumerator.cpp: setupIGlobEnumeration"]}
{"id": "C23", "title": "D.o.f. addresses on an element round-trip", "statement": "Splitting the position of a d.o.f. on a mesh element into (variable, component, local number, orientation) and recomposing it are inverse for every position.", "quantifier": "all products of variables with any dimensions and d.o.f. counts, all positions", "why_tests_cant": "arbitrary numbers of variables; boundaries between the blocks are the delicate cases", "anchors": ["anifem++/inmost_interface/global_enumerator.h: GetElemDofId, GetSingleVarDofId", "anifem++/inmost_interface/global_enumerator.cpp: getFullIndex"]}
{"id": "C24", "title": "Tetrahedron connectivity is reconstructed canonically", "statement": "From the unordered lists of faces, edges and nodes of a tetrahedron the library reconstructs the canonical local numbering: edge number k joins the prescribed pair of local nodes and face number k is spanned by the prescribed triple, for every order in which faces, edges and nodes are given.", "quantifier": "all orders of the four faces, of the edges and nodes within each of them, and all global ids", "why_tests_cant": "millions of storage orders", "anchors": ["anifem++/inmost_interface/ordering.inl: collectConnectivityInfo, reorderNodesOnTetrahedron"]}
{"id": "C25", "title": "Global-id order of a tetrahedron is the rank permutation", "statement": "The permutation computed from the global ids of the four nodes gives each node its rank: node i has rank equal to the number of nodes with smaller global id.", "quantifier": "all quadruples of distinct global ids", "why_tests_cant": "ids are arbitrary 64-bit integers", "anchors": ["anifem++/inmost_interface/ordering.inl: createOrderPermutation"]}
{"id": "C26", "title": "Oriented d.o.f.s agree between neighbouring cells", "statement": "The sign given to an edge (face) d.o.f. in a cell depends only on the global orientation of that edge (face): two cells sharing it translate the shared d.o.f. to the same global functional.", "quantifier": "all pairs of cells sharing an edge or face, all global ids of their nodes", "why_tests_cant": "all relative orders of node ids in both cells", "anchors": ["anifem++/inmost_interface/ordering.inl: isPositivePermutationOrient", "anifem++/inmost_interface/assembler.inl: fill_assemble_templates"]}
{"id": "C27", "title": "Sparse and dense storage of elemental matrices agree", "statement": "Expanding a compressed-column elemental matrix to dense storage puts every stored entry at its place and zero elsewhere, also when performed in place in the same buffer; collecting back the entries of the pattern restores the stored values; the dense pattern lists every entry.", "quantifier": "all matrix sizes, all sparsity patterns, all values", "why_tests_cant": "patterns are arbitrary; the in-place variant overwrites data it still has to read", "anchors": ["anifem++/inmost_interface/func_wrap.inl: densify, sparsify, copyCSC, fillTemplate"]}
{"id": "C28", "title": "Signed index codes round-trip", "statement": "Packing a global index with an orientation sign into one integer loses nothing and never produces the reserved 'undefined' code.", "quantifier": "all non-negative indices below the maximum and both signs; pairs of 16-bit/unbounded ids", "why_tests_cant": "64-bit domain", "anchors": ["anifem++/inmost_interface/assembler.inl: assemble_index_encode, assemble_index_decode", "anifem++/inmost_interface/assembler.h: encode_id, decode_id"]}
{"id": "C29", "title": "Merging an elemental row into a sorted global row is exact", "statement": "Adding an elemental row to a sorted sparse row keeps the row sorted without duplicates, keeps all previous entries, and the value of every column increases by exactly the signed elemental contribution (contributions dropped by the threshold excepted); it gives the same row as adding the entries one by one in any order.", "quantifier": "all sorted rows, all elemental rows with distinct columns, all thresholds", "why_tests_cant": "two-pointer merges have many boundary cases; rows are arbitrary", "anchors": ["anifem++/inmost_interface/assembler.inl: Assemble, AssembleMatrix (ordered insertion)"]}
{"id": "C30", "title": "The assembled system does not depend on cell order or thread schedule", "statement": "The assembled matrix and right-hand side equal the sum of the signed elemental contributions over all cells, for every order in which the cells are visited and every way they are split over threads and interleaved.", "quantifier": "all meshes, all elemental matrices, all orders/splits/interleavings", "why_tests_cant": "schedules are unbounded", "anchors": ["anifem++/inmost_interface/assembler.inl: Assemble, AssembleMatrix, AssembleRHS"]}
{"id": "C31", "title": "The template contains everything the assembly inserts", "statement": "After the sparsity template has been assembled, a later assembly with the same pattern never inserts a new position, and building the template changes no value already stored.", "quantifier": "all meshes, all elemental patterns, all previous matrices", "why_tests_cant": "patterns are arbitrary", "anchors": ["anifem++/inmost_interface/assembler.inl: AssembleTemplate, AssembleMatrix"]}
{"id": "C32", "title": "Assembly reports non-finite elemental values", "statement": "If any elemental evaluation yields a non-finite value the assembly returns a negative status, otherwise it returns a non-negative status, regardless of which thread saw it.", "quantifier": "all meshes, all splits over threads", "why_tests_cant": "failure position and thread are arbitrary", "anchors": ["anifem++/inmost_interface/assembler.inl: Assemble, _return_assembled_status"]}
{"id": "C33", "title": "Precomputed order tables address the right d.o.f.", "statement": "The table that maps local d.o.f. numbers to (variable, component, number on element) used by the assembler agrees with the d.o.f. map it was built from.", "quantifier": "all products of variables of any dimension", "why_tests_cant": "arbitrary dimensions; failure only for large dimensions", "anchors": ["anifem++/inmost_interface/assembler.inl: prepareOrder"]}
{"id": "C34", "title": "Finite element bases are dual to their degrees of freedom", "statement": "For P0, P1, P2, P3, CR1, RT0, ND0 (and the bubble spaces) the value of the i-th degree of freedom on the j-th basis function is 1 if i=j and 0 otherwise, on every nondegenerate tetrahedron of either orientation; for P1, P2, P3 and CR1 the basis functions sum to one.", "quantifier": "all nondegenerate real tetrahedra, all points", "why_tests_cant": "continuous domain", "anchors": ["anifem++/fem/spaces/poly_1.h", "anifem++/fem/spaces/poly_2.h", "anifem++/fem/spaces/poly_3.h", "anifem++/fem/spaces/crouzeix_raviart_1.h", "anifem++/fem/spaces/raviant_thomas_0.h", "anifem++/fem/spaces/nedelec_0.h", "anifem++/fem/spaces/bubble_2.h", "anifem++/fem/spaces/bubble_4.h"]}
{"id": "C35", "title": "Differential operators are the derivatives of the basis", "statement": "The GRAD (and DIV/CURL where provided) values computed for a space are the derivatives of its IDEN values with respect to the physical coordinates.", "quantifier": "all nondegenerate real tetrahedra, all points", "why_tests_cant": "continuous domain; finite differences only approximate", "anchors": ["anifem++/fem/spaces/poly_1.h", "anifem++/fem/spaces/poly_2.h", "anifem++/fem/spaces/poly_3.h", "anifem++/fem/spaces/crouzeix_raviart_1.h", "anifem++/fem/spaces/raviant_thomas_0.h", "anifem++/fem/spaces/nedelec_0.h"]}
{"id": "C36", "title": "Pointwise basis evaluation agrees with the identity operator", "statement": "Evaluating a single basis function at a point gives the same value as the identity operator applied at that point.", "quantifier": "all spaces, all basis functions, all points of all tetrahedra", "why_tests_cant": "continuous domain", "anchors": ["anifem++/fem/spaces/poly_3.h: Basis::eval", "anifem++/fem/spaces/nedelec_0.h: Basis::eval", "anifem++/fem/spaces/poly_2.h: Basis::eval"]}
{"id": "C37", "title": "Quadrature rules integrate polynomials of the advertised degree", "statement": "The rule returned for a requested order integrates every polynomial of total degree not above the order over the segment, triangle or tetrahedron, up to the rounding of the tabulated decimals (relative to the sum of the coefficients).", "quantifier": "all orders 0..21 / 0..20 / 0..20 and all polynomials of the respective degree with real coefficients", "why_tests_cant": "the space of polynomials is infinite; a wrong digit affects only certain monomials", "anchors": ["anifem++/fem/quadrature_formulas.cpp: segment_quadrature_formulas, triangle_quadrature_formulas, tetrahedron_quadrature_formulas"]}
{"id": "C38", "title": "Quadrature points are inside, weights positive, rules symmetric", "statement": "Every tabulated rule has positive weights summing to one (up to rounding of the decimals), points strictly inside the simplex with barycentric coordinates summing to one, and is invariant under all permutations of the vertices; orders outside the table are rejected.", "quantifier": "all orders, all points, all vertex permutations", "why_tests_cant": "the complete tables with all permutations", "anchors": ["anifem++/fem/quadrature_formulas.cpp", "anifem++/fem/quadrature_formulas.h: GetPointWeight"]}
{"id": "C39", "title": "Imposing a Dirichlet value on a scalar d.o.f. is exact", "statement": "After imposing value b on d.o.f. k of an elemental system, any solution has x_k = b, and a vector with x_k = b solves the new system iff it satisfies all other original equations; symmetry of the matrix is preserved; conditions imposed on different d.o.f.s in any order give the same system.", "quantifier": "all sizes, all matrices and right-hand sides, all k, all values", "why_tests_cant": "continuous domain, arbitrary sizes", "anchors": ["anifem++/fem/operations/dc_on_dof.h: applyDir, applyDirMatrix, applyDirResidual, applyDirNonExists"]}
{"id": "C40", "title": "Imposing a Dirichlet value along directions of a vector d.o.f. is exact", "statement": "After imposing V u = b (V a set of orthonormal rows) on the d.o.f.s of a vector variable, every solution of the modified system satisfies V u = b, and vectors with V u = b solve it iff they satisfy the remaining rotated original equations.", "quantifier": "all sizes, dimensions, orthogonal matrices, numbers of directions and values", "why_tests_cant": "continuous domain, several simultaneous directions", "anchors": ["anifem++/fem/operations/dc_on_dof.inl: applyVectorDir, setVectorDirRhs, setVectorDirMtx"]}
{"id": "C41", "title": "Fused elemental matrix products are exact", "statement": "The fused products compute R_i = A_i^T B_i (respectively A_i B_i) for every block i, independently of previous contents of the result buffer.", "quantifier": "all block numbers, sizes and values, all previous buffer contents", "why_tests_cant": "arbitrary sizes; stale memory is rarely visible in tests", "anchors": ["anifem++/fem/operations/core.inl: fusive_AT_mul_B, fusive_A_mul_B"]}
{"id": "C42", "title": "Barycentric coordinates and quadrature points are consistent", "statement": "The barycentric coordinates of a point with respect to a nondegenerate tetrahedron sum to one and recombine the vertices to the point; conversely the physical point computed from barycentric coordinates has those barycentric coordinates; both variants of the computation agree.", "quantifier": "all nondegenerate real tetrahedra and all points", "why_tests_cant": "continuous domain", "anchors": ["anifem++/fem/operations/core.inl: getBaryCoord, internalFem3DtetGeomInit_Tet, internalFem3DtetGeomInit_XYG"]}
{"id": "C43", "title": "Ordered numbering follows the requested arrangement", "statement": "OrderedEnumerator accepts exactly the permutations of (variable, component, kind, element, number), getArrangement returns the one given, and the numbers of the d.o.f.s of a process are in the lexicographical order of these five values in that arrangement, or in the opposite order when reverse is set.", "quantifier": "all meshes, all variables, all 120 arrangements, both directions", "why_tests_cant": "mesh sizes and distributions are arbitrary", "anchors": ["anifem++/inmost_interface/global_enumerator.cpp: OrderedEnumerator::setArrangment, getArrangement, setup, index_byMap", "anifem++/inmost_interface/global_enumerator.h: OrderedEnumerator"]}
{"id": "C44", "title": "The elemental matrix is the quadrature sum of the bilinear form", "statement": "For every pair of operators (of one part, or composed of diagonal parts), every coefficient tensor given per point, per tetrahedron, per selection, constant or for the whole selection (identity, scalar, symmetric or general), with or without convolution with the normal, fem3Dtet leaves in A(j,i) of tetrahedron r the sum over the quadrature points of weight * measure * (D U phi_i).(V psi_j), whatever the work memory held; incompatible identity or scalar tensors are rejected.", "quantifier": "all operators, dimensions, numbers of points and of fused tetrahedra, tensor functions, contents of memory", "why_tests_cant": "ten overloads times all dimensions, part structures and numbers of fused tetrahedra", "anchors": ["anifem++/fem/diff_tensor.h: applyDU overloads, DFunc wrappers", "anifem++/fem/operations/core.inl: internalFem3Dtet", "anifem++/fem/operations/core.h: DotWithNormalHelper", "anifem++/fem/fem_memory.h: BandDenseMatrix, convToBendMx"]}
{"id": "C45", "title": "Evaluating an operator on degrees of freedom gives its values at the points", "statement": "fem3DapplyL/fem3DapplyX leave in opU, for every component, point and tetrahedron, the sum over the basis functions of the operator's value times the degree of freedom, multiplied by the tensor when there is one, whatever the memory held.", "quantifier": "all operators (one part or several), dimensions, numbers of points, numbers of fused tetrahedra, contents of memory", "why_tests_cant": "stale memory and part structures vary without bound", "anchors": ["anifem++/fem/operations/core.inl: internalFem3DApply", "anifem++/fem/operations/eval.inl"]}
{"id": "C46", "title": "Operators of vector, product and union spaces are assembled right from those of their parts", "statement": "For run-time finite element spaces, the block matrix which IDEN, GRAD, DIV, CURL and DUDX leave on the stack of AniMemoryX is well formed, lies in U, holds the values of the operator of the composed space (block diagonal for vector and product spaces, side by side for unions, sums of derivatives for DIV and CURL), is accounted for in busy_mtx_parts, and nothing else on the stack or in memory is changed; so two operators applied one after another keep their values and the elemental matrix is the quadrature sum.", "quantifier": "all trees of spaces, numbers of components, basis functions, points and fused tetrahedra, contents of memory and of the stack", "why_tests_cant": "the stack arithmetic depends on the depth and width of the tree of spaces and on what is already on the stack", "anchors": ["anifem++/fem/fem_space.cpp: BaseFemSpace::apply*, VectorFemSpace::apply*, ComplexFemSpace::applyDIV*", "anifem++/fem/fem_space.inl: applyOP_internal", "anifem++/fem/spaces/common.h: GenSpace::InternalOp", "anifem++/fem/operations/core.inl: internalFem3Dtet"]}
{"id": "C47", "title": "Interpolation on composed spaces returns the coefficients of members of the space", "statement": "For every basic space and every space composed from them as vector, product or union, interpolateOnDOF writes only the requested d.o.f. of the requested functions, and when the interpolated functions are combinations of the basis functions of the space on the tetrahedron, what it writes are their coefficients; interpolation is a projection; interpolateByDOFs agrees with it d.o.f. by d.o.f.; the compile-time product agrees with the run-time one; the weights computed by setupInterpolation of a union make this hold up to the tolerance it checks.", "quantifier": "all nondegenerate tetrahedra, trees of spaces, functions, coefficients, numbers of fused functions, contents of the arrays", "why_tests_cant": "there are infinitely many functions, tetrahedra and trees of spaces; the union takes weights computed once on one tetrahedron and applies them to all", "anchors": ["anifem++/fem/fem_space.cpp: VectorFemSpace::interpolateOnDOF, ComplexFemSpace::interpolateOnDOF, UnionFemSpace::interpolateOnDOF, UnionFemSpace::setupInterpolation, BaseFemSpace::interpolateByDOFs, VectorFemSpace::interpolateByDOFs", "anifem++/fem/operators.h: Dof<FemVec>, Dof<FemVecT>, Dof<FemCom>, Dof<FemUnionT>", "anifem++/fem/operators.inl: setup of FemUnionT"]}
{"id": "C48", "title": "Interpolation on an edge, a face or the cell is the best approximation at the quadrature points", "statement": "interpolateOnRegion writes exactly the degrees of freedom of the closure of the requested element, and the coefficients written are the unique minimiser of the weighted sum of squared errors at the points of the quadrature formula placed on that element; members of the space get their coefficients; when the basis functions of the closure are dependent at the points it throws.", "quantifier": "all nondegenerate tetrahedra, elements, functions, quadrature formulas with positive weights, sets of basis functions, contents of the work memory", "why_tests_cant": "the result depends on the content of unwritten work memory and on a linear solve for arbitrary functions; a test on zeroed memory passes while the points are wrong on reused memory", "anchors": ["anifem++/fem/fem_space.cpp: BaseFemSpace::interpolateOnRegion", "anifem++/fem/operations/int_pnt.inl: fem3DpntL", "anifem++/fem/geometry.h: cholesky_solve"]}
{"id": "C49", "title": "Functions of neighbouring tetrahedra fit together on the shared face", "statement": "On a face shared by two tetrahedra, in any numbering of the nodes of either, P1, P2, P3, B2 and B4 functions with the same degrees of freedom at the same points take the same values; RT0 functions have the same normal component exactly when their degrees of freedom of the face are opposite; ND0 functions whose degrees of freedom of the common edges agree up to the sign of the direction have the same tangential components; basis functions of degrees of freedom away from the face have a zero trace on it.", "quantifier": "all pairs of nondegenerate tetrahedra sharing a face, all numberings of their nodes, all points of the face, all coefficients", "why_tests_cant": "conformity has to hold for every numbering of both tetrahedra and at every point of every face; one wrong index in a table breaks only some numberings", "anchors": ["anifem++/fem/spaces/poly_1.h, poly_2.h, poly_3.h, bubble_2.h, bubble_4.h, raviant_thomas_0.h, nedelec_0.h: basis functions and degrees of freedom"]}
{"id": "C50", "title": "The position returned for a degree of freedom is where the degree of freedom is taken", "statement": "DOF_coord<FEM>::at(odf, nodes, coord) writes, whatever coord contained, the point at which the interpolation evaluates the function for the degree of freedom odf; for mean values over the cell or a face, the point where every affine function takes its mean value; for vectors the position of the component's degree of freedom.", "quantifier": "all tetrahedra, degrees of freedom, functions, contents of the result memory", "why_tests_cant": "a test on zeroed memory and symmetric functions passes while the point depends on the old content or belongs to another face", "anchors": ["anifem++/fem/operators.h: DOF_coord", "anifem++/fem/spaces/*.h: Dof interpolation"]}
{"id": "C51", "title": "Operators of composed compile-time spaces act on the right components and basis functions", "statement": "The operator of FemVec, FemVecT, FemCom, FemUnionT, and DUDX, DIV, CURL built from GRAD, has exactly the values of its parts at their rows and columns and zero elsewhere, stays within the memory it demands, and two operators computed after one another keep their values, so that the elemental matrix is the quadrature sum of the bilinear form of these values.", "quantifier": "all compositions of any depth, all numbers of points and tetrahedra, all contents of memory, all values of the simple spaces", "why_tests_cant": "a wrong offset or an overrun shows only for particular nestings and sizes; tests instantiate a few templates", "anchors": ["anifem++/fem/operators.h:127-416", "anifem++/fem/operators.inl:402-492", "anifem++/fem/operations/core.inl:281-315"]}
{"id": "C52", "title": "Declared polynomial orders are the degrees of what the operators compute", "statement": "The order declared by a space or an operator, with which the order of a quadrature is chosen, is at least the degree of the polynomials which the operator computes on a tetrahedron; for IDEN and GRAD it is the least such degree.", "quantifier": "all nondegenerate tetrahedra, all simple spaces, all compositions of any depth, all operators", "why_tests_cant": "a test compares constants with constants; that every basis function on every tetrahedron is a polynomial of that degree, and that the maximum rules for compositions keep it, is a statement about all points and compositions", "anchors": ["anifem++/fem/operators.inl:44-75", "anifem++/fem/operators.h:127-416", "anifem++/fem/fem_space.cpp:65-79", "anifem++/fem/fem_space.cpp:893-908", "anifem++/fem/fem_space.inl:66-70", "anifem++/fem/spaces/common.h:113-160"]}
{"id": "C53", "title": "Elemental matrices are made of the basis functions of the spaces and their true derivatives", "statement": "For every composition of the spaces of the library, every operator it defines gives at every point of every tetrahedron the components, derivatives, divergence or curl of the basis functions of the composed space, in their order, so that the elemental matrix of two operators is entry by entry the quadrature sum of the bilinear form of these functions.", "quantifier": "all compositions of any depth, all operators, all nondegenerate tetrahedra, numbers of tetrahedra and points, tensors, contents of memory", "why_tests_cant": "a test compares some entries for a few spaces on a few elements; here derivatives are derivatives of functions at a point, for all spaces that can be written with the templates", "anchors": ["anifem++/fem/operators.h:127-416", "anifem++/fem/operators.inl:340-520", "anifem++/fem/operations/core.inl:13-93", "anifem++/fem/spaces/poly_2.h:12-101", "anifem++/fem/spaces/nedelec_0.h:13-182"]}
{"id": "C54", "title": "The integration drivers compute the integrals over the tetrahedron, face, edge or node they are named after", "statement": "From the nodes of nondegenerate tetrahedra the drivers prepare the quadrature points, weights, volumes, areas, lengths and outward unit normals of the requested part of the tetrahedron, lay out the memory without overlaps, and return a matrix whose every entry is the integral of the bilinear form of the basis functions over that part, up to the accuracy of the quadrature tables, when the requested order is at least the degree of the form; at a node or at points of the user it is the (weighted) value.", "quantifier": "all tetrahedra and numbers of them, all spaces and operators, all polynomial tensors of the user, all orders of the tables, all contents of memory, compile-time and run-time operators", "why_tests_cant": "a test integrates a few polynomials on a few elements; a wrong permutation of nodes, measure or overlap of arrays shows only for some faces, orders or spaces", "anchors": ["anifem++/fem/operations/int_tet.inl:14-55", "anifem++/fem/operations/int_face.inl:31-196", "anifem++/fem/operations/int_edge.inl:20-99", "anifem++/fem/operations/int_pnt.inl:20-220", "anifem++/fem/operations/core.inl:96-185", "anifem++/fem/operations/core.inl:277-475"]}
{"id": "C55", "title": "The evaluation drivers give the values of an operator on a finite element function at the given points", "statement": "fem3DapplyX and fem3DapplyL return, for the degrees of freedom of a finite element function on a nondegenerate tetrahedron, the value of the operator (identity, gradient, divergence, curl, partial derivative; multiplied by a tensor if one is given) of that function at every given point, whatever the memory held before; they use no memory outside of the arrays on the stack or of the size they demand from the user.", "quantifier": "all tetrahedra, all spaces and operators, all degrees of freedom, all points in Cartesian or barycentric coordinates, all tensors, all contents and sizes of memory, compile-time and run-time operators", "why_tests_cant": "a test evaluates a few functions at a few points; too small a memory demand is seen only for a combination of space, operator and number of points, and not always then", "anchors": ["anifem++/fem/operations/eval.inl:2-256", "anifem++/fem/operations/core.inl:369-404", "anifem++/fem/operations/core.inl:477-574", "anifem++/fem/operations/core.inl:662-783", "anifem++/fem/fem_memory.h:224-261"]}
{"id": "C56", "title": "Automatic differentiation gives the value, the gradient and the Hessian of the written expression", "statement": "An expression of ADVal, Param and Var objects evaluated at a point where all its parts are smooth carries the value of the function it denotes, its gradient if at least one derivative was asked for, and its Hessian if two were; the Hessian is symmetric.", "quantifier": "all expressions of any size over all operations and functions of the library, all numbers of variables, all points, all requested orders, all right objects supplied by the user", "why_tests_cant": "a test evaluates a few expressions at a few points; the State flags of the operands select between different formulas, and a missing term is seen only for one combination of flags at order two", "anchors": ["anifem++/autodiff/autodiff.h:14-273", "anifem++/autodiff/autodiff.inl:1-440"]}
{"id": "C57", "title": "Packed symmetric tensors behave as the full tensors they stand for", "statement": "The physical matrices and tensors of rank four keep one copy of the entries related by symmetry; the numbering of the copies is one to one, the multiplicities are the numbers of entries that share a copy, and every operation (tensor squares and symmetrised products, contractions, traces, matrix products, conversions between storages, determinants, adjugates and inverses in 3D, identities) has the entries which the same operation on full matrices and tensors has.", "quantifier": "all dimensions N, all entries in any field, all indices; the specialisations to N = 3 as well as the generic code", "why_tests_cant": "the numbering is arithmetic on indices with separate generic and 3D code paths, and symmetric test data hide a wrong multiplicity or a swapped index; tests use dimension 3 only", "anchors": ["anifem++/autodiff/physical_tensors.h:40-560", "anifem++/autodiff/physical_tensors.inl:1-560", "anifem++/autodiff/physical_tensors_3d.inl:1-420"]}
{"id": "C58", "title": "Strain invariants, strains and stresses carry their true derivatives", "statement": "The autodifferentiable invariants I0fs, I1, I2, I3, J, I4fs, I5fs of the Cauchy-Green tensor C = 1 + 2E carry the value, the gradient and the Hessian with respect to E of f's, tr C, (tr(C)^2 - tr(C^2))/2, det C, sqrt(det C), f'Cs, f'C^2s; F_to_E and grU_to_E give E = (F'F - 1)/2, the dE functions its directional derivative; if S and dS are the gradient and Hessian of an energy in E then S_to_P and dS_to_dP give its gradient and Hessian in the displacement gradient.", "quantifier": "all strains (for J those with det C > 0), all vectors f and s, all displacement gradients, all energies that are differentiable twice, all requested orders of derivatives up to 2", "why_tests_cant": "the packed Hessians are closed formulas with 21 and 45 stored entries filled by hand, and a wrong factor at a mixed entry slows Newton's method down without changing the solution; tests compare a few states with finite differences", "anchors": ["anifem++/autodiff/cauchy_strain_invariants.h:1-136", "anifem++/autodiff/cauchy_strain_invariants.inl:1-180", "anifem++/autodiff/cauchy_strain_autodiff.h:16-206"]}
{"id": "C59", "title": "QR, symmetric eigenvalue and singular value decompositions", "statement": "householderQR gives an orthonormal Q and an upper triangular R with A = Q R; jacobi_symmetric_eigen gives orthonormal vectors v and values e with |A v - e v| at most its tolerance when it reports success; jacobiSVD gives orthogonal U and V and nonnegative decreasing singular values S with A = U diag(S) V^T up to the machine epsilon.", "quantifier": "all matrices of all sizes (symmetric for the eigenvalues, at least as many rows as columns for QR), all contents of the output and work memory before the call, all values of the machine epsilon", "why_tests_cant": "Tests compare a few random full-rank matrices; tiny columns, repeated or vanishing singular values, matrices whose entries are all close to the tolerance and completions of the basis that fall on an existing vector are sets of measure zero that random tests never meet.", "anchors": ["anifem++/fem/geometry.h:416-495 householderQR", "anifem++/fem/geometry.h:500-556 jacobi_symmetric_eigen", "anifem++/fem/geometry.h:559-609 sort_eigen_desc, complete_orthonormal_cols", "anifem++/fem/geometry.h:612-633 gram_ata, gram_aat", "anifem++/fem/geometry.h:647-729 jacobiSVD"]}
{"id": "C60", "title": "The integration drivers write only into the memory they demand", "statement": "Memory of the size returned by the *_memory_requirements functions is enough for the integration drivers: the arrays carved out of it do not overlap and lie inside of it, the geometry, the operators, the values of the tensor function, the products and the blocks of the elemental matrix are written into their own arrays, and the elemental matrix into its first Nfa*Nfa*f numbers; the versions with arrays on the stack do the same.", "quantifier": "all operators (their dimensions, numbers of basis functions, own memory and parts), numbers of points and tetrahedrons, all tensor functions and traits, all contents of the memory", "why_tests_cant": "A write past the end of an array lands in the neighbouring array or in spare memory and usually changes no tested value; only a few of the combinations of operators, orders and numbers of tetrahedrons are ever run.", "anchors": ["anifem++/fem/operations/core.inl:139-275 carving and demand, geometry", "anifem++/fem/operations/core.inl:581-660 carving and demand of the run-time version", "anifem++/fem/operations/int_tet.inl:92-122 stack version", "anifem++/fem/fem_memory.h:222-261 MemoryLegacy", "anifem++/fem/diff_tensor.h:279-897 applyDU"]}
{"id": "C61", "title": "Sums, products, powers and sub-spaces of run-time spaces", "statement": "The product a * b of run-time spaces has the basis functions of the direct product of a and b, the sum a + b those of a followed by those of b and exists exactly when their dimensions agree, the power a ^ k those of the product of k copies; the simplification by make_complex_with_simplification and make_union_with_simplification changes neither basis functions nor declared orders nor the positions of the dofs; products and sums are associative; the operators of a product or a sum evaluate to the operators of the direct product or sum; subSpace(path) is the part of the space at that path, its functions placed at its components, its dofs starting where the dof map says.", "quantifier": "all run-time spaces composed in any depth, all operators (divergence within the limits of C46), all tetrahedrons and points, all paths", "why_tests_cant": "Spaces nest to any depth and the simplification depends on the kinds of both operands; the tests build a handful of spaces such as P2^3*P1 and look at sizes, not at which function stands at which index.", "anchors": ["anifem++/fem/fem_space.cpp:1190-1228 operators", "anifem++/fem/fem_space.inl:175-213 make_union, make_complex", "anifem++/fem/fem_space.cpp:393-398, 677-682, 913-918 subSpace", "anifem++/fem/fem_space.cpp:893-908, 1007-1018 setup", "anifem++/fem/fem_space.h:271-390"]}
{"id": "C62", "title": "Equality of run-time spaces and operators is sound", "statement": "Two run-time spaces, or two operators on run-time spaces, that compare equal are equal; in particular the integration drivers, which use the trial operator in place of the test operator when the two compare equal, compute the integrals.", "quantifier": "all run-time spaces composed in any depth, all operators, all tetrahedrons, quadratures and tensor functions", "why_tests_cant": "A comparison that is too coarse changes a result only for a pair of spaces that differ just in what is not compared; the tests integrate over pairs of equal or plainly different spaces.", "anchors": ["anifem++/fem/fem_space.cpp:405-409 VectorFemSpace::operator==", "anifem++/fem/fem_space.cpp:694-703 ComplexFemSpace::operator==", "anifem++/fem/fem_space.cpp:930-939 UnionFemSpace::operator==", "anifem++/fem/spaces/common.h:42-48", "anifem++/fem/fem_space.h:442, 611", "anifem++/fem/operations/core.inl:421, 585, 645 uses in the drivers"]}
{"id": "C63", "title": "The metric at a node is a metric within the bounds", "statement": "The six numbers that construct_metrics stores at a node are a symmetric positive definite matrix with eigenvalues between M_lambda_min and M_lambda_max, the largest at most M_lambda_max_rel times the smallest; |H| of a cell is the spectral absolute value of its Hessian; the metric of a cell is (det|H|)^(-1/5) |H| for the clamped |H|; with strategy 0 a node takes the metric of a not degenerate cell with the largest determinant, with strategy 1 the geometric mean of the metrics of these cells, which does not depend on their order; where all cells are degenerate the one with the most values above M_lambda_min is taken and its small values are lifted; the error of a cell is split among its coefficients without a loss.", "quantifier": "all traits with kEigenEps < M_lambda_min <= M_lambda_max, all lists of cells around a node, all Hessians, all coefficients", "why_tests_cant": "Bounds must hold for every Hessian that an estimator produces, including those whose eigenvalues are not found or coincide; tests look at the metric of one or two smooth fields.", "anchors": ["anifem++/utils/adapt_mesh.h:16-31 MetricsConstructTraits", "anifem++/utils/adapt_mesh.cpp:30-216 matrices and clamping", "anifem++/utils/adapt_mesh.cpp:271-289 build_M_from_spectrum, absH_to_M_clamped", "anifem++/utils/adapt_mesh.cpp:300-473 cells and projection to a node", "anifem++/utils/adapt_mesh.cpp:664-738 cell_body", "anifem++/utils/adapt_mesh.cpp:792-821 node_body"]}
{"id": "C64", "title": "The Hessian of a cell is the mean of the second derivatives", "statement": "compute_H2_from_v2 integrates the gradient of the finite element function over the four sides of a tetrahedron, multiplies by the outer normals, adds up and divides by the volume; for every scalar space the result is the symmetric matrix of the means over the tetrahedron of the second derivatives of the function, whatever the orientation of the vertices, up to the accuracy of the quadrature; it is exact for functions with constant second derivatives, zero for functions of degree one and for a volume that is not positive; the number split by the heuristics is the mean of the squared gradient.", "quantifier": "all nondegenerate tetrahedra, all scalar spaces (simple and composed), all coefficients, all quadrature orders up to 20 that cover the degree of the gradient", "why_tests_cant": "It is the divergence theorem together with the tables of sides, normals and quadrature formulas; a wrong pairing of a side and its normal cancels on symmetric cells and shows only for some shapes.", "anchors": ["anifem++/utils/adapt_mesh.cpp:218-268 compute_H2_from_v2", "anifem++/utils/adapt_mesh.cpp:676-691 B and alpha", "anifem++/fem/geometry.h:76-93 face_normal", "anifem++/fem/operations/int_face.inl fem3Dface"]}
{"id": "C65", "title": "The generated mesh is a conforming tetrahedral mesh of the box", "statement": "GenerateParallelepiped, run on any number of processes, makes tetrahedra of equal positive volume with outward oriented faces such that any two of them, made by the same process or by different ones, meet in the hull of their common nodes, no two overlap, none is made twice, together they cover the box, and none lies outside of it; no process reads outside of its array of nodes.", "quantifier": "all numbers of processes, all numbers of boxes per axis that fit into 32 bits, all corners of the box, all pairs of cells of all processes, all points", "why_tests_cant": "Conformity is a statement on all pairs of cells, in particular of different processes, and the distribution depends on the divisors of the number of processes; a test checks the volume of a few serial meshes.", "anchors": ["anifem++/utils/mesh_utils.cpp:20-48 CreateNWTetElements", "anifem++/utils/mesh_utils.cpp:52-150 GenerateParallelepiped"]}
{"id": "C66", "title": "The diffusion solver assembles the weak form with its boundary conditions", "statement": "The system assembled by solve_stationary_diffusion has as solutions exactly the vectors with the Dirichlet values on the d.o.f.s of Dirichlet elements that satisfy, for all other d.o.f.s, the weak form of the diffusion problem with the Neumann data on all boundary sides without Dirichlet condition; if the exact solution lies in the discrete space and the integrals are exact, it solves the assembled system.", "quantifier": "all meshes, all conforming spaces, all tensors, loads and boundary data, all choices of Dirichlet elements, all vectors", "why_tests_cant": "The equivalence is between sets of solutions of systems of any size, and a boundary condition may be lost for some spaces only; a test compares a computed solution with a known one for a few spaces, mostly with Dirichlet conditions.", "anchors": ["anifem++/utils/utils.cpp:321-493 solve_stationary_diffusion", "anifem++/fem/tetdofmap.inl:900-904 applyDirByDofs"]}
{"id": "C67", "title": "Iteration over the d.o.f.s of a mesh by geometry", "statement": "A loop from beginByGeom(slice) to endByGeom() executes its body exactly once for every d.o.f. of the slice (variable, component, number, kinds of elements, element) stored on a valid element owned by the process, in the order dimension, element, place of storage, and ends.", "quantifier": "all meshes with any holes and ghosts, all lists of scalar and vector variables, all slices, all bodies", "why_tests_cant": "The increment is a cascade of seven nested counters with early exits and resets; which of them is wrong shows only for particular combinations of slice, kinds of d.o.f.s, holes in the mesh and ghosts.", "anchors": ["anifem++/inmost_interface/global_enumerator.cpp:309-442 iteratorByGeom", "anifem++/inmost_interface/global_enumerator.h:139-192, 237-240"]}
{"id": "C68", "title": "Copies between vectors and values on mesh elements", "statement": "Copies between a vector, an array per element, and an array per element and variable give every owned d.o.f. its value at its number respectively at its place of storage, change nothing else, and copies there and back are the identity.", "quantifier": "all meshes, all lists of variables, all numberings without repetition (in particular that of type ANITYPE), all values", "why_tests_cant": "The places depend on the numbers of d.o.f.s of all kinds and variables; a shift that is wrong for one combination, or that overflows a narrow integer, is not met by the few spaces of a test.", "anchors": ["anifem++/inmost_interface/global_enumerator.cpp:6-225 CopyByEnumeration, CopyVarByEnumeration"]}
{"id": "C69", "title": "Stored mesh functions under a change of the node enumeration", "statement": "reorder_mesh_function_data turns the values stored on edges, faces and cells for one node enumeration into those of the same function for another one: every value gathered on any cell is the same before and after, oriented values change their sign with the orientation of the element, other entries of the arrays are kept, and reordering there and back is the identity.", "quantifier": "all node numberings, all edges, faces and cells with any order of their nodes, all d.o.f. layouts with any numbers of copies of the symmetry groups, all block sizes and shifts", "why_tests_cant": "There are 24 relative orders of the nodes, twelve symmetry groups and both kinds of d.o.f.s; a wrong sign or place shows only for particular pairs of numberings.", "anchors": ["anifem++/inmost_interface/ordering.inl:354-402 reorder_mesh_function_data", "anifem++/inmost_interface/ordering.inl:199-219 getDOFLocusOnElement", "anifem++/inmost_interface/ordering.inl:172-193, 220-226 getDOFLocus, takeElementDOF"]}
{"id": "C70", "title": "Local functions of the assembler", "statement": "However the elemental matrix and right-hand side are supplied (one function for both, or two functions; full or given by a sparsity pattern), the assembler hands on the dense arrays they describe, independently of what its arrays and pointers held before, and every thread has the working memory the functions demand.", "quantifier": "all functions (any list of assignments to their outputs, any use of spare result pointers, any returned code), all sparsity patterns, all previous contents of the arrays and result pointers, any number of threads", "why_tests_cant": "Left-over pointers, uninitialised arrays and patterns of another function are right by accident in a test which assembles the whole system first.", "anchors": ["anifem++/inmost_interface/elemental_assembler.cpp:9-117 ElementalAssembler::compute", "anifem++/inmost_interface/assembler.inl:200-244 PrepareProblem", "anifem++/inmost_interface/assembler.inl:866-1142 wrappers of local functions and work memory", "anifem++/inmost_interface/func_wrap.inl:11-130 dynamic wrappers"]}
{"id": "C71", "title": "Memory of the local functions during an assembling", "statement": "During an assembling every thread works with memory of its own in each function that wants memory, no function gets memory that is free or in use elsewhere, and after the assembling all memory is free again, however often the assembler is used.", "quantifier": "all numbers of threads, all states of the pools of both functions, all sequences of assemblings", "why_tests_cant": "Shared memory shows as a data race that depends on timing; tests use one thread and functions which want memory both or neither.", "anchors": ["anifem++/inmost_interface/assembler.h:178-179 encode_id, decode_id", "anifem++/inmost_interface/assembler.inl:993-1040 SystemFromMatRhsFWrap memory", "anifem++/inmost_interface/assembler.inl:341, 368, 382, 485 Assemble", "anifem++/inmost_interface/func_wrap.h:257-269 MatFuncWrapDynamic", "anifem++/fem/fem_memory_parallel.h:43-69 alloc_range, release_range"]}
{"id": "C72", "title": "Generic determinants and inverses", "statement": "Det of square and of symmetric matrices of any size is the determinant, and Inv is the inverse, up to entries taken for zero by the tolerance.", "quantifier": "all sizes, all matrices over an ordered field, all machine epsilons", "why_tests_cant": "The elimination takes different ways for every pattern of zeros, and the tolerance scales with the entries; a test tries a few matrices of moderate size.", "anchors": ["anifem++/autodiff/physical_tensors.inl:329-360 PhysMtx::Det", "anifem++/autodiff/physical_tensors.inl:361-390 SymMtx::Det", "anifem++/autodiff/physical_tensors.inl:319-328 Inv"]}
{"id": "C73", "title": "Local numbers from global ids", "statement": "After the setup of an enumerator the maps stored with the mesh lead from the place of a global id to the local number of exactly this element, so the element found from a position of the vector is the one the position belongs to.", "quantifier": "all meshes, all distributions of ids and ghosts, all sets of dimensions, all earlier contents of the maps, both block orders", "why_tests_cant": "The maps depend on what earlier calls left in the mesh and on the order of ids and ghosts; a test sets up one enumerator on a fresh mesh.", "anchors": ["anifem++/inmost_interface/global_enumerator.cpp:456-560 createGlobalToLocalIDMap", "anifem++/inmost_interface/global_enumerator.cpp:681,710 its callers", "anifem++/inmost_interface/global_enumerator.cpp:835-864 SimpleEnumerator::operator()"]}
{"id": "C74", "title": "Integrals over a mesh", "statement": "Both versions of integrate_vector_func give on every process the integral over the whole mesh: each cell counts once, independent of threads and processes, and polynomials up to the order are integrated exactly.", "quantifier": "all meshes, distributions over processes and threads, schedules, rules and functions; all polynomials up to the order, orders 0 to 20", "why_tests_cant": "The distribution of cells over threads and processes changes from run to run, and exactness concerns all polynomials.", "anchors": ["anifem++/utils/utils.inl:44-73 integrate_vector_func, integrate_scalar_func", "anifem++/utils/utils.cpp:163-232 integrate_vector_func"]}
{"id": "C75", "title": "Gathered values of a variable on a cell", "statement": "GatherDataOnElement puts the stored value of every d.o.f. of the requested component at its place in the numbering of the component and changes nothing else; with one tag per variable every variable is taken from its own tag.", "quantifier": "all maps built from primitive spaces, all components, stored values and contents of the container", "why_tests_cant": "The loop runs in the geometric order, which has its own code for every kind of map; a skipped d.o.f. shows only for particular combinations of spaces and leaves the old content in place.", "anchors": ["anifem++/inmost_interface/ordering.inl:287-352 GatherDataOnElement", "anifem++/fem/tetdofmap.cpp:473-554 VectorDofMap::IncrementByGeomSparsity", "anifem++/fem/tetdofmap.cpp:695-785 ComplexDofMap", "anifem++/fem/tetdofmap.cpp:975-998 NestedDofMapBase"]}
{"id": "C76", "title": "Setting a constant on a part of a tetrahedron", "statement": "interpolateConstant(val, udofs, sp) writes val to exactly the d.o.f.s of the elements in sp (with a sub-map: of the component), and the function with these d.o.f.s has the value val on every closed element all of whose parts are in sp.", "quantifier": "all maps, element sets, values, old contents, tetrahedra and points of the element", "why_tests_cant": "Tests set the constant in P0 only; the claim is about all spaces, all sets of elements and all points.", "anchors": ["anifem++/fem/operations/interpolate.inl:8-13 interpolateConstant", "anifem++/fem/fem_space.inl:58-65 BaseFemSpace::interpolateConstant"]}
{"id": "C77", "title": "The iterator over the global numbers of a process", "statement": "iteratorByVector is a random access iterator over the global numbers: after any moves and readings it returns the mesh position of its number, the loop from begin to end meets all numbers of the process in order, and all comparisons are those of the numbers.", "quantifier": "all numberings, all sequences of moves and readings, all ranges", "why_tests_cant": "The mesh position is remembered in a mutable field; a stale value shows only for particular sequences of moves and readings.", "anchors": ["anifem++/inmost_interface/global_enumerator.h:80-135 iteratorByVector", "anifem++/inmost_interface/global_enumerator.h:227-228 beginByVector"]}
{"id": "C78", "title": "Owned tags are deleted exactly once", "statement": "A tag created for an enumerator is deleted exactly once: never twice, never while another owner has it, and it never exists without an owner that will delete it.", "quantifier": "all sequences of creations, clearings, moves and assignments of owners", "why_tests_cant": "A leaked or doubly deleted tag depends on the history of moves; leaks are not visible in results.", "anchors": ["anifem++/inmost_interface/global_enumerator.h:300-318 TagOwned", "anifem++/inmost_interface/global_enumerator.cpp:685-689, 741-745"]}
{"id": "C79", "title": "The vector operations given to KINSOL do what KINSOL expects", "statement": "Every operation on distributed vectors which is given to KINSOL computes what the documentation of N_Vector says: entrywise operations also when the result is one of the arguments, sums, norms, minima and tests as of the whole vector on all processes.", "quantifier": "all vectors, all lengths, all coincidences of arguments, all distributions over processes", "why_tests_cant": "Tests run on one process and with separate vectors; coincidence of arguments and the distribution over processes change the results.", "anchors": ["anifem++/kinsol_interface/SUNNonlinearSolver.cpp:146-148", "anifem++/kinsol_interface/SUNNonlinearSolver.cpp:272-606"]}
{"id": "C80", "title": "The matrix, the linear solver and the assembling functions given to KINSOL", "statement": "The product of a matrix and a vector is written to its result; the code of the linear solver says success, residual reduced or not converged as the documentation of SUNLinearSolver does; KINSOL is told the same outcome of the assembling functions on all processes, success iff no process failed.", "quantifier": "all matrices and vectors, all residuals and tolerances, all codes of the user functions on all processes", "why_tests_cant": "The product is not called in the usual runs of KINSOL, and the codes matter only for linear solves which end above the tolerance.", "anchors": ["anifem++/kinsol_interface/SUNNonlinearSolver.cpp:781-796", "anifem++/kinsol_interface/SUNNonlinearSolver.cpp:911-947", "anifem++/kinsol_interface/SUNNonlinearSolver.cpp:1280-1323"]}
{"id": "C81", "title": "Parameters of the nonlinear solver set by name", "statement": "Setting a documented parameter changes exactly the setting of KINSOL it stands for and answers true; unknown names and values which KINSOL does not accept are answered with false and change nothing, now and later; texts are read as the numbers they denote, and the published list of parameters is the list of those that can be set.", "quantifier": "all names, values, texts and present settings, all conditions of KINSOL on the values", "why_tests_cant": "Two settings go to KINSOL in pairs through remembered values, so the effect of a call depends on all earlier calls.", "anchors": ["anifem++/kinsol_interface/SUNNonlinearSolver.cpp:1167-1277", "anifem++/kinsol_interface/SUNNonlinearSolver.h:370-371"]}
{"id": "C82", "title": "Dirichlet values with different trial and test spaces", "statement": "After imposing values on the trial d.o.f.s of a part of the tetrahedron the solutions of the system are exactly the vectors with these values which satisfy the equations of all test d.o.f.s not on the part, whether the maps of the spaces are equal or not; if one map has more d.o.f.s on the part, those without a partner are left alone. The same holds for homogeneous conditions on a residual.", "quantifier": "all sizes, all rectangular systems, all values, all parts and maps", "why_tests_cant": "The columns and rows treated belong to different numberings; results for a square system with one map say nothing about the pairing.", "anchors": ["anifem++/fem/tetdofmap.inl:833-939"]}
{"id": "C83", "title": "Iterator from a place of the order", "statement": "The iterator given by getLowerOrderIndex of an ordered enumerator for a variable, a component, a kind, an element and a number of d.o.f., whether they are those of a d.o.f. of the process or not, is such that the d.o.f.s from it on are exactly those of the process that are not before the given place in the order of the enumerator; at a d.o.f. of the process it starts with the number of this d.o.f.", "quantifier": "all arrangements, reversed or not, all variables, all contiguous sets of elements, all places", "why_tests_cant": "Places that are no d.o.f.s of the process, with elements below or above those of it, occur only in parallel runs with particular arrangements.", "anchors": ["anifem++/inmost_interface/global_enumerator.cpp:651-669", "anifem++/interval/ext_array_enum.inl:737-850"]}
{"id": "C84", "title": "Choice of the enumerator", "statement": "GlobEnumeration numbers the d.o.f.s of the process in the order documented for the type chosen last; if an enumerator is given by the user, it is the one used, whichever overload it was given by; the unspecified type cannot be chosen.", "quantifier": "all types, all histories of the setters, all variables, all contiguous sets of elements, all pairs of d.o.f.s", "why_tests_cant": "The order is a statement about all pairs of d.o.f.s of all meshes and sets of variables, and a wrong enumerator numbers without any error.", "anchors": ["anifem++/inmost_interface/global_enumerator.h:392-428", "anifem++/inmost_interface/global_enumerator.cpp:866-889"]}
{"id": "C85", "title": "Place for all d.o.f.s in a tag", "statement": "The tag made by createFemVarTag has, on every element of a dimension on which the variable has d.o.f.s, at least as many values as the variable has d.o.f.s there, with the fixed size and without; without it exactly as many; on elements of other dimensions it is not defined.", "quantifier": "all numbers of d.o.f.s of the six kinds, all dimensions, both ways", "why_tests_cant": "The size is found by a search over the dimensions that stops early; only some patterns of numbers of d.o.f.s are met by the spaces at hand.", "anchors": ["anifem++/utils/utils.cpp:101-124"]}
{"id": "C86", "title": "Printing the number of iterations", "statement": "Printing the state of the linear solver shows the number of iterations and writes only inside of the string made for it, for every number of iterations.", "quantifier": "all numbers of iterations", "why_tests_cant": "Solvers of test problems need few iterations; writing before a short string is mostly not noticed.", "anchors": ["anifem++/utils/utils.cpp:92-93"]}
