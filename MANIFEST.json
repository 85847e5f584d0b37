{
 "claims": [
  {
   "property": "C01",
   "status": "proved",
   "theorems": [
    "Verif.IntervalEnum.size_eq",
    "Verif.IntervalEnum.findLeft_spec",
    "Verif.IntervalEnum.findLeft_out",
    "Verif.IntervalEnum.findRight_spec",
    "Verif.IntervalEnum.roundtrip_position",
    "Verif.IntervalEnum.roundtrip_value",
    "Verif.IntervalEnum.positions_ordered",
    "Verif.IntervalEnum.iterate_forward",
    "Verif.IntervalEnum.iterate_backward",
    "Verif.IntervalEnum.diff_positions"
   ],
   "note": ""
  },
  {
   "property": "C02",
   "status": "proved",
   "theorems": [
    "Verif.IntervalEnum.containsRight_iff",
    "Verif.IntervalEnum.containsRight_iff_interval",
    "Verif.IntervalEnum.lowerBound_some",
    "Verif.IntervalEnum.lowerBound_end",
    "Verif.IntervalEnum.upperBound_some",
    "Verif.IntervalEnum.upperBound_end"
   ],
   "note": ""
  },
  {
   "property": "C03",
   "status": "proved",
   "theorems": [
    "Verif.IntervalMap.insert_success_iff",
    "Verif.IntervalMap.insert_success",
    "Verif.IntervalMap.insert_failure",
    "Verif.IntervalMap.history_normal",
    "Verif.IntervalMap.history_refines",
    "Verif.IntervalMap.contains_iff"
   ],
   "note": ""
  },
  {
   "property": "C04",
   "status": "partial",
   "theorems": [
    "Verif.IntervalMap.unbounded_accept_partial",
    "Verif.IntervalMap.unbounded_lookup_partial",
    "Verif.IntervalMap.unbounded_conflict_accepted",
    "Verif.IntervalMap.unbounded_conflict_accepted_left",
    "Verif.IntervalMap.full_line_lookup_fails"
   ],
   "note": "The code violates the property in full generality (counterexamples proved); proved for histories that add a one-sided infinite interval only while that side is still free, and look-ups unless one value covers the whole line."
  },
  {
   "property": "C05",
   "status": "partial",
   "theorems": [
    "Verif.ExtEnum.setup_total",
    "Verif.ExtEnum.setup_empty_wrong",
    "Verif.ExtEnum.size_eq",
    "Verif.ExtEnum.rank_eq",
    "Verif.ExtEnum.rank_none",
    "Verif.ExtEnum.contains_iff",
    "Verif.ExtEnum.rank_lt_iff",
    "Verif.ExtEnum.rank_inj",
    "Verif.ExtEnum.rank_onto",
    "Verif.ExtEnum.unrank_rank_partial",
    "Verif.ExtEnum.rank_unrank_partial",
    "Verif.ExtEnum.unrank_out",
    "Verif.ExtEnum.unrank_wrong",
    "Verif.ExtEnum.lowerBound_mem",
    "Verif.ExtEnum.lowerBound_eq_partial",
    "Verif.ExtEnum.lowerBound_high",
    "Verif.ExtEnum.lowerBound_off_wrong",
    "Verif.ExtEnum.upperBound_eq_partial",
    "Verif.ExtEnum.upperBound_last_wrong",
    "Verif.ExtEnum.findKey_eq",
    "Verif.ExtEnum.lowerBound_empty_range_wrong",
    "Verif.ExtEnum.minusAssign_wrong",
    "Verif.ExtEnum.iterGe_wrong"
   ],
   "note": "ext_range_array_enum for every base set, range function, insertion position and dependence position. Rank is the place in the lexicographic order and is onto 0..size-1 (all sizes). Indexing inverts it for less than 2^31 arrays; with 2^31 or more it fails because begin() sums in an int (unrank_wrong). setup dereferences an empty map for an empty base set. lower_bound is right for positive ranges except where it dereferences the end (lowerBound_off_wrong gives exactly these keys), always right for tuples of the set. Not modelled: the increment of the iterator (next_it) and the outer class ext_array_enum."
  },
  {
   "property": "C06",
   "status": "proved",
   "theorems": [
    "Verif.DofMap.unite_numbering",
    "Verif.DofMap.unite_counts",
    "Verif.DofMap.valid_index"
   ],
   "note": ""
  },
  {
   "property": "C07",
   "status": "proved",
   "theorems": [
    "Verif.DofMap.product_blocks",
    "Verif.DofMap.product_number",
    "Verif.DofMap.product_counts",
    "Verif.DofMap.product_numbering",
    "Verif.DofMap.tree_numbering",
    "Verif.DofMap.product_tree_numbering"
   ],
   "note": "Over the base contract (counters right, conversions inverse); products nested to any depth included."
  },
  {
   "property": "C08",
   "status": "partial",
   "theorems": [
    "Verif.DofMap.power_blocks",
    "Verif.DofMap.power_numbering",
    "Verif.DofMap.power_number_partial",
    "Verif.DofMap.power_number_wrong",
    "Verif.DofMap.power_number_wrong_general"
   ],
   "note": "Number to place is proved to be a bijection. Place to number is wrong in the code (division by the count per tetrahedron); proved wrong for every second component on nodes, edges, faces; right for cell d.o.f.s and the first component."
  },
  {
   "property": "C09",
   "status": "proved",
   "theorems": [
    "Verif.DofMap.mul_layout",
    "Verif.DofMap.mul_defined",
    "Verif.DofMap.mul_empty_undefined",
    "Verif.DofMap.pow_layout",
    "Verif.DofMap.merge_layout",
    "Verif.DofMap.mergeSimplified_defined"
   ],
   "note": ""
  },
  {
   "property": "C10",
   "status": "proved",
   "theorems": [
    "Verif.DofMap.view_slice",
    "Verif.DofMap.view_number",
    "Verif.DofMap.view_of_product",
    "Verif.DofMap.view_of_power",
    "Verif.DofMap.view_path",
    "Verif.DofMap.view_one_none",
    "Verif.DofMap.view_valid",
    "Verif.DofMap.view_valid_place"
   ],
   "note": ""
  },
  {
   "property": "C11",
   "status": "partial",
   "theorems": [
    "Verif.GeomIter.wf_none",
    "Verif.GeomIter.wf_union",
    "Verif.GeomIter.wf_inter",
    "Verif.GeomIter.wf_diff",
    "Verif.GeomIter.wf_xor",
    "Verif.GeomIter.wf_set",
    "Verif.GeomIter.wf_unset",
    "Verif.GeomIter.unite_iterate",
    "Verif.GeomIter.iterate_partial",
    "Verif.GeomIter.product_skips",
    "Verif.GeomIter.power_of_product_skips",
    "Verif.GeomIter.not_increasing",
    "Verif.GeomIter.complement_wrong",
    "Verif.GeomIter.geom_order_skips",
    "Verif.Gather.power_geom_iterate",
    "Verif.Gather.geomOk_product"
   ],
   "note": "Primitive maps and their powers: proved for every set in both orders; products of these that do not mix two kinds of edge or face d.o.f.s: proved in the geometric order for the sets of all elements of one dimension. Powers/products: proved for trees of the described regular shape in default order; the code skips d.o.f.s for other shapes (witnesses), and visits in order of components, not of numbers."
  },
  {
   "property": "C12",
   "status": "proved",
   "theorems": [
    "Verif.Sparsity.set_iff",
    "Verif.Sparsity.unset_iff",
    "Verif.Sparsity.setDim_iff",
    "Verif.Sparsity.algebra_iff",
    "Verif.Sparsity.elemsIds_spec",
    "Verif.Sparsity.beginPosDim_spec",
    "Verif.Sparsity.nextPosOnDim_spec"
   ],
   "note": "All masks, all elements."
  },
  {
   "property": "C13",
   "status": "partial",
   "theorems": [
    "Verif.Symmetry.index_correct",
    "Verif.Symmetry.index_bijective",
    "Verif.Symmetry.index_id_partial",
    "Verif.Symmetry.index_id_wrong",
    "Verif.Symmetry.index_comp_partial",
    "Verif.Symmetry.index_comp_wrong",
    "Verif.Symmetry.index_comp",
    "Verif.Symmetry.index_comp_sorted_face_partial",
    "Verif.Symmetry.index_agree",
    "Verif.Symmetry.locSym_spec",
    "Verif.Symmetry.reorder_bijective",
    "Verif.Symmetry.remap_correct",
    "Verif.Symmetry.permToRepr_correct",
    "Verif.Symmetry.stabilizer_partial",
    "Verif.Symmetry.stabilizer_cell_wrong"
   ],
   "note": "Bijection and meaning proved for all; identity and composition fail on faces 341, 412 (witnesses), proved elsewhere."
  },
  {
   "property": "C14",
   "status": "proved",
   "theorems": [
    "Verif.RawMemory.plain_safe",
    "Verif.RawMemory.plain_enough",
    "Verif.RawMemory.plain_padding_needed",
    "Verif.RawMemory.plainX_safe",
    "Verif.RawMemory.plainX_enough",
    "Verif.RawMemory.plainX_failure",
    "Verif.RawMemory.stale_size",
    "Verif.RawMemory.allocPlain_safe",
    "Verif.RawMemory.enoughPlain_spec"
   ],
   "note": "Any address, sizes, alignments; no wrap-around of size_t."
  },
  {
   "property": "C15",
   "status": "partial",
   "theorems": [
    "Verif.DynMem.live_inside",
    "Verif.DynMem.counters_right",
    "Verif.DynMem.alloc_gives",
    "Verif.DynMem.defragment_live",
    "Verif.DynMem.no_overlap_partial",
    "Verif.DynMem.no_overlap_stack_partial",
    "Verif.DynMem.no_overlap_lifo",
    "Verif.DynMem.parts_overlap"
   ],
   "note": "Inside-the-chunk and no dangling: all histories. No overlap: histories that do not allocate from a chunk after an out-of-order release in it; false otherwise (witness)."
  },
  {
   "property": "C16",
   "status": "partial",
   "theorems": [
    "Verif.ThreadMem.held_once",
    "Verif.ThreadMem.alloc_fresh",
    "Verif.ThreadMem.allocRange_fresh",
    "Verif.ThreadMem.alloc_reuses",
    "Verif.ThreadMem.allocRange_reuses_partial",
    "Verif.ThreadMem.allocRange_grows",
    "Verif.ThreadMem.double_release"
   ],
   "note": "Exclusivity proved for all legal histories. Reuse proved for single slots; ranges are not taken from unused slots while anything is held (growth proved)."
  },
  {
   "property": "C17",
   "status": "partial",
   "theorems": [
    "Verif.ParFor.ranges_partition_partial",
    "Verif.ParFor.ranges_balanced_partial",
    "Verif.ParFor.thread_numbers",
    "Verif.ParFor.ranges_wrong_large"
   ],
   "note": "For iteration counts below 2^32 (32-bit batch variables); the failure beyond is proved too."
  },
  {
   "property": "C18",
   "status": "proved",
   "theorems": [
    "Verif.Geometry.inverse_det",
    "Verif.Geometry.inverse_correct",
    "Verif.Geometry.inverse_frame",
    "Verif.Geometry.cross_orthogonal",
    "Verif.Geometry.cross_norm",
    "Verif.Geometry.cross_triple",
    "Verif.Geometry.cross3_eq",
    "Verif.Geometry.triArea_correct",
    "Verif.Geometry.faceNormal_correct",
    "Verif.Geometry.faceNormal_order"
   ],
   "note": "Exact arithmetic over any (ordered) field with an exact square root."
  },
  {
   "property": "C19",
   "status": "proved",
   "theorems": [
    "Verif.Dense.cholesky_solves",
    "Verif.Dense.cholesky_rejects",
    "Verif.Dense.cholesky_in_place",
    "Verif.Dense.cholesky_memory",
    "Verif.Dense.cholesky_inverse_correct"
   ],
   "note": "Exact arithmetic, build without Eigen."
  },
  {
   "property": "C20",
   "status": "partial",
   "theorems": [
    "Verif.Dense.lu_factor",
    "Verif.Dense.lu_undefined_iff",
    "Verif.Dense.lu_solve_permuted",
    "Verif.Dense.lu_solves_partial",
    "Verif.Dense.lu_solves_small_partial",
    "Verif.Dense.lu_inverse_partial",
    "Verif.Dense.lu_solve_wrong",
    "Verif.Dense.lu_inverse_in_place_wrong",
    "Verif.Dense.lu_skip_inexact"
   ],
   "note": "The last exchange of LU_solve is wrong (witness of order 3); factorisation proved for all, result proved to be the solution exchanged by q twice, hence right when q is its own inverse (always for N <= 2)."
  },
  {
   "property": "C21",
   "status": "partial",
   "theorems": [
    "Verif.Enumerator.anitype_numbering",
    "Verif.Enumerator.anitype_inverse_partial",
    "Verif.Enumerator.anitype_inverse_wrong",
    "Verif.Enumerator.miniblocks_numbering_partial",
    "Verif.Enumerator.miniblocks_wrong",
    "Verif.Enumerator.miniblocks_locate",
    "Verif.Enumerator.ordered_total",
    "Verif.Enumerator.ordered_numbering",
    "Verif.Enumerator.ordered_index_partial",
    "Verif.Enumerator.ordered_tag_wrong",
    "Verif.Enumerator.ordered_inverse_partial",
    "Verif.Enumerator.ordered_inverse_first_wrong"
   ],
   "note": "SimpleEnumerator. ANITYPE: numbering proved; inverse look-up proved except for the first oriented d.o.f. of an element, where it reads out of range (proved). MINIBLOCKS: the forward formula is wrong as soon as a dimension has two elements with two d.o.f.s (proved). OrderedEnumerator: numbering proved for every arrangement and direction; the tags read out of range at the first oriented d.o.f. of an edge or a face, the inverse look-up rejects the first number of the process (both proved), and is proved for all other numbers below 2^31 d.o.f.s."
  },
  {
   "property": "C22",
   "status": "partial",
   "theorems": [
    "Verif.Enumerator.ranges_partition_partial",
    "Verif.Enumerator.matrSize_eq",
    "Verif.Enumerator.ranges_wrong"
   ],
   "note": "Proved when every process owns elements of all used dimensions or of none; false otherwise (witness). Contiguity of the global ids by process is an assumption about INMOST."
  },
  {
   "property": "C23",
   "status": "partial",
   "theorems": [
    "Verif.Enumerator.addrs_nodup",
    "Verif.Enumerator.recompose",
    "Verif.Enumerator.recompose_single",
    "Verif.Enumerator.split_partial",
    "Verif.Enumerator.split_fullIndex",
    "Verif.Enumerator.split_wrong",
    "Verif.Enumerator.splitVar_partial",
    "Verif.Enumerator.splitVar_wrong"
   ],
   "note": "Recomposition proved for all addresses; splitting proved for every place except the first oriented d.o.f. of an edge or face, where the code fails for all variables (proved)."
  },
  {
   "property": "C24",
   "status": "partial",
   "theorems": [
    "Verif.Ordering.reorderNodes_correct",
    "Verif.Ordering.det3_usual",
    "Verif.Ordering.collect_correct",
    "Verif.Ordering.collectPtr_wrong"
   ],
   "note": "Proved for the overload with handles, for all storage orders and handles of any type; exact coordinates. False for the overload with arrays of Node/Edge/Face, which copies only four of six edges (collectPtr_wrong)."
  },
  {
   "property": "C25",
   "status": "proved",
   "theorems": [
    "Verif.Ordering.createOrder_rank",
    "Verif.Ordering.createOrder_weak",
    "Verif.Ordering.createOrder_equal"
   ],
   "note": "Ids from any linearly ordered type; also ids with repetitions."
  },
  {
   "property": "C26",
   "status": "partial",
   "theorems": [
    "Verif.Ordering.edge_sign",
    "Verif.Ordering.edge_agree",
    "Verif.Ordering.face_sign_partial",
    "Verif.Ordering.face_agree_partial",
    "Verif.Ordering.face_sign_wrong",
    "Verif.Ordering.face_parity_wrong",
    "Verif.Ordering.cell_sign",
    "Verif.Ordering.placeNodes_correct",
    "Verif.Ordering.assemble_agrees_partial",
    "Verif.Ordering.assemble_agrees_edge",
    "Verif.Ordering.assemble_wrong",
    "Verif.Ordering.edge_involution"
   ],
   "note": "Edges proved. Faces: false (witnesses with positively ordered cells); proved under a condition on the opposite node. Renumbering inside of elements: proved where it is its own inverse, the assembler uses the inverse otherwise (witness)."
  },
  {
   "property": "C27",
   "status": "partial",
   "theorems": [
    "Verif.Csc.densify_expands",
    "Verif.Csc.densify_dense",
    "Verif.Csc.sparsify_collects",
    "Verif.Csc.sparsify_densify",
    "Verif.Csc.copyCSC_dense",
    "Verif.Csc.copyCSC_sparse",
    "Verif.Csc.fillTemplate_sparse",
    "Verif.Csc.fillTemplate_dense",
    "Verif.Csc.makeSparse_inert",
    "Verif.Csc.makeSparse_wrong"
   ],
   "note": "Proved for all patterns with increasing columns in a view with the true number of entries. False for views made by MatSparsityView::make_as_sparse, which stores the dense size as number of entries, so that the matrix is never expanded (makeSparse_wrong)."
  },
  {
   "property": "C28",
   "status": "partial",
   "theorems": [
    "Verif.Codes.decode_encode",
    "Verif.Codes.encode_decode",
    "Verif.Codes.encode_injective",
    "Verif.Codes.decode_undef",
    "Verif.Codes.decode_encode_unsigned_wrong",
    "Verif.Codes.decodeId_encodeId_partial",
    "Verif.Codes.decodeId_encodeId_wrong",
    "Verif.Codes.decodeId_thread_wrong"
   ],
   "note": "Global index codes proved where char is signed (false where it is unsigned, proved). Memory numbers: proved below 2^16, false above; defragmentation by thread number addresses slot 0 (proved)."
  },
  {
   "property": "C29",
   "status": "proved",
   "theorems": [
    "Verif.Assembly.merge_exact",
    "Verif.Assembly.merge_one_by_one",
    "Verif.Assembly.template_add",
    "Verif.Assembly.template_add_missing",
    "Verif.Assembly.columns_sorted"
   ],
   "note": "Any additive commutative group of values. 32-bit column numbers in the template mode."
  },
  {
   "property": "C30",
   "status": "proved",
   "theorems": [
    "Verif.Assembly.assembly_exact",
    "Verif.Assembly.assembly_same",
    "Verif.Assembly.rhs_exact",
    "Verif.Locking.locked_serial",
    "Verif.Locking.locked_progress",
    "Verif.Locking.unlocked_wrong",
    "Verif.Locking.run_exists"
   ],
   "note": "Values in any additive commutative group (exact arithmetic); every distribution over threads and every interleaving of lock, load, store, unlock. LockService and Sparse::Row of INMOST are taken as specified. unlocked_wrong is about the same steps without the locks and shows that they are needed; it is not a violation by the code."
  },
  {
   "property": "C31",
   "status": "proved",
   "theorems": [
    "Verif.Assembly.template_exact",
    "Verif.Assembly.template_keeps"
   ],
   "note": "Any number of threads, any schedule, any later options."
  },
  {
   "property": "C32",
   "status": "proved",
   "theorems": [
    "Verif.Assembly.status_eq",
    "Verif.Assembly.status_iff",
    "Verif.Assembly.rhs_status_iff"
   ],
   "note": "Exactly the values looked at count: entries of the pattern in rows of the process."
  },
  {
   "property": "C33",
   "status": "partial",
   "theorems": [
    "Verif.OrderTable.table_entries",
    "Verif.OrderTable.table_right_partial",
    "Verif.OrderTable.table_place_partial",
    "Verif.OrderTable.table_wrong",
    "Verif.OrderTable.table_component_wrong"
   ],
   "note": "Proved for scalar variables, one component and cells; for vectors the component is wrong (proved), the place of storage is right below elems*nd and two d.o.f.s collide when the vector has more components than the tetrahedron has elements of the kind (proved)."
  },
  {
   "property": "C34",
   "status": "proved",
   "theorems": [
    "Verif.Spaces.p0_dual",
    "Verif.Spaces.p1_dual",
    "Verif.Spaces.p2_dual",
    "Verif.Spaces.p3_dual",
    "Verif.Spaces.b2_dual",
    "Verif.Spaces.b4_dual",
    "Verif.Spaces.cr1_dof",
    "Verif.Spaces.cr1_dual",
    "Verif.Spaces.rt0_dual",
    "Verif.Spaces.nd0_dual",
    "Verif.Spaces.p1_unity",
    "Verif.Spaces.p2_unity",
    "Verif.Spaces.p3_unity",
    "Verif.Spaces.cr1_unity",
    "Verif.Spaces.single_atTet",
    "Verif.Spaces.basis_exists"
   ],
   "note": "Exact arithmetic over any ordered field with an exact square root; either orientation; any numbers of points and fused tetrahedrons; any quadrature rule of total weight one (CR1: exact for linear functions)."
  },
  {
   "property": "C35",
   "status": "proved",
   "theorems": [
    "Verif.Spaces.p0_grad",
    "Verif.Spaces.p0_dudx",
    "Verif.Spaces.p1_grad",
    "Verif.Spaces.p1_dudx",
    "Verif.Spaces.p2_grad",
    "Verif.Spaces.p3_grad",
    "Verif.Spaces.b2_grad",
    "Verif.Spaces.b4_grad",
    "Verif.Spaces.cr1_grad",
    "Verif.Spaces.rt0_grad",
    "Verif.Spaces.rt0_div",
    "Verif.Spaces.rt0_curl",
    "Verif.Spaces.nd0_grad",
    "Verif.Spaces.nd0_div",
    "Verif.Spaces.nd0_curl"
   ],
   "note": "Real numbers, derivatives along all directions; results at the positions of memory the code writes, including the in-place expansion of the ND0 gradient."
  },
  {
   "property": "C36",
   "status": "partial",
   "theorems": [
    "Verif.Spaces.p0_eval",
    "Verif.Spaces.p1_eval",
    "Verif.Spaces.p2_eval",
    "Verif.Spaces.b2_eval",
    "Verif.Spaces.b4_eval",
    "Verif.Spaces.cr1_eval",
    "Verif.Spaces.p3_eval_partial",
    "Verif.Spaces.p3_eval_swapped",
    "Verif.Spaces.p3_eval_wrong",
    "Verif.Spaces.rt0_eval_wrong",
    "Verif.Spaces.nd0_eval_wrong",
    "Verif.Spaces.nd0_eval_range_wrong",
    "Verif.Spaces.rt0_eval_sign",
    "Verif.Spaces.nd0_eval_factor"
   ],
   "note": "P0, P1, P2, CR1, bubbles proved. P3: functions 17 and 19 interchanged (proved). RT0, ND0: eval always throws (proved); with the intended determinant the signs, the factor and the table strides would still be wrong."
  },
  {
   "property": "C37",
   "status": "proved",
   "theorems": [
    "Verif.Quad.segment_exact",
    "Verif.Quad.triangle_exact",
    "Verif.Quad.tetrahedron_exact",
    "Verif.Quad.tetrahedron_exact_affine"
   ],
   "note": "All orders and all real polynomials, error at most 10^-48 times the sum of the absolute coefficients. The tabulated decimals are exact fractions in the model; the later rounding to double is not modelled."
  },
  {
   "property": "C38",
   "status": "proved",
   "theorems": [
    "Verif.Quad.segment_proper",
    "Verif.Quad.triangle_proper",
    "Verif.Quad.tetrahedron_proper",
    "Verif.Quad.segment_rejects",
    "Verif.Quad.triangle_rejects",
    "Verif.Quad.tetrahedron_rejects"
   ],
   "note": "All tables. The symmetry is exact but for the tetrahedron rules of orders 2 to 12, whose decimals are symmetric up to 10^-119."
  },
  {
   "property": "C39",
   "status": "proved",
   "theorems": [
    "Verif.Dirichlet.dir_exact",
    "Verif.Dirichlet.dir_symm",
    "Verif.Dirichlet.dir_posDef",
    "Verif.Dirichlet.dir_order",
    "Verif.Dirichlet.dir_list_exact",
    "Verif.Dirichlet.dir_twice",
    "Verif.Dirichlet.dirResidual_exact",
    "Verif.Dirichlet.dirNonExists_exact"
   ],
   "note": "Any field, any (also rectangular) system; order independence is equality of the whole memory."
  },
  {
   "property": "C40",
   "status": "partial",
   "theorems": [
    "Verif.Dirichlet.vecDir_general",
    "Verif.Dirichlet.vecDir_exact_partial",
    "Verif.Dirichlet.vecDir_variational_partial",
    "Verif.Dirichlet.vecDir_last",
    "Verif.Dirichlet.vecDir_wrong",
    "Verif.Dirichlet.vecDirResidual_exact",
    "Verif.Dirichlet.extCol_exact",
    "Verif.Dirichlet.extRow_exact",
    "Verif.Dirichlet.vecDir_defined",
    "Verif.Dirichlet.vecDir_memory_partial",
    "Verif.Dirichlet.vecDir_memory_wrong"
   ],
   "note": "Proved for one direction, for any number of directions of which only the first has a nonzero value, and for Newton steps. With two nonzero values the imposed value is wrong (witness; the exact result is vecDir_general). With one component the documented work memory is overrun (proved)."
  },
  {
   "property": "C41",
   "status": "partial",
   "theorems": [
    "Verif.Fused.atMulB_exact",
    "Verif.Fused.atMulB_frame",
    "Verif.Fused.aMulB_general",
    "Verif.Fused.aMulB_exact_partial",
    "Verif.Fused.aMulB_wrong"
   ],
   "note": "A^T B proved. A B proved for one block or cleared memory; false otherwise (proved for all factors): only the first block of the result is cleared."
  },
  {
   "property": "C42",
   "status": "proved",
   "theorems": [
    "Verif.Geometry.baryCoord_correct",
    "Verif.Geometry.baryCoordPsi_correct",
    "Verif.Geometry.physPoint_correct",
    "Verif.Geometry.tetGeom_measure",
    "Verif.Geometry.bary_unique",
    "Verif.Geometry.bary_variants_agree",
    "Verif.Geometry.bary_roundtrip"
   ],
   "note": "Exact arithmetic over any field."
  },
  {
   "property": "C43",
   "status": "partial",
   "theorems": [
    "Verif.Enumerator.arrange_iff",
    "Verif.Enumerator.arrangement_arrange",
    "Verif.Enumerator.ordered_lt",
    "Verif.Enumerator.ordered_gid_lt_partial",
    "Verif.Enumerator.ordered_gid_wrong"
   ],
   "note": "Proved with the element counted by its place among the elements of its kind on the process; with global ids, as the header says, it holds when the kind precedes the element in the arrangement and fails otherwise (witness)."
  },
  {
   "property": "C44",
   "status": "partial",
   "theorems": [
    "Verif.Elemental.applyDU_exact",
    "Verif.Elemental.applyDU_selection_partial",
    "Verif.Elemental.applyDU_throws",
    "Verif.Elemental.applyDU_selection_wrong",
    "Verif.Elemental.applyDUFusive_exact",
    "Verif.Elemental.fem3Dtet_of_isDU",
    "Verif.Elemental.fem3Dtet_exact",
    "Verif.Elemental.fem3Dtet_selection_partial",
    "Verif.Elemental.fem3Dtet_fusive_exact",
    "Verif.Elemental.convToBand_ok",
    "Verif.Elemental.convToBand_val"
   ],
   "note": "Proved for every overload but one: with a full tensor of a type common to the selection, the tensor function gets the number of the first tetrahedron for all (applyDU_selection_wrong); proved there for tensors which do not use the number. Any commutative ring, any contents of memory."
  },
  {
   "property": "C45",
   "status": "partial",
   "theorems": [
    "Verif.Elemental.fem3DApply_partial",
    "Verif.Elemental.fem3DApply_cleared_partial",
    "Verif.Elemental.fem3DApply_wrong",
    "Verif.Elemental.fem3DApply_parts_wrong",
    "Verif.Elemental.fem3DApplyD_of_isDU",
    "Verif.Elemental.fem3DApplyD_partial"
   ],
   "note": "Proved for one tetrahedron (all operators, with and without tensor). With several tetrahedra at once it fails: one part, only the first block of the result is cleared (for all operators); several parts, the number of columns is divided by the number of tetrahedra (witness)."
  },
  {
   "property": "C46",
   "status": "partial",
   "theorems": [
    "Verif.OpStack.leaf_correct",
    "Verif.OpStack.vec_correct",
    "Verif.OpStack.cplx_correct",
    "Verif.OpStack.union_correct",
    "Verif.OpStack.vecDiv_correct",
    "Verif.OpStack.vecCurl_correct",
    "Verif.OpStack.baseCurl_correct",
    "Verif.OpStack.baseDiv_partial",
    "Verif.OpStack.baseDiv_rows_wrong",
    "Verif.OpStack.div111_partial",
    "Verif.OpStack.div111_busy_wrong",
    "Verif.OpStack.div12_partial",
    "Verif.OpStack.div12_busy_wrong",
    "Verif.OpStack.baseDudx_partial",
    "Verif.OpStack.baseDudx_wrong",
    "Verif.OpStack.pair_correct",
    "Verif.OpStack.fem3DtetX_exact"
   ],
   "note": "Proved for IDEN, GRAD, DUDX of vector, product and union spaces of any depth, DIV and CURL of vector spaces, CURL of products, for any stack and memory, and for the elemental matrix of two such operators. It fails for the default DIV (rows end at 3), the default DUDX of gradients with several parts, and the divergences of products of spaces, which do not advance the stack pointer, so that the next operator overwrites the block matrix (proved for all such spaces); the values there are right (partial theorems)."
  },
  {
   "property": "C47",
   "status": "partial",
   "theorems": [
    "Verif.Interp.p0_unisolvent",
    "Verif.Interp.p1_unisolvent",
    "Verif.Interp.p2_unisolvent",
    "Verif.Interp.p3_unisolvent",
    "Verif.Interp.b2_unisolvent",
    "Verif.Interp.b4_unisolvent",
    "Verif.Interp.cr1_unisolvent",
    "Verif.Interp.rt0_unisolvent",
    "Verif.Interp.nd0_unisolvent",
    "Verif.Interp.vec_interp_correct",
    "Verif.Interp.prod_interp_correct",
    "Verif.Interp.choose_interp_correct",
    "Verif.Interp.interp_projection",
    "Verif.Interp.byDofs_interp_correct",
    "Verif.Interp.byDofsVec_interp_correct",
    "Verif.Interp.union_recovers_iff",
    "Verif.Interp.allL_place",
    "Verif.Interp.union_transfer",
    "Verif.Interp.union_both",
    "Verif.Interp.p0_affine",
    "Verif.Interp.p1_affine",
    "Verif.Interp.p2_affine",
    "Verif.Interp.p3_affine",
    "Verif.Interp.b2_affine",
    "Verif.Interp.b4_affine",
    "Verif.Interp.cr1_affine",
    "Verif.Interp.vec_affine",
    "Verif.Interp.prod_affine",
    "Verif.Interp.union_affine",
    "Verif.Interp.union_setup_accurate",
    "Verif.Interp.union_setup_exact",
    "Verif.Interp.union_setup_succeeds_partial",
    "Verif.Interp.mini_recovers",
    "Verif.Interp.mini_setup_correct",
    "Verif.Interp.union_rt0_wrong"
   ],
   "note": "Proved for all basic spaces and for vectors and products of any depth; for unions exactly when the weights invert the matrix of functionals on functions, with an error bound for the weights of the set-up on the reference tetrahedron, carried to all tetrahedra for spaces built on barycentric coordinates (P0-P3, bubbles, CR1 and their vectors, products, unions). Missing: unions with RT0 or ND0, where the claim is false (proved for RT0 + B4^3). Exact arithmetic."
  },
  {
   "property": "C48",
   "status": "partial",
   "theorems": [
    "Verif.Region.region_best",
    "Verif.Region.region_throws",
    "Verif.Region.region_fits",
    "Verif.Region.region_recovers",
    "Verif.Region.edge_at",
    "Verif.Region.face_at",
    "Verif.Region.face_nodes",
    "Verif.Region.cell_points",
    "Verif.Region.xyg_eq",
    "Verif.Region.edge_points_partial",
    "Verif.Region.face_points_partial",
    "Verif.Region.edge_points_wrong",
    "Verif.Region.face_points_wrong",
    "Verif.Region.region_edge_wrong",
    "Verif.Region.region_members_partial",
    "Verif.Region.region_cell_recovers"
   ],
   "note": "Least squares optimality, uniqueness, the exception and recovery of members on the cell are proved. On edges and faces the points are right only if the work memory was cleared before: the coordinates outside are never written (theorems *_wrong); *_partial assume cleared memory or coordinates with the sum one."
  },
  {
   "property": "C49",
   "status": "proved",
   "theorems": [
    "Verif.Trace.p1_vanishes",
    "Verif.Trace.p2_vanishes",
    "Verif.Trace.p3_vanishes",
    "Verif.Trace.b2_vanishes",
    "Verif.Trace.b4_vanishes",
    "Verif.Trace.p1_continuous",
    "Verif.Trace.p2_continuous",
    "Verif.Trace.p3_continuous",
    "Verif.Trace.b2_continuous",
    "Verif.Trace.outer_unique",
    "Verif.Trace.rt0_normal",
    "Verif.Trace.rt0_normal_sum",
    "Verif.Trace.rt0_continuous",
    "Verif.Trace.nd0_along",
    "Verif.Trace.nd0_vanishes",
    "Verif.Trace.nd0_continuous"
   ],
   "note": "For every pair of tetrahedra sharing a face and every numbering. CR1 is continuous only in the mean by design and P0 not at all; they are not part of the claim."
  },
  {
   "property": "C50",
   "status": "partial",
   "theorems": [
    "Verif.DofCoord.p1At_correct",
    "Verif.DofCoord.p2At_correct",
    "Verif.DofCoord.b2At_correct",
    "Verif.DofCoord.p3At_partial",
    "Verif.DofCoord.p3At_swap",
    "Verif.DofCoord.p3At_wrong",
    "Verif.DofCoord.p0At_eq",
    "Verif.DofCoord.p0At_partial",
    "Verif.DofCoord.p0At_wrong",
    "Verif.DofCoord.cr1At_next",
    "Verif.DofCoord.cr1At_wrong",
    "Verif.DofCoord.vecAt_correct"
   ],
   "note": "P1, P2, B2 and vectors of them proved. P0 only if the result was cleared, P3 except 17 and 19 (interchanged), CR1 returns the point of the next face (all proved). Products and unions do not compile."
  },
  {
   "property": "C51",
   "status": "partial",
   "theorems": [
    "Verif.CtOp.fix_correct",
    "Verif.CtOp.vec_correct",
    "Verif.CtOp.vecT_correct",
    "Verif.CtOp.com_correct",
    "Verif.CtOp.union_correct",
    "Verif.CtOp.union_one_correct",
    "Verif.CtOp.union_one_dudx_wrong",
    "Verif.CtOp.dudx_correct",
    "Verif.CtOp.div_correct",
    "Verif.CtOp.curl_correct",
    "Verif.CtOp.pair_correct",
    "Verif.CtOp.fem3DtetC_exact"
   ],
   "note": "Proved for all compositions; it fails only for DUDX of a union of a single type without own DUDX (proved for all such types)."
  },
  {
   "property": "C52",
   "status": "partial",
   "theorems": [
    "Verif.Order.rt_iden_degree",
    "Verif.Order.rt_grad_degree",
    "Verif.Order.rt_dudx_suffices",
    "Verif.Order.rt_div_partial",
    "Verif.Order.rt_div_wrong",
    "Verif.Order.fix_order",
    "Verif.Order.ct_order_partial",
    "Verif.Order.ct_degree_partial",
    "Verif.Order.ct_com_wrong"
   ],
   "note": "Proved for simple spaces and for all run-time compositions for IDEN, GRAD, DUDX; it fails for DIV and CURL of run-time vectors of scalar spaces and for compile-time products (proved), where the theorems hold under stated conditions."
  },
  {
   "property": "C53",
   "status": "partial",
   "theorems": [
    "Verif.SpaceOp.ctOp_right",
    "Verif.SpaceOp.ctOp_defined",
    "Verif.SpaceOp.nth_exists",
    "Verif.SpaceOp.nth_unique",
    "Verif.SpaceOp.entry_unique",
    "Verif.SpaceOp.elemental_right",
    "Verif.SpaceOp.simple_ok",
    "Verif.SpaceOp.rtOp_right_partial",
    "Verif.SpaceOp.rtOp_defined",
    "Verif.SpaceOp.rtOp_refused",
    "Verif.SpaceOp.rtOp_onePart",
    "Verif.SpaceOp.nth_unique_rt",
    "Verif.SpaceOp.elemental_rt_partial",
    "Verif.SpaceOp.rtDiv_three_wrong"
   ],
   "note": "Compile-time spaces: sums of a single member are excluded (C51 shows that DUDX fails there). Run-time spaces: operators which need the divergence of a product of two or three spaces are excluded; that divergence is wrong (rtDiv_three_wrong, C46)."
  },
  {
   "property": "C54",
   "status": "partial",
   "theorems": [
    "Verif.Driver.setTet_right",
    "Verif.Driver.setFace_right",
    "Verif.Driver.setFaceN_right",
    "Verif.Driver.setEdge_right",
    "Verif.Driver.setNode_right",
    "Verif.Driver.setPntL_right_partial",
    "Verif.Driver.setPntL_wrong",
    "Verif.Driver.setPntX_right_partial",
    "Verif.Driver.setPntX_wrong",
    "Verif.Driver.runCt_right",
    "Verif.Driver.runRt_right_partial",
    "Verif.Driver.output_right",
    "Verif.Driver.output_exists",
    "Verif.Driver.setting_exists",
    "Verif.Driver.setting_poly",
    "Verif.Driver.fem3Dtet_exact_partial",
    "Verif.Driver.fem3Dface_exact_partial",
    "Verif.Driver.fem3DfaceN_exact_partial",
    "Verif.Driver.fem3Dedge_exact_partial",
    "Verif.Driver.fem3Dnode_exact_partial",
    "Verif.Driver.fem3DpntX_exact_partial",
    "Verif.Driver.fem3DpntL_exact_partial"
   ],
   "note": "Missing: tensors with the traits PerSelection (C44), run-time spaces on which C46 fails, rounding. fem3DpntX and fem3DpntL leave their arrays for some sizes of the arguments (_wrong)."
  },
  {
   "property": "C55",
   "status": "partial",
   "theorems": [
    "Verif.Eval.setL_right",
    "Verif.Eval.setX_right",
    "Verif.Eval.runCt_right",
    "Verif.Eval.runRt_right_partial",
    "Verif.Eval.runRtD_right_partial",
    "Verif.Eval.applyXStack_right_partial",
    "Verif.Eval.applyXStack_wrong",
    "Verif.Eval.applyLStack_right_partial",
    "Verif.Eval.applyLStack_wrong",
    "Verif.Eval.applyXPlain_right_partial",
    "Verif.Eval.applyXPlain_wrong",
    "Verif.Eval.applyLPlain_right_partial",
    "Verif.Eval.applyLPlain_cleared_partial",
    "Verif.Eval.applyLPlain_wrong",
    "Verif.Eval.applyLRt_right_partial",
    "Verif.Eval.applyXRt_right_partial",
    "Verif.Eval.applyLRtD_right_partial",
    "Verif.Eval.applyXRtD_right_partial",
    "Verif.Eval.basis_exists"
   ],
   "note": "Missing: several tetrahedrons at once except for simple spaces in cleared memory (the code is wrong otherwise), compile-time operators with several parts at several points in memory of exactly the demanded size (the code overruns it), more points than the arrays on the stack hold (the code overruns them), run-time spaces on which C46 fails, rounding."
  },
  {
   "property": "C56",
   "status": "partial",
   "theorems": [
    "Verif.AutoDiff.run_right_partial",
    "Verif.AutoDiff.run_deriv_partial",
    "Verif.AutoDiff.run_deriv2_partial",
    "Verif.AutoDiff.run_symm_partial",
    "Verif.AutoDiff.div_wrong",
    "Verif.AutoDiff.div_var_wrong",
    "Verif.AutoDiff.hypot_one_wrong",
    "Verif.AutoDiff.hypot_first_wrong",
    "Verif.Strain.energy_partial",
    "Verif.Strain.neoHooke_right",
    "Verif.Strain.over_I1_wrong"
   ],
   "note": "Missing: Hessians of quotients whose denominator declares no second derivative (the code is wrong there), hypot of one argument that is not positive and hypot whose first argument carries fewer orders than the others (the code is wrong there), rounding, the packed storage of the tensors."
  },
  {
   "property": "C57",
   "status": "partial",
   "theorems": [
    "Verif.Tensor.sym_numbering",
    "Verif.Tensor.sym_shared",
    "Verif.Tensor.symDup_count",
    "Verif.Tensor.symGet_full",
    "Verif.Tensor.symOfLower_get",
    "Verif.Tensor.symTensorSquare_get",
    "Verif.Tensor.symTensorSymMul2_get",
    "Verif.Tensor.sym3TensorSymMul2_get",
    "Verif.Tensor.symDot_eq",
    "Verif.Tensor.symFrob_eq",
    "Verif.Tensor.sym3Dot_eq",
    "Verif.Tensor.sym3Frob_eq",
    "Verif.Tensor.symDotVec_eq",
    "Verif.Tensor.sym3DotVec_eq",
    "Verif.Tensor.symTrace_eq",
    "Verif.Tensor.sym3Trace_eq",
    "Verif.Tensor.symMul_get",
    "Verif.Tensor.sym3Mul_get",
    "Verif.Tensor.symIdentity_get",
    "Verif.Tensor.sym3Identity_get",
    "Verif.Tensor.symProd_get",
    "Verif.Tensor.symProd_iff_partial",
    "Verif.Tensor.symProd_wrong",
    "Verif.Tensor.sym3Prod_get",
    "Verif.Tensor.sym3Prod_wrong",
    "Verif.Tensor.mtxOf_get",
    "Verif.Tensor.mtxTranspose_get",
    "Verif.Tensor.mtxOfSym_get",
    "Verif.Tensor.mtxSym_get",
    "Verif.Tensor.mtxToSym_get",
    "Verif.Tensor.sym_round_trip",
    "Verif.Tensor.mtxTrace_eq",
    "Verif.Tensor.mtx3Trace_eq",
    "Verif.Tensor.mtxDot_eq",
    "Verif.Tensor.mtxFrob_eq",
    "Verif.Tensor.mtxDotVec_eq",
    "Verif.Tensor.mtxMul_get",
    "Verif.Tensor.mtx3Mul_get",
    "Verif.Tensor.mtxProd_get",
    "Verif.Tensor.mtx3Prod_get",
    "Verif.Tensor.mtxProdSym_get",
    "Verif.Tensor.symProdMtx_get",
    "Verif.Tensor.mixed_sums",
    "Verif.Tensor.mtxTensorSquare_get",
    "Verif.Tensor.mtxTensorSymMul2_get",
    "Verif.Tensor.mtxIdentity_get",
    "Verif.Tensor.sym3Det_eq",
    "Verif.Tensor.sym3Adj_eq",
    "Verif.Tensor.sym3Inv_eq",
    "Verif.Tensor.mtx3Det_eq",
    "Verif.Tensor.mtx3Adj_eq",
    "Verif.Tensor.mtx3Inv_eq",
    "Verif.Tensor.st_shared",
    "Verif.Tensor.st_index",
    "Verif.Tensor.products",
    "Verif.Tensor.dots",
    "Verif.Tensor.stToTen_get",
    "Verif.Tensor.tenToSt_get",
    "Verif.Tensor.st_round_trip",
    "Verif.Tensor.bs_shared",
    "Verif.Tensor.bsIndex_wrong",
    "Verif.Tensor.bs3_index",
    "Verif.Tensor.bs3_shared",
    "Verif.Tensor.bs3Dup_count",
    "Verif.Tensor.bs3Square_get",
    "Verif.Tensor.bs3SymMul2_get",
    "Verif.Tensor.bs3Dot_eq",
    "Verif.Tensor.bs3Identity_get",
    "Verif.Tensor.bs3ToTen_get",
    "Verif.Tensor.tenToBs3_get",
    "Verif.Tensor.bs3ToSt_get",
    "Verif.Tensor.stToBs3_get",
    "Verif.Tensor.bs3Get_symm",
    "Verif.Tensor.bs3_round_trip"
   ],
   "note": "Missing: products of symmetric matrices that do not commute and the generic inverse numbering of bisymmetric tensors (the code is wrong there), rounding (generic determinant and inverse: C72)."
  },
  {
   "property": "C58",
   "status": "proved",
   "theorems": [
    "Verif.Strain.I0_right",
    "Verif.Strain.I1_right",
    "Verif.Strain.I2_right",
    "Verif.Strain.I3_right",
    "Verif.Strain.J_right",
    "Verif.Strain.I4_right",
    "Verif.Strain.I5_right",
    "Verif.Strain.fToE_spec",
    "Verif.Strain.gradToE_spec",
    "Verif.Strain.cauchy_of_F",
    "Verif.Strain.J_of_F",
    "Verif.Strain.fToDE_deriv",
    "Verif.Strain.gradToDE_deriv",
    "Verif.Strain.sToP_get",
    "Verif.Strain.dsToDP_get",
    "Verif.Strain.piola"
   ],
   "note": "Real numbers stand for double. Energies that are programs over these invariants: energy_partial under C56."
  },
  {
   "property": "C59",
   "status": "partial",
   "theorems": [
    "Verif.Dense.qr_orthonormal",
    "Verif.Dense.qr_upper",
    "Verif.Dense.qr_product",
    "Verif.Dense.qr_exact",
    "Verif.Dense.qr_exact_zero",
    "Verif.Dense.qr_tiny_wrong",
    "Verif.Dense.eigen_orthonormal",
    "Verif.Dense.eigen_vectors",
    "Verif.Dense.eigen_exact",
    "Verif.Dense.eigen_trace",
    "Verif.Dense.eigen_fail",
    "Verif.Dense.eigen_two",
    "Verif.Dense.eigen_idle_wrong",
    "Verif.Dense.eigen_idle_case_wrong",
    "Verif.Dense.svd_values",
    "Verif.Dense.svd_product",
    "Verif.Dense.svd_orthonormal_partial",
    "Verif.Dense.svd_orthonormal_wide_partial",
    "Verif.Dense.svd_completion_partial",
    "Verif.Dense.svd_two",
    "Verif.Dense.svd_rank_wrong",
    "Verif.Dense.svd_zero_wrong",
    "Verif.Dense.svd_completion_wrong"
   ],
   "note": "QR and the eigenvalues are complete (with the tolerances of the code). Missing for the SVD: the orthogonality of the larger of U and V, which does not hold. Not claimed: that 50 sweeps always suffice for three or more rows (false in general: eigen_idle_wrong). Real numbers stand for the scalars."
  },
  {
   "property": "C60",
   "status": "partial",
   "theorems": [
    "Verif.Demand.carveCt_fits",
    "Verif.Demand.carveRt_fits",
    "Verif.Demand.stack_fits",
    "Verif.Demand.ct_fits",
    "Verif.Demand.tensor_inside",
    "Verif.Demand.tensorMem_read",
    "Verif.Demand.du_inside",
    "Verif.Demand.normal_inside",
    "Verif.Demand.parts_inside",
    "Verif.Demand.matrix_inside",
    "Verif.Demand.integral_inside",
    "Verif.Demand.sizes_enough",
    "Verif.Demand.setTet_inside",
    "Verif.Demand.setFace_inside",
    "Verif.Demand.setFaceN_inside",
    "Verif.Demand.setEdge_inside",
    "Verif.Demand.setNode_inside",
    "Verif.Demand.setPntX_inside",
    "Verif.Demand.points_stack",
    "Verif.Demand.stack_enough_partial",
    "Verif.Demand.stack_points",
    "Verif.Demand.du_stack_wrong",
    "Verif.Demand.matrix_size_wrong"
   ],
   "note": "Complete for memory of the user. The versions with arrays on the stack only for operators of bounded size, which the code does not check (proved to fail otherwise). Overflow of int is not modelled."
  },
  {
   "property": "C61",
   "status": "partial",
   "theorems": [
    "Verif.SpaceAlg.complexSimplified_same",
    "Verif.SpaceAlg.mul_same",
    "Verif.SpaceAlg.mul_assoc",
    "Verif.SpaceAlg.unionSimplified_same",
    "Verif.SpaceAlg.add_same",
    "Verif.SpaceAlg.add_assoc",
    "Verif.SpaceAlg.pow_same",
    "Verif.SpaceAlg.mul_wf",
    "Verif.SpaceAlg.join_order",
    "Verif.SpaceAlg.join_dofs",
    "Verif.SpaceAlg.applied_congr",
    "Verif.SpaceAlg.mul_operators_partial",
    "Verif.SpaceAlg.add_operators_partial",
    "Verif.SpaceAlg.subSpace_part",
    "Verif.SpaceAlg.sym_orbits"
   ],
   "note": "The operators are proved to agree except for divergences that are already wrong on products (C46)."
  },
  {
   "property": "C62",
   "status": "partial",
   "theorems": [
    "Verif.SpaceAlg.eqS_iff",
    "Verif.SpaceAlg.eqS_equivalence",
    "Verif.SpaceAlg.eqS_sound_partial",
    "Verif.SpaceAlg.eqS_sound_noPower_partial",
    "Verif.SpaceAlg.run_shared_partial",
    "Verif.SpaceAlg.mulV_outside",
    "Verif.SpaceAlg.eqS_wrong",
    "Verif.SpaceAlg.shared_wrong"
   ],
   "note": "Sound when the powers have equal exponents; the full statement is false (VectorFemSpace::operator== ignores the exponent), and the drivers write past the end of the matrix then."
  },
  {
   "property": "C63",
   "status": "partial",
   "theorems": [
    "Verif.Metric.nodeMetric_metric",
    "Verif.Metric.clampSpectrum_metric",
    "Verif.Metric.spectralAbs_psd",
    "Verif.Metric.spectralAbs_dominates",
    "Verif.Metric.spectralAbs_square",
    "Verif.Metric.clampSpectrum_id",
    "Verif.Metric.nodeMetric_stable",
    "Verif.Metric.clampSpectrum_eye",
    "Verif.Metric.absHToM_law",
    "Verif.Metric.pickMaxDet_best",
    "Verif.Metric.geomMean_perm",
    "Verif.Metric.matrixExp_det",
    "Verif.Metric.matrixLog_trace",
    "Verif.Metric.geomMean_det_partial",
    "Verif.Metric.bestDegenerate_best",
    "Verif.Metric.countAbove_eq",
    "Verif.Metric.liftZero_above",
    "Verif.Metric.fillAlpha_split",
    "Verif.Metric.imax_max",
    "Verif.Metric.cellHessian_facts",
    "Verif.Metric.loadCell_storeCell",
    "Verif.Metric.clampAbs_wrong",
    "Verif.Metric.absHToM_small_wrong",
    "Verif.Metric.spectralAbs_idle_wrong",
    "Verif.Metric.weighted_useless_wrong"
   ],
   "note": "The bounds of the stored metric are proved without an assumption on the accuracy of the eigenvalues; that |H| is the absolute value is proved up to the tolerance of the Jacobi method when it succeeds, the determinant of the geometric mean for exact eigenvalues."
  },
  {
   "property": "C64",
   "status": "partial",
   "theorems": [
    "Verif.Diverge.divergence",
    "Verif.Metric.hessian_near",
    "Verif.Metric.hessian_exact",
    "Verif.Metric.hessian_constant",
    "Verif.Metric.hessian_driver_partial",
    "Verif.Metric.hessian_zero",
    "Verif.Metric.hessian_symm",
    "Verif.Metric.alpha_mean"
   ],
   "note": "The means are exact for exact matrices of the sides and within a stated bound for those of the drivers. Not covered: the run-time wrapper of the compile-time test space (ApplyOpFromTemplate) is taken as the run-time space of C46, and alpha_mean is stated for an exact matrix only."
  },
  {
   "property": "C65",
   "status": "partial",
   "theorems": [
    "Verif.BoxMesh.generate_defined",
    "Verif.BoxMesh.generate_cells",
    "Verif.BoxMesh.generate_conforming",
    "Verif.BoxMesh.generate_once",
    "Verif.BoxMesh.generate_disjoint",
    "Verif.BoxMesh.generate_covers",
    "Verif.BoxMesh.generate_oriented",
    "Verif.BoxMesh.fits_of_many",
    "Verif.BoxMesh.generate_inside_partial",
    "Verif.BoxMesh.generate_exceeds_wrong",
    "Verif.BoxMesh.generate_serial"
   ],
   "note": "Everything but the last clause holds for every number of processes; that no cell lies outside holds if the last process of every axis does not start beyond the end (always on one process) and is refuted otherwise."
  },
  {
   "property": "C66",
   "status": "partial",
   "theorems": [
    "Verif.Diffusion.gather_dirichlet",
    "Verif.Diffusion.gather_neumann_partial",
    "Verif.Diffusion.neumann_none_wrong",
    "Verif.Diffusion.neumann_ignored_wrong",
    "Verif.Diffusion.dirichlet_dofs",
    "Verif.Diffusion.addSides_eq",
    "Verif.Diffusion.dirByDofs_row",
    "Verif.Diffusion.assembled_iff",
    "Verif.Diffusion.cell_balance",
    "Verif.Diffusion.patch_free",
    "Verif.Diffusion.patch_test"
   ],
   "note": "The equivalence and the patch test hold for every set of Neumann sides the code marks; it marks the right ones for spaces with d.o.f.s on the sides and none at all for the others (refuted). The patch test assumes exact elemental integrals (C54 bounds their error by 10^-48 relative to the coefficients) and a conforming space (C49)."
  },
  {
   "property": "C67",
   "status": "partial",
   "theorems": [
    "Verif.GeomWalk.begin_head",
    "Verif.GeomWalk.step_follows",
    "Verif.GeomWalk.forEach_places",
    "Verif.GeomWalk.mem_places",
    "Verif.GeomWalk.places_nodup",
    "Verif.GeomWalk.begin_wrong"
   ],
   "note": "Proved for every mesh, list of variables and slice with the following exception, where the code is wrong (begin_wrong): slices wanting the oriented but not the unoriented d.o.f.s of edges (faces) although there are unoriented ones."
  },
  {
   "property": "C68",
   "status": "partial",
   "theorems": [
    "Verif.TagCopy.vecToTag_get",
    "Verif.TagCopy.vecToTag_frame",
    "Verif.TagCopy.tagToVec_get",
    "Verif.TagCopy.tagToVec_frame",
    "Verif.TagCopy.vecToTags_get",
    "Verif.TagCopy.vecToTags_frame",
    "Verif.TagCopy.tagsToVec_get",
    "Verif.TagCopy.vecToVarTag_get",
    "Verif.TagCopy.vec_round",
    "Verif.TagCopy.tag_round",
    "Verif.TagCopy.places_numbering",
    "Verif.TagCopy.tagToTags_get_partial",
    "Verif.TagCopy.tagToTags_frame_partial",
    "Verif.TagCopy.tagsToTag_get_partial",
    "Verif.TagCopy.tagsToTag_frame_partial",
    "Verif.TagCopy.split_join_partial",
    "Verif.TagCopy.tagToVarTag_get_partial",
    "Verif.TagCopy.varTagToTag_get_partial",
    "Verif.TagCopy.varTagToTag_frame_partial",
    "Verif.TagCopy.tagToVarTag_frame_partial",
    "Verif.TagCopy.tagToTag_eq",
    "Verif.TagCopy.varTagToVarTag_eq",
    "Verif.TagCopy.tagToTags_wrong"
   ],
   "note": "Copies from and to vectors are proved without restriction for numberings without repetition. Copies between the common array and the arrays of the variables are right below 256 unoriented d.o.f.s per edge or face and wrong otherwise (narrow integer). The exchange of ghost values is not modelled."
  },
  {
   "property": "C69",
   "status": "partial",
   "theorems": [
    "Verif.Reorder.reorder_represents",
    "Verif.Reorder.reorder_frame",
    "Verif.Reorder.reorder_compressed",
    "Verif.Reorder.takeDof_represents",
    "Verif.Reorder.takeDof_kept",
    "Verif.Reorder.reorder_back",
    "Verif.Reorder.mesh_represents",
    "Verif.Reorder.oriented_partial",
    "Verif.Reorder.oriented_wrong",
    "Verif.Reorder.edge_sign",
    "Verif.Reorder.face_sign_wrong"
   ],
   "note": "Proved for the unoriented values of a simple d.o.f. map without restriction. Oriented values are moved to the right places but never change their sign (oriented_wrong), so they are right only if the orientation of the element is kept (oriented_partial). Vector and composed d.o.f. maps are not modelled here."
  },
  {
   "property": "C70",
   "status": "partial",
   "theorems": [
    "Verif.LocalFn.system_partial",
    "Verif.LocalFn.two_functions",
    "Verif.LocalFn.one_function",
    "Verif.LocalFn.matrix_of_system_wrong",
    "Verif.LocalFn.matrix_of_system_partial",
    "Verif.LocalFn.rhs_of_system_wrong",
    "Verif.LocalFn.rhs_mixed_wrong",
    "Verif.LocalFn.rhs_pattern_wrong",
    "Verif.LocalFn.pattern_of_other_wrong",
    "Verif.LocalFn.failure_lost_wrong",
    "Verif.LocalFn.sysSizes_enough",
    "Verif.LocalFn.work_enough",
    "Verif.LocalFn.assign_wrong"
   ],
   "note": "Proved for two functions and for a single function asked for what it computes; for one function for both under the condition that a full matrix comes with a full right-hand side. The other cases fail: see the _wrong theorems."
  },
  {
   "property": "C71",
   "status": "partial",
   "theorems": [
    "Verif.FnMem.decode_encode",
    "Verif.FnMem.one_function",
    "Verif.FnMem.system_memory_partial",
    "Verif.FnMem.assemblings_partial",
    "Verif.FnMem.rhs_only_wrong",
    "Verif.FnMem.mat_only_wrong",
    "Verif.FnMem.defragment_wrong",
    "Verif.FnMem.busy_wrong",
    "Verif.FnMem.many_threads_wrong",
    "Verif.FnMem.single_wrong",
    "Verif.FnMem.single_release"
   ],
   "note": "Proved for a single function, and for two functions that both want memory or both do not, with idle pools and less than 65536 threads. The other cases fail: see the _wrong theorems."
  },
  {
   "property": "C72",
   "status": "partial",
   "theorems": [
    "Verif.Det.det_partial",
    "Verif.Det.triangular",
    "Verif.Det.det_zero",
    "Verif.Det.det_scaled_wrong",
    "Verif.Det.symDet_partial",
    "Verif.Det.symDet_wrong",
    "Verif.Det.inv_partial"
   ],
   "note": "Proved when the tolerance makes no difference (always for triangular matrices without small diagonal entries), for symmetric matrices if no small diagonal entry is met. Otherwise wrong (witnesses). The inverse under the condition of C20."
  },
  {
   "property": "C73",
   "status": "partial",
   "theorems": [
    "Verif.GidMap.gives",
    "Verif.GidMap.others_kept",
    "Verif.GidMap.again",
    "Verif.GidMap.stale_wrong",
    "Verif.GidMap.element_at",
    "Verif.GidMap.element_of",
    "Verif.GidMap.cont_runs",
    "Verif.GidMap.cont_single",
    "Verif.GidMap.cont_wrong"
   ],
   "note": "Proved when the maps are written by the call or the mesh is as it was then; maps of a changed mesh are wrong (witness), and so is the unused array of runs for several dimensions."
  },
  {
   "property": "C74",
   "status": "proved",
   "theorems": [
    "Verif.MeshInt.template_sum",
    "Verif.MeshInt.pts_eq",
    "Verif.MeshInt.batched_sum",
    "Verif.MeshInt.versions_agree",
    "Verif.MeshInt.processes_sum",
    "Verif.MeshInt.exact"
   ],
   "note": "In exact arithmetic; every schedule in which each id is processed once. Exactness up to 1e-48 relative to the coefficients (digits of the tables), as in C37."
  },
  {
   "property": "C75",
   "status": "partial",
   "theorems": [
    "Verif.Gather.power_geom_iterate",
    "Verif.Gather.geomOk_unite",
    "Verif.Gather.geomOk_power",
    "Verif.Gather.geomOk_product",
    "Verif.Gather.gather_partial",
    "Verif.Gather.product_wrong",
    "Verif.Gather.vars_partial",
    "Verif.Gather.component_place_wrong",
    "Verif.Gather.single_tag_array_wrong",
    "Verif.Gather.tags_checked",
    "Verif.Gather.vars_power",
    "Verif.Gather.vars_product",
    "Verif.Gather.tag_of_component_checked"
   ],
   "note": "Proved for primitive maps, their powers and products of these that do not mix the two kinds of edge or face d.o.f.s, and for all components whose map is of this form; false for mixing products. The two overloads place a component differently; an array of tags for a primitive map gathers nothing."
  },
  {
   "property": "C76",
   "status": "partial",
   "theorems": [
    "Verif.InterpConst.constant_partial",
    "Verif.InterpConst.constantSub_partial",
    "Verif.InterpConst.constantSub_eq",
    "Verif.InterpConst.constant_one",
    "Verif.InterpConst.set_closed",
    "Verif.InterpConst.p1_constant",
    "Verif.InterpConst.p2_constant",
    "Verif.InterpConst.p3_constant",
    "Verif.InterpConst.cr1_constant",
    "Verif.InterpConst.cr1_face_wrong",
    "Verif.InterpConst.mini_wrong"
   ],
   "note": "What is written: proved for the maps for which the loop of C11 is right. The value of the function: proved for P1, P2, P3 and their powers (and, by constantSub_eq and constant_one, for components and primitive spaces) on every closed element, for CR1 on the whole tetrahedron; false for CR1 on a face and for unions with bubbles."
  },
  {
   "property": "C77",
   "status": "partial",
   "theorems": [
    "Verif.VecIter.iterator_position",
    "Verif.VecIter.loop_range",
    "Verif.VecIter.comparisons_partial",
    "Verif.VecIter.ge_wrong"
   ],
   "note": "Positions, remembered values, the loop and five comparisons are proved; the sixth, >=, is false for all iterators."
  },
  {
   "property": "C78",
   "status": "partial",
   "theorems": [
    "Verif.VecIter.tags_safe",
    "Verif.VecIter.tags_owned_partial",
    "Verif.VecIter.assign_leaks_wrong"
   ],
   "note": "No double deletion and no deleted tag with an owner: proved for all histories. No leak: proved for histories without assignment to an owner which holds a tag, false for each such assignment."
  },
  {
   "property": "C79",
   "status": "partial",
   "theorems": [
    "Verif.NVector.linearSum_ok",
    "Verif.NVector.const_ok",
    "Verif.NVector.prod_ok",
    "Verif.NVector.div_ok",
    "Verif.NVector.scale_ok",
    "Verif.NVector.abs_ok",
    "Verif.NVector.inv_ok",
    "Verif.NVector.addConst_ok",
    "Verif.NVector.compare_ok",
    "Verif.NVector.invTest_ok",
    "Verif.NVector.constrMask_ok",
    "Verif.NVector.linearCombination_ok",
    "Verif.NVector.linearCombination_empty",
    "Verif.NVector.dot_ok",
    "Verif.NVector.dotMulti_ok",
    "Verif.NVector.l1_ok",
    "Verif.NVector.wl2Sq_ok",
    "Verif.NVector.maxNorm_ok",
    "Verif.NVector.minAll_ok",
    "Verif.NVector.minQuot_ok",
    "Verif.NVector.wrms_partial",
    "Verif.NVector.getLength_partial",
    "Verif.NVector.getLength_wrong",
    "Verif.NVector.wrms_wrong"
   ],
   "note": "All operations are proved for all arguments and processes except the length and the root mean square norm, which are right on one process only."
  },
  {
   "property": "C80",
   "status": "partial",
   "theorems": [
    "Verif.NVector.matvec_lost",
    "Verif.NVector.matvec_wrong",
    "Verif.NVector.code_success",
    "Verif.NVector.code_failed_partial",
    "Verif.NVector.code_swapped_wrong",
    "Verif.NVector.code_end",
    "Verif.NVector.assm_code"
   ],
   "note": "The outcome of assembling and the code of success are proved; the product of a matrix and a vector is never written, and two codes are exchanged."
  },
  {
   "property": "C81",
   "status": "partial",
   "theorems": [
    "Verif.KinParam.real_partial",
    "Verif.KinParam.int_ok",
    "Verif.KinParam.switch_ok",
    "Verif.KinParam.unknown_refused",
    "Verif.KinParam.table_published",
    "Verif.KinParam.text_ok",
    "Verif.KinParam.refused_wrong",
    "Verif.KinParam.damping_zero_wrong"
   ],
   "note": "Proved for values which KINSOL accepts and for unknown names; false for values which KINSOL refuses."
  },
  {
   "property": "C82",
   "status": "partial",
   "theorems": [
    "Verif.Dirichlet.byDofs_exact",
    "Verif.Dirichlet.byDofs_unpaired",
    "Verif.Dirichlet.residual_exact",
    "Verif.Dirichlet.residual_unpaired_wrong",
    "Verif.Dirichlet.nonExists_ent"
   ],
   "note": "Proved except for the residual when the test map has more d.o.f.s on the part than the trial map, where it is false."
  },
  {
   "property": "C83",
   "status": "partial",
   "theorems": [
    "Verif.Enumerator.lower_own",
    "Verif.Enumerator.lower_partial",
    "Verif.Enumerator.lower_reverse_partial",
    "Verif.Enumerator.lower_reverse_wrong",
    "Verif.Enumerator.lower_elem_first_wrong"
   ],
   "note": "Proved for the places of d.o.f.s of the process, and for all places of a used dimension if the order is not reversed, the kind is compared before the element and every used dimension has elements on the process; false in the reversed order and for the element before the kind."
  },
  {
   "property": "C84",
   "status": "partial",
   "theorems": [
    "Verif.Enumerator.glob_order_partial",
    "Verif.Enumerator.glob_new",
    "Verif.Enumerator.glob_base_wrong",
    "Verif.Enumerator.glob_type_wrong",
    "Verif.Enumerator.glob_setType",
    "Verif.Enumerator.ani_order",
    "Verif.Enumerator.ani_order_doc",
    "Verif.Enumerator.ani_order_wrong"
   ],
   "note": "Proved for the four types made by OrderedEnumerator but for the first oriented d.o.f.s, and for ANITYPE without oriented d.o.f.s (with them the order is another one, which is proved); false for enumerators given by pointer or value, and the unspecified type is accepted."
  },
  {
   "property": "C85",
   "status": "proved",
   "theorems": [
    "Verif.VarTag.tag_enough",
    "Verif.VarTag.tag_exact",
    "Verif.VarTag.tag_none"
   ],
   "note": ""
  },
  {
   "property": "C86",
   "status": "partial",
   "theorems": [
    "Verif.VarTag.its_partial",
    "Verif.VarTag.its_wrong"
   ],
   "note": "Proved below 1000 iterations, false from there on."
  }
 ]
}