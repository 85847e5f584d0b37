# Axioms of the theorems

Output of `#print axioms` for every theorem named in `MANIFEST.json`, grouped by the axioms.

## no axioms (9 theorems)

* `Verif.DofMap.power_number_wrong`
* `Verif.RawMemory.plain_padding_needed`
* `Verif.RawMemory.stale_size`
* `Verif.ThreadMem.double_release`
* `Verif.Csc.makeSparse_inert`
* `Verif.Codes.decode_undef`
* `Verif.Tensor.bs3Get_symm`
* `Verif.FnMem.many_threads_wrong`
* `Verif.KinParam.table_published`

## `propext` (34 theorems)

* `Verif.IntervalMap.unbounded_conflict_accepted`
* `Verif.IntervalMap.unbounded_conflict_accepted_left`
* `Verif.IntervalMap.full_line_lookup_fails`
* `Verif.ExtEnum.iterGe_wrong`
* `Verif.DofMap.valid_index`
* `Verif.Symmetry.index_id_partial`
* `Verif.Symmetry.index_id_wrong`
* `Verif.Symmetry.index_comp_wrong`
* `Verif.RawMemory.plainX_failure`
* `Verif.DynMem.parts_overlap`
* `Verif.Ordering.assemble_wrong`
* `Verif.Locking.unlocked_wrong`
* `Verif.Tensor.bs3_index`
* `Verif.Demand.tensorMem_read`
* `Verif.Demand.sizes_enough`
* `Verif.SpaceAlg.mul_assoc`
* `Verif.SpaceAlg.add_assoc`
* `Verif.SpaceAlg.mul_wf`
* `Verif.SpaceAlg.join_order`
* `Verif.SpaceAlg.sym_orbits`
* `Verif.SpaceAlg.eqS_iff`
* `Verif.SpaceAlg.eqS_equivalence`
* `Verif.SpaceAlg.eqS_sound_partial`
* `Verif.SpaceAlg.eqS_sound_noPower_partial`
* `Verif.SpaceAlg.eqS_wrong`
* `Verif.LocalFn.assign_wrong`
* `Verif.GidMap.others_kept`
* `Verif.GidMap.stale_wrong`
* `Verif.GidMap.cont_wrong`
* `Verif.VecIter.ge_wrong`
* `Verif.NVector.code_success`
* `Verif.NVector.code_failed_partial`
* `Verif.NVector.code_swapped_wrong`
* `Verif.NVector.code_end`

## `Quot.sound`, `propext` (163 theorems)

* `Verif.IntervalMap.contains_iff`
* `Verif.ExtEnum.setup_empty_wrong`
* `Verif.ExtEnum.unrank_out`
* `Verif.ExtEnum.unrank_wrong`
* `Verif.DofMap.product_counts`
* `Verif.DofMap.power_blocks`
* `Verif.DofMap.mul_defined`
* `Verif.DofMap.mul_empty_undefined`
* `Verif.DofMap.mergeSimplified_defined`
* `Verif.DofMap.view_of_product`
* `Verif.DofMap.view_of_power`
* `Verif.DofMap.view_path`
* `Verif.DofMap.view_one_none`
* `Verif.GeomIter.wf_none`
* `Verif.GeomIter.wf_union`
* `Verif.GeomIter.wf_inter`
* `Verif.GeomIter.wf_set`
* `Verif.GeomIter.product_skips`
* `Verif.GeomIter.power_of_product_skips`
* `Verif.GeomIter.not_increasing`
* `Verif.GeomIter.complement_wrong`
* `Verif.GeomIter.geom_order_skips`
* `Verif.Sparsity.set_iff`
* `Verif.Sparsity.setDim_iff`
* `Verif.Sparsity.nextPosOnDim_spec`
* `Verif.Symmetry.index_correct`
* `Verif.Symmetry.index_bijective`
* `Verif.Symmetry.index_agree`
* `Verif.Symmetry.remap_correct`
* `Verif.Symmetry.permToRepr_correct`
* `Verif.Symmetry.stabilizer_partial`
* `Verif.Symmetry.stabilizer_cell_wrong`
* `Verif.RawMemory.plain_safe`
* `Verif.RawMemory.plain_enough`
* `Verif.ThreadMem.allocRange_grows`
* `Verif.ParFor.ranges_partition_partial`
* `Verif.ParFor.ranges_balanced_partial`
* `Verif.ParFor.thread_numbers`
* `Verif.ParFor.ranges_wrong_large`
* `Verif.Geometry.inverse_frame`
* `Verif.Geometry.cross_orthogonal`
* `Verif.Geometry.cross_norm`
* `Verif.Geometry.cross3_eq`
* `Verif.Dense.lu_inverse_in_place_wrong`
* `Verif.Enumerator.miniblocks_locate`
* `Verif.Enumerator.ordered_inverse_first_wrong`
* `Verif.Ordering.det3_usual`
* `Verif.Ordering.collectPtr_wrong`
* `Verif.Ordering.createOrder_equal`
* `Verif.Ordering.placeNodes_correct`
* `Verif.Ordering.edge_involution`
* `Verif.Csc.copyCSC_dense`
* `Verif.Csc.copyCSC_sparse`
* `Verif.Csc.fillTemplate_dense`
* `Verif.Csc.makeSparse_wrong`
* `Verif.Codes.decode_encode`
* `Verif.Codes.encode_decode`
* `Verif.Codes.encode_injective`
* `Verif.Codes.decode_encode_unsigned_wrong`
* `Verif.Assembly.merge_exact`
* `Verif.Assembly.merge_one_by_one`
* `Verif.Assembly.template_add_missing`
* `Verif.Locking.locked_serial`
* `Verif.Locking.run_exists`
* `Verif.OrderTable.table_right_partial`
* `Verif.OrderTable.table_place_partial`
* `Verif.OrderTable.table_wrong`
* `Verif.OrderTable.table_component_wrong`
* `Verif.Spaces.p0_eval`
* `Verif.Spaces.rt0_eval_wrong`
* `Verif.Spaces.nd0_eval_wrong`
* `Verif.Spaces.nd0_eval_range_wrong`
* `Verif.Dirichlet.dir_symm`
* `Verif.Dirichlet.dirNonExists_exact`
* `Verif.Dirichlet.vecDir_defined`
* `Verif.Dirichlet.vecDir_memory_partial`
* `Verif.Dirichlet.vecDir_memory_wrong`
* `Verif.Fused.atMulB_frame`
* `Verif.Enumerator.ordered_gid_wrong`
* `Verif.Elemental.applyDU_throws`
* `Verif.Elemental.convToBand_ok`
* `Verif.Interp.byDofs_interp_correct`
* `Verif.Region.edge_at`
* `Verif.Region.face_at`
* `Verif.Region.cell_points`
* `Verif.Region.edge_points_wrong`
* `Verif.DofCoord.p1At_correct`
* `Verif.DofCoord.p0At_eq`
* `Verif.DofCoord.vecAt_correct`
* `Verif.Tensor.mtxOf_get`
* `Verif.Tensor.mtxTranspose_get`
* `Verif.Tensor.mtxIdentity_get`
* `Verif.Tensor.bs3Square_get`
* `Verif.Tensor.bs3SymMul2_get`
* `Verif.Tensor.tenToBs3_get`
* `Verif.Tensor.bs3ToSt_get`
* `Verif.Tensor.stToBs3_get`
* `Verif.Demand.normal_inside`
* `Verif.Demand.parts_inside`
* `Verif.Demand.matrix_inside`
* `Verif.Demand.integral_inside`
* `Verif.Demand.setTet_inside`
* `Verif.Demand.setFace_inside`
* `Verif.Demand.setFaceN_inside`
* `Verif.Demand.setNode_inside`
* `Verif.Demand.setPntX_inside`
* `Verif.Demand.stack_enough_partial`
* `Verif.Demand.du_stack_wrong`
* `Verif.SpaceAlg.mulV_outside`
* `Verif.Diffusion.neumann_none_wrong`
* `Verif.Diffusion.neumann_ignored_wrong`
* `Verif.GeomWalk.mem_places`
* `Verif.LocalFn.matrix_of_system_wrong`
* `Verif.LocalFn.rhs_of_system_wrong`
* `Verif.LocalFn.rhs_pattern_wrong`
* `Verif.LocalFn.pattern_of_other_wrong`
* `Verif.LocalFn.sysSizes_enough`
* `Verif.FnMem.decode_encode`
* `Verif.FnMem.defragment_wrong`
* `Verif.FnMem.single_wrong`
* `Verif.FnMem.single_release`
* `Verif.Det.det_zero`
* `Verif.GidMap.gives`
* `Verif.GidMap.element_at`
* `Verif.GidMap.element_of`
* `Verif.MeshInt.template_sum`
* `Verif.MeshInt.pts_eq`
* `Verif.MeshInt.processes_sum`
* `Verif.Gather.product_wrong`
* `Verif.Gather.single_tag_array_wrong`
* `Verif.Gather.tags_checked`
* `Verif.Gather.tag_of_component_checked`
* `Verif.InterpConst.set_closed`
* `Verif.VecIter.iterator_position`
* `Verif.VecIter.loop_range`
* `Verif.VecIter.comparisons_partial`
* `Verif.NVector.linearSum_ok`
* `Verif.NVector.const_ok`
* `Verif.NVector.prod_ok`
* `Verif.NVector.div_ok`
* `Verif.NVector.scale_ok`
* `Verif.NVector.abs_ok`
* `Verif.NVector.addConst_ok`
* `Verif.NVector.compare_ok`
* `Verif.NVector.linearCombination_ok`
* `Verif.NVector.linearCombination_empty`
* `Verif.NVector.dot_ok`
* `Verif.NVector.dotMulti_ok`
* `Verif.NVector.l1_ok`
* `Verif.NVector.wl2Sq_ok`
* `Verif.NVector.maxNorm_ok`
* `Verif.NVector.minAll_ok`
* `Verif.NVector.minQuot_ok`
* `Verif.NVector.wrms_partial`
* `Verif.NVector.getLength_partial`
* `Verif.NVector.matvec_lost`
* `Verif.NVector.matvec_wrong`
* `Verif.Enumerator.lower_elem_first_wrong`
* `Verif.Enumerator.glob_new`
* `Verif.Enumerator.glob_base_wrong`
* `Verif.Enumerator.glob_type_wrong`
* `Verif.Enumerator.glob_setType`
* `Verif.Enumerator.ani_order_wrong`

## `Classical.choice`, `Quot.sound`, `propext` (726 theorems)

* `Verif.IntervalEnum.size_eq`
* `Verif.IntervalEnum.findLeft_spec`
* `Verif.IntervalEnum.findLeft_out`
* `Verif.IntervalEnum.findRight_spec`
* `Verif.IntervalEnum.roundtrip_position`
* `Verif.IntervalEnum.roundtrip_value`
* `Verif.IntervalEnum.positions_ordered`
* `Verif.IntervalEnum.iterate_forward`
* `Verif.IntervalEnum.iterate_backward`
* `Verif.IntervalEnum.diff_positions`
* `Verif.IntervalEnum.containsRight_iff`
* `Verif.IntervalEnum.containsRight_iff_interval`
* `Verif.IntervalEnum.lowerBound_some`
* `Verif.IntervalEnum.lowerBound_end`
* `Verif.IntervalEnum.upperBound_some`
* `Verif.IntervalEnum.upperBound_end`
* `Verif.IntervalMap.insert_success_iff`
* `Verif.IntervalMap.insert_success`
* `Verif.IntervalMap.insert_failure`
* `Verif.IntervalMap.history_normal`
* `Verif.IntervalMap.history_refines`
* `Verif.IntervalMap.unbounded_accept_partial`
* `Verif.IntervalMap.unbounded_lookup_partial`
* `Verif.ExtEnum.setup_total`
* `Verif.ExtEnum.size_eq`
* `Verif.ExtEnum.rank_eq`
* `Verif.ExtEnum.rank_none`
* `Verif.ExtEnum.contains_iff`
* `Verif.ExtEnum.rank_lt_iff`
* `Verif.ExtEnum.rank_inj`
* `Verif.ExtEnum.rank_onto`
* `Verif.ExtEnum.unrank_rank_partial`
* `Verif.ExtEnum.rank_unrank_partial`
* `Verif.ExtEnum.lowerBound_mem`
* `Verif.ExtEnum.lowerBound_eq_partial`
* `Verif.ExtEnum.lowerBound_high`
* `Verif.ExtEnum.lowerBound_off_wrong`
* `Verif.ExtEnum.upperBound_eq_partial`
* `Verif.ExtEnum.upperBound_last_wrong`
* `Verif.ExtEnum.findKey_eq`
* `Verif.ExtEnum.lowerBound_empty_range_wrong`
* `Verif.ExtEnum.minusAssign_wrong`
* `Verif.DofMap.unite_numbering`
* `Verif.DofMap.unite_counts`
* `Verif.DofMap.product_blocks`
* `Verif.DofMap.product_number`
* `Verif.DofMap.product_numbering`
* `Verif.DofMap.tree_numbering`
* `Verif.DofMap.product_tree_numbering`
* `Verif.DofMap.power_numbering`
* `Verif.DofMap.power_number_partial`
* `Verif.DofMap.power_number_wrong_general`
* `Verif.DofMap.mul_layout`
* `Verif.DofMap.pow_layout`
* `Verif.DofMap.merge_layout`
* `Verif.DofMap.view_slice`
* `Verif.DofMap.view_number`
* `Verif.DofMap.view_valid`
* `Verif.DofMap.view_valid_place`
* `Verif.GeomIter.wf_diff`
* `Verif.GeomIter.wf_xor`
* `Verif.GeomIter.wf_unset`
* `Verif.GeomIter.unite_iterate`
* `Verif.GeomIter.iterate_partial`
* `Verif.Gather.power_geom_iterate`
* `Verif.Gather.geomOk_product`
* `Verif.Sparsity.unset_iff`
* `Verif.Sparsity.algebra_iff`
* `Verif.Sparsity.elemsIds_spec`
* `Verif.Sparsity.beginPosDim_spec`
* `Verif.Symmetry.index_comp_partial`
* `Verif.Symmetry.index_comp`
* `Verif.Symmetry.index_comp_sorted_face_partial`
* `Verif.Symmetry.locSym_spec`
* `Verif.Symmetry.reorder_bijective`
* `Verif.RawMemory.plainX_safe`
* `Verif.RawMemory.plainX_enough`
* `Verif.RawMemory.allocPlain_safe`
* `Verif.RawMemory.enoughPlain_spec`
* `Verif.DynMem.live_inside`
* `Verif.DynMem.counters_right`
* `Verif.DynMem.alloc_gives`
* `Verif.DynMem.defragment_live`
* `Verif.DynMem.no_overlap_partial`
* `Verif.DynMem.no_overlap_stack_partial`
* `Verif.DynMem.no_overlap_lifo`
* `Verif.ThreadMem.held_once`
* `Verif.ThreadMem.alloc_fresh`
* `Verif.ThreadMem.allocRange_fresh`
* `Verif.ThreadMem.alloc_reuses`
* `Verif.ThreadMem.allocRange_reuses_partial`
* `Verif.Geometry.inverse_det`
* `Verif.Geometry.inverse_correct`
* `Verif.Geometry.cross_triple`
* `Verif.Geometry.triArea_correct`
* `Verif.Geometry.faceNormal_correct`
* `Verif.Geometry.faceNormal_order`
* `Verif.Dense.cholesky_solves`
* `Verif.Dense.cholesky_rejects`
* `Verif.Dense.cholesky_in_place`
* `Verif.Dense.cholesky_memory`
* `Verif.Dense.cholesky_inverse_correct`
* `Verif.Dense.lu_factor`
* `Verif.Dense.lu_undefined_iff`
* `Verif.Dense.lu_solve_permuted`
* `Verif.Dense.lu_solves_partial`
* `Verif.Dense.lu_solves_small_partial`
* `Verif.Dense.lu_inverse_partial`
* `Verif.Dense.lu_solve_wrong`
* `Verif.Dense.lu_skip_inexact`
* `Verif.Enumerator.anitype_numbering`
* `Verif.Enumerator.anitype_inverse_partial`
* `Verif.Enumerator.anitype_inverse_wrong`
* `Verif.Enumerator.miniblocks_numbering_partial`
* `Verif.Enumerator.miniblocks_wrong`
* `Verif.Enumerator.ordered_total`
* `Verif.Enumerator.ordered_numbering`
* `Verif.Enumerator.ordered_index_partial`
* `Verif.Enumerator.ordered_tag_wrong`
* `Verif.Enumerator.ordered_inverse_partial`
* `Verif.Enumerator.ranges_partition_partial`
* `Verif.Enumerator.matrSize_eq`
* `Verif.Enumerator.ranges_wrong`
* `Verif.Enumerator.addrs_nodup`
* `Verif.Enumerator.recompose`
* `Verif.Enumerator.recompose_single`
* `Verif.Enumerator.split_partial`
* `Verif.Enumerator.split_fullIndex`
* `Verif.Enumerator.split_wrong`
* `Verif.Enumerator.splitVar_partial`
* `Verif.Enumerator.splitVar_wrong`
* `Verif.Ordering.reorderNodes_correct`
* `Verif.Ordering.collect_correct`
* `Verif.Ordering.createOrder_rank`
* `Verif.Ordering.createOrder_weak`
* `Verif.Ordering.edge_sign`
* `Verif.Ordering.edge_agree`
* `Verif.Ordering.face_sign_partial`
* `Verif.Ordering.face_agree_partial`
* `Verif.Ordering.face_sign_wrong`
* `Verif.Ordering.face_parity_wrong`
* `Verif.Ordering.cell_sign`
* `Verif.Ordering.assemble_agrees_partial`
* `Verif.Ordering.assemble_agrees_edge`
* `Verif.Csc.densify_expands`
* `Verif.Csc.densify_dense`
* `Verif.Csc.sparsify_collects`
* `Verif.Csc.sparsify_densify`
* `Verif.Csc.fillTemplate_sparse`
* `Verif.Codes.decodeId_encodeId_partial`
* `Verif.Codes.decodeId_encodeId_wrong`
* `Verif.Codes.decodeId_thread_wrong`
* `Verif.Assembly.template_add`
* `Verif.Assembly.columns_sorted`
* `Verif.Assembly.assembly_exact`
* `Verif.Assembly.assembly_same`
* `Verif.Assembly.rhs_exact`
* `Verif.Locking.locked_progress`
* `Verif.Assembly.template_exact`
* `Verif.Assembly.template_keeps`
* `Verif.Assembly.status_eq`
* `Verif.Assembly.status_iff`
* `Verif.Assembly.rhs_status_iff`
* `Verif.OrderTable.table_entries`
* `Verif.Spaces.p0_dual`
* `Verif.Spaces.p1_dual`
* `Verif.Spaces.p2_dual`
* `Verif.Spaces.p3_dual`
* `Verif.Spaces.b2_dual`
* `Verif.Spaces.b4_dual`
* `Verif.Spaces.cr1_dof`
* `Verif.Spaces.cr1_dual`
* `Verif.Spaces.rt0_dual`
* `Verif.Spaces.nd0_dual`
* `Verif.Spaces.p1_unity`
* `Verif.Spaces.p2_unity`
* `Verif.Spaces.p3_unity`
* `Verif.Spaces.cr1_unity`
* `Verif.Spaces.single_atTet`
* `Verif.Spaces.basis_exists`
* `Verif.Spaces.p0_grad`
* `Verif.Spaces.p0_dudx`
* `Verif.Spaces.p1_grad`
* `Verif.Spaces.p1_dudx`
* `Verif.Spaces.p2_grad`
* `Verif.Spaces.p3_grad`
* `Verif.Spaces.b2_grad`
* `Verif.Spaces.b4_grad`
* `Verif.Spaces.cr1_grad`
* `Verif.Spaces.rt0_grad`
* `Verif.Spaces.rt0_div`
* `Verif.Spaces.rt0_curl`
* `Verif.Spaces.nd0_grad`
* `Verif.Spaces.nd0_div`
* `Verif.Spaces.nd0_curl`
* `Verif.Spaces.p1_eval`
* `Verif.Spaces.p2_eval`
* `Verif.Spaces.b2_eval`
* `Verif.Spaces.b4_eval`
* `Verif.Spaces.cr1_eval`
* `Verif.Spaces.p3_eval_partial`
* `Verif.Spaces.p3_eval_swapped`
* `Verif.Spaces.p3_eval_wrong`
* `Verif.Spaces.rt0_eval_sign`
* `Verif.Spaces.nd0_eval_factor`
* `Verif.Quad.segment_exact`
* `Verif.Quad.triangle_exact`
* `Verif.Quad.tetrahedron_exact`
* `Verif.Quad.tetrahedron_exact_affine`
* `Verif.Quad.segment_proper`
* `Verif.Quad.triangle_proper`
* `Verif.Quad.tetrahedron_proper`
* `Verif.Quad.segment_rejects`
* `Verif.Quad.triangle_rejects`
* `Verif.Quad.tetrahedron_rejects`
* `Verif.Dirichlet.dir_exact`
* `Verif.Dirichlet.dir_posDef`
* `Verif.Dirichlet.dir_order`
* `Verif.Dirichlet.dir_list_exact`
* `Verif.Dirichlet.dir_twice`
* `Verif.Dirichlet.dirResidual_exact`
* `Verif.Dirichlet.vecDir_general`
* `Verif.Dirichlet.vecDir_exact_partial`
* `Verif.Dirichlet.vecDir_variational_partial`
* `Verif.Dirichlet.vecDir_last`
* `Verif.Dirichlet.vecDir_wrong`
* `Verif.Dirichlet.vecDirResidual_exact`
* `Verif.Dirichlet.extCol_exact`
* `Verif.Dirichlet.extRow_exact`
* `Verif.Fused.atMulB_exact`
* `Verif.Fused.aMulB_general`
* `Verif.Fused.aMulB_exact_partial`
* `Verif.Fused.aMulB_wrong`
* `Verif.Geometry.baryCoord_correct`
* `Verif.Geometry.baryCoordPsi_correct`
* `Verif.Geometry.physPoint_correct`
* `Verif.Geometry.tetGeom_measure`
* `Verif.Geometry.bary_unique`
* `Verif.Geometry.bary_variants_agree`
* `Verif.Geometry.bary_roundtrip`
* `Verif.Enumerator.arrange_iff`
* `Verif.Enumerator.arrangement_arrange`
* `Verif.Enumerator.ordered_lt`
* `Verif.Enumerator.ordered_gid_lt_partial`
* `Verif.Elemental.applyDU_exact`
* `Verif.Elemental.applyDU_selection_partial`
* `Verif.Elemental.applyDU_selection_wrong`
* `Verif.Elemental.applyDUFusive_exact`
* `Verif.Elemental.fem3Dtet_of_isDU`
* `Verif.Elemental.fem3Dtet_exact`
* `Verif.Elemental.fem3Dtet_selection_partial`
* `Verif.Elemental.fem3Dtet_fusive_exact`
* `Verif.Elemental.convToBand_val`
* `Verif.Elemental.fem3DApply_partial`
* `Verif.Elemental.fem3DApply_cleared_partial`
* `Verif.Elemental.fem3DApply_wrong`
* `Verif.Elemental.fem3DApply_parts_wrong`
* `Verif.Elemental.fem3DApplyD_of_isDU`
* `Verif.Elemental.fem3DApplyD_partial`
* `Verif.OpStack.leaf_correct`
* `Verif.OpStack.vec_correct`
* `Verif.OpStack.cplx_correct`
* `Verif.OpStack.union_correct`
* `Verif.OpStack.vecDiv_correct`
* `Verif.OpStack.vecCurl_correct`
* `Verif.OpStack.baseCurl_correct`
* `Verif.OpStack.baseDiv_partial`
* `Verif.OpStack.baseDiv_rows_wrong`
* `Verif.OpStack.div111_partial`
* `Verif.OpStack.div111_busy_wrong`
* `Verif.OpStack.div12_partial`
* `Verif.OpStack.div12_busy_wrong`
* `Verif.OpStack.baseDudx_partial`
* `Verif.OpStack.baseDudx_wrong`
* `Verif.OpStack.pair_correct`
* `Verif.OpStack.fem3DtetX_exact`
* `Verif.Interp.p0_unisolvent`
* `Verif.Interp.p1_unisolvent`
* `Verif.Interp.p2_unisolvent`
* `Verif.Interp.p3_unisolvent`
* `Verif.Interp.b2_unisolvent`
* `Verif.Interp.b4_unisolvent`
* `Verif.Interp.cr1_unisolvent`
* `Verif.Interp.rt0_unisolvent`
* `Verif.Interp.nd0_unisolvent`
* `Verif.Interp.vec_interp_correct`
* `Verif.Interp.prod_interp_correct`
* `Verif.Interp.choose_interp_correct`
* `Verif.Interp.interp_projection`
* `Verif.Interp.byDofsVec_interp_correct`
* `Verif.Interp.union_recovers_iff`
* `Verif.Interp.allL_place`
* `Verif.Interp.union_transfer`
* `Verif.Interp.union_both`
* `Verif.Interp.p0_affine`
* `Verif.Interp.p1_affine`
* `Verif.Interp.p2_affine`
* `Verif.Interp.p3_affine`
* `Verif.Interp.b2_affine`
* `Verif.Interp.b4_affine`
* `Verif.Interp.cr1_affine`
* `Verif.Interp.vec_affine`
* `Verif.Interp.prod_affine`
* `Verif.Interp.union_affine`
* `Verif.Interp.union_setup_accurate`
* `Verif.Interp.union_setup_exact`
* `Verif.Interp.union_setup_succeeds_partial`
* `Verif.Interp.mini_recovers`
* `Verif.Interp.mini_setup_correct`
* `Verif.Interp.union_rt0_wrong`
* `Verif.Region.region_best`
* `Verif.Region.region_throws`
* `Verif.Region.region_fits`
* `Verif.Region.region_recovers`
* `Verif.Region.face_nodes`
* `Verif.Region.xyg_eq`
* `Verif.Region.edge_points_partial`
* `Verif.Region.face_points_partial`
* `Verif.Region.face_points_wrong`
* `Verif.Region.region_edge_wrong`
* `Verif.Region.region_members_partial`
* `Verif.Region.region_cell_recovers`
* `Verif.Trace.p1_vanishes`
* `Verif.Trace.p2_vanishes`
* `Verif.Trace.p3_vanishes`
* `Verif.Trace.b2_vanishes`
* `Verif.Trace.b4_vanishes`
* `Verif.Trace.p1_continuous`
* `Verif.Trace.p2_continuous`
* `Verif.Trace.p3_continuous`
* `Verif.Trace.b2_continuous`
* `Verif.Trace.outer_unique`
* `Verif.Trace.rt0_normal`
* `Verif.Trace.rt0_normal_sum`
* `Verif.Trace.rt0_continuous`
* `Verif.Trace.nd0_along`
* `Verif.Trace.nd0_vanishes`
* `Verif.Trace.nd0_continuous`
* `Verif.DofCoord.p2At_correct`
* `Verif.DofCoord.b2At_correct`
* `Verif.DofCoord.p3At_partial`
* `Verif.DofCoord.p3At_swap`
* `Verif.DofCoord.p3At_wrong`
* `Verif.DofCoord.p0At_partial`
* `Verif.DofCoord.p0At_wrong`
* `Verif.DofCoord.cr1At_next`
* `Verif.DofCoord.cr1At_wrong`
* `Verif.CtOp.fix_correct`
* `Verif.CtOp.vec_correct`
* `Verif.CtOp.vecT_correct`
* `Verif.CtOp.com_correct`
* `Verif.CtOp.union_correct`
* `Verif.CtOp.union_one_correct`
* `Verif.CtOp.union_one_dudx_wrong`
* `Verif.CtOp.dudx_correct`
* `Verif.CtOp.div_correct`
* `Verif.CtOp.curl_correct`
* `Verif.CtOp.pair_correct`
* `Verif.CtOp.fem3DtetC_exact`
* `Verif.Order.rt_iden_degree`
* `Verif.Order.rt_grad_degree`
* `Verif.Order.rt_dudx_suffices`
* `Verif.Order.rt_div_partial`
* `Verif.Order.rt_div_wrong`
* `Verif.Order.fix_order`
* `Verif.Order.ct_order_partial`
* `Verif.Order.ct_degree_partial`
* `Verif.Order.ct_com_wrong`
* `Verif.SpaceOp.ctOp_right`
* `Verif.SpaceOp.ctOp_defined`
* `Verif.SpaceOp.nth_exists`
* `Verif.SpaceOp.nth_unique`
* `Verif.SpaceOp.entry_unique`
* `Verif.SpaceOp.elemental_right`
* `Verif.SpaceOp.simple_ok`
* `Verif.SpaceOp.rtOp_right_partial`
* `Verif.SpaceOp.rtOp_defined`
* `Verif.SpaceOp.rtOp_refused`
* `Verif.SpaceOp.rtOp_onePart`
* `Verif.SpaceOp.nth_unique_rt`
* `Verif.SpaceOp.elemental_rt_partial`
* `Verif.SpaceOp.rtDiv_three_wrong`
* `Verif.Driver.setTet_right`
* `Verif.Driver.setFace_right`
* `Verif.Driver.setFaceN_right`
* `Verif.Driver.setEdge_right`
* `Verif.Driver.setNode_right`
* `Verif.Driver.setPntL_right_partial`
* `Verif.Driver.setPntL_wrong`
* `Verif.Driver.setPntX_right_partial`
* `Verif.Driver.setPntX_wrong`
* `Verif.Driver.runCt_right`
* `Verif.Driver.runRt_right_partial`
* `Verif.Driver.output_right`
* `Verif.Driver.output_exists`
* `Verif.Driver.setting_exists`
* `Verif.Driver.setting_poly`
* `Verif.Driver.fem3Dtet_exact_partial`
* `Verif.Driver.fem3Dface_exact_partial`
* `Verif.Driver.fem3DfaceN_exact_partial`
* `Verif.Driver.fem3Dedge_exact_partial`
* `Verif.Driver.fem3Dnode_exact_partial`
* `Verif.Driver.fem3DpntX_exact_partial`
* `Verif.Driver.fem3DpntL_exact_partial`
* `Verif.Eval.setL_right`
* `Verif.Eval.setX_right`
* `Verif.Eval.runCt_right`
* `Verif.Eval.runRt_right_partial`
* `Verif.Eval.runRtD_right_partial`
* `Verif.Eval.applyXStack_right_partial`
* `Verif.Eval.applyXStack_wrong`
* `Verif.Eval.applyLStack_right_partial`
* `Verif.Eval.applyLStack_wrong`
* `Verif.Eval.applyXPlain_right_partial`
* `Verif.Eval.applyXPlain_wrong`
* `Verif.Eval.applyLPlain_right_partial`
* `Verif.Eval.applyLPlain_cleared_partial`
* `Verif.Eval.applyLPlain_wrong`
* `Verif.Eval.applyLRt_right_partial`
* `Verif.Eval.applyXRt_right_partial`
* `Verif.Eval.applyLRtD_right_partial`
* `Verif.Eval.applyXRtD_right_partial`
* `Verif.Eval.basis_exists`
* `Verif.AutoDiff.run_right_partial`
* `Verif.AutoDiff.run_deriv_partial`
* `Verif.AutoDiff.run_deriv2_partial`
* `Verif.AutoDiff.run_symm_partial`
* `Verif.AutoDiff.div_wrong`
* `Verif.AutoDiff.div_var_wrong`
* `Verif.AutoDiff.hypot_one_wrong`
* `Verif.AutoDiff.hypot_first_wrong`
* `Verif.Strain.energy_partial`
* `Verif.Strain.neoHooke_right`
* `Verif.Strain.over_I1_wrong`
* `Verif.Tensor.sym_numbering`
* `Verif.Tensor.sym_shared`
* `Verif.Tensor.symDup_count`
* `Verif.Tensor.symGet_full`
* `Verif.Tensor.symOfLower_get`
* `Verif.Tensor.symTensorSquare_get`
* `Verif.Tensor.symTensorSymMul2_get`
* `Verif.Tensor.sym3TensorSymMul2_get`
* `Verif.Tensor.symDot_eq`
* `Verif.Tensor.symFrob_eq`
* `Verif.Tensor.sym3Dot_eq`
* `Verif.Tensor.sym3Frob_eq`
* `Verif.Tensor.symDotVec_eq`
* `Verif.Tensor.sym3DotVec_eq`
* `Verif.Tensor.symTrace_eq`
* `Verif.Tensor.sym3Trace_eq`
* `Verif.Tensor.symMul_get`
* `Verif.Tensor.sym3Mul_get`
* `Verif.Tensor.symIdentity_get`
* `Verif.Tensor.sym3Identity_get`
* `Verif.Tensor.symProd_get`
* `Verif.Tensor.symProd_iff_partial`
* `Verif.Tensor.symProd_wrong`
* `Verif.Tensor.sym3Prod_get`
* `Verif.Tensor.sym3Prod_wrong`
* `Verif.Tensor.mtxOfSym_get`
* `Verif.Tensor.mtxSym_get`
* `Verif.Tensor.mtxToSym_get`
* `Verif.Tensor.sym_round_trip`
* `Verif.Tensor.mtxTrace_eq`
* `Verif.Tensor.mtx3Trace_eq`
* `Verif.Tensor.mtxDot_eq`
* `Verif.Tensor.mtxFrob_eq`
* `Verif.Tensor.mtxDotVec_eq`
* `Verif.Tensor.mtxMul_get`
* `Verif.Tensor.mtx3Mul_get`
* `Verif.Tensor.mtxProd_get`
* `Verif.Tensor.mtx3Prod_get`
* `Verif.Tensor.mtxProdSym_get`
* `Verif.Tensor.symProdMtx_get`
* `Verif.Tensor.mixed_sums`
* `Verif.Tensor.mtxTensorSquare_get`
* `Verif.Tensor.mtxTensorSymMul2_get`
* `Verif.Tensor.sym3Det_eq`
* `Verif.Tensor.sym3Adj_eq`
* `Verif.Tensor.sym3Inv_eq`
* `Verif.Tensor.mtx3Det_eq`
* `Verif.Tensor.mtx3Adj_eq`
* `Verif.Tensor.mtx3Inv_eq`
* `Verif.Tensor.st_shared`
* `Verif.Tensor.st_index`
* `Verif.Tensor.products`
* `Verif.Tensor.dots`
* `Verif.Tensor.stToTen_get`
* `Verif.Tensor.tenToSt_get`
* `Verif.Tensor.st_round_trip`
* `Verif.Tensor.bs_shared`
* `Verif.Tensor.bsIndex_wrong`
* `Verif.Tensor.bs3_shared`
* `Verif.Tensor.bs3Dup_count`
* `Verif.Tensor.bs3Dot_eq`
* `Verif.Tensor.bs3Identity_get`
* `Verif.Tensor.bs3ToTen_get`
* `Verif.Tensor.bs3_round_trip`
* `Verif.Strain.I0_right`
* `Verif.Strain.I1_right`
* `Verif.Strain.I2_right`
* `Verif.Strain.I3_right`
* `Verif.Strain.J_right`
* `Verif.Strain.I4_right`
* `Verif.Strain.I5_right`
* `Verif.Strain.fToE_spec`
* `Verif.Strain.gradToE_spec`
* `Verif.Strain.cauchy_of_F`
* `Verif.Strain.J_of_F`
* `Verif.Strain.fToDE_deriv`
* `Verif.Strain.gradToDE_deriv`
* `Verif.Strain.sToP_get`
* `Verif.Strain.dsToDP_get`
* `Verif.Strain.piola`
* `Verif.Dense.qr_orthonormal`
* `Verif.Dense.qr_upper`
* `Verif.Dense.qr_product`
* `Verif.Dense.qr_exact`
* `Verif.Dense.qr_exact_zero`
* `Verif.Dense.qr_tiny_wrong`
* `Verif.Dense.eigen_orthonormal`
* `Verif.Dense.eigen_vectors`
* `Verif.Dense.eigen_exact`
* `Verif.Dense.eigen_trace`
* `Verif.Dense.eigen_fail`
* `Verif.Dense.eigen_two`
* `Verif.Dense.eigen_idle_wrong`
* `Verif.Dense.eigen_idle_case_wrong`
* `Verif.Dense.svd_values`
* `Verif.Dense.svd_product`
* `Verif.Dense.svd_orthonormal_partial`
* `Verif.Dense.svd_orthonormal_wide_partial`
* `Verif.Dense.svd_completion_partial`
* `Verif.Dense.svd_two`
* `Verif.Dense.svd_rank_wrong`
* `Verif.Dense.svd_zero_wrong`
* `Verif.Dense.svd_completion_wrong`
* `Verif.Demand.carveCt_fits`
* `Verif.Demand.carveRt_fits`
* `Verif.Demand.stack_fits`
* `Verif.Demand.ct_fits`
* `Verif.Demand.tensor_inside`
* `Verif.Demand.du_inside`
* `Verif.Demand.setEdge_inside`
* `Verif.Demand.points_stack`
* `Verif.Demand.stack_points`
* `Verif.Demand.matrix_size_wrong`
* `Verif.SpaceAlg.complexSimplified_same`
* `Verif.SpaceAlg.mul_same`
* `Verif.SpaceAlg.unionSimplified_same`
* `Verif.SpaceAlg.add_same`
* `Verif.SpaceAlg.pow_same`
* `Verif.SpaceAlg.join_dofs`
* `Verif.SpaceAlg.applied_congr`
* `Verif.SpaceAlg.mul_operators_partial`
* `Verif.SpaceAlg.add_operators_partial`
* `Verif.SpaceAlg.subSpace_part`
* `Verif.SpaceAlg.run_shared_partial`
* `Verif.SpaceAlg.shared_wrong`
* `Verif.Metric.nodeMetric_metric`
* `Verif.Metric.clampSpectrum_metric`
* `Verif.Metric.spectralAbs_psd`
* `Verif.Metric.spectralAbs_dominates`
* `Verif.Metric.spectralAbs_square`
* `Verif.Metric.clampSpectrum_id`
* `Verif.Metric.nodeMetric_stable`
* `Verif.Metric.clampSpectrum_eye`
* `Verif.Metric.absHToM_law`
* `Verif.Metric.pickMaxDet_best`
* `Verif.Metric.geomMean_perm`
* `Verif.Metric.matrixExp_det`
* `Verif.Metric.matrixLog_trace`
* `Verif.Metric.geomMean_det_partial`
* `Verif.Metric.bestDegenerate_best`
* `Verif.Metric.countAbove_eq`
* `Verif.Metric.liftZero_above`
* `Verif.Metric.fillAlpha_split`
* `Verif.Metric.imax_max`
* `Verif.Metric.cellHessian_facts`
* `Verif.Metric.loadCell_storeCell`
* `Verif.Metric.clampAbs_wrong`
* `Verif.Metric.absHToM_small_wrong`
* `Verif.Metric.spectralAbs_idle_wrong`
* `Verif.Metric.weighted_useless_wrong`
* `Verif.Diverge.divergence`
* `Verif.Metric.hessian_near`
* `Verif.Metric.hessian_exact`
* `Verif.Metric.hessian_constant`
* `Verif.Metric.hessian_driver_partial`
* `Verif.Metric.hessian_zero`
* `Verif.Metric.hessian_symm`
* `Verif.Metric.alpha_mean`
* `Verif.BoxMesh.generate_defined`
* `Verif.BoxMesh.generate_cells`
* `Verif.BoxMesh.generate_conforming`
* `Verif.BoxMesh.generate_once`
* `Verif.BoxMesh.generate_disjoint`
* `Verif.BoxMesh.generate_covers`
* `Verif.BoxMesh.generate_oriented`
* `Verif.BoxMesh.fits_of_many`
* `Verif.BoxMesh.generate_inside_partial`
* `Verif.BoxMesh.generate_exceeds_wrong`
* `Verif.BoxMesh.generate_serial`
* `Verif.Diffusion.gather_dirichlet`
* `Verif.Diffusion.gather_neumann_partial`
* `Verif.Diffusion.dirichlet_dofs`
* `Verif.Diffusion.addSides_eq`
* `Verif.Diffusion.dirByDofs_row`
* `Verif.Diffusion.assembled_iff`
* `Verif.Diffusion.cell_balance`
* `Verif.Diffusion.patch_free`
* `Verif.Diffusion.patch_test`
* `Verif.GeomWalk.begin_head`
* `Verif.GeomWalk.step_follows`
* `Verif.GeomWalk.forEach_places`
* `Verif.GeomWalk.places_nodup`
* `Verif.GeomWalk.begin_wrong`
* `Verif.TagCopy.vecToTag_get`
* `Verif.TagCopy.vecToTag_frame`
* `Verif.TagCopy.tagToVec_get`
* `Verif.TagCopy.tagToVec_frame`
* `Verif.TagCopy.vecToTags_get`
* `Verif.TagCopy.vecToTags_frame`
* `Verif.TagCopy.tagsToVec_get`
* `Verif.TagCopy.vecToVarTag_get`
* `Verif.TagCopy.vec_round`
* `Verif.TagCopy.tag_round`
* `Verif.TagCopy.places_numbering`
* `Verif.TagCopy.tagToTags_get_partial`
* `Verif.TagCopy.tagToTags_frame_partial`
* `Verif.TagCopy.tagsToTag_get_partial`
* `Verif.TagCopy.tagsToTag_frame_partial`
* `Verif.TagCopy.split_join_partial`
* `Verif.TagCopy.tagToVarTag_get_partial`
* `Verif.TagCopy.varTagToTag_get_partial`
* `Verif.TagCopy.varTagToTag_frame_partial`
* `Verif.TagCopy.tagToVarTag_frame_partial`
* `Verif.TagCopy.tagToTag_eq`
* `Verif.TagCopy.varTagToVarTag_eq`
* `Verif.TagCopy.tagToTags_wrong`
* `Verif.Reorder.reorder_represents`
* `Verif.Reorder.reorder_frame`
* `Verif.Reorder.reorder_compressed`
* `Verif.Reorder.takeDof_represents`
* `Verif.Reorder.takeDof_kept`
* `Verif.Reorder.reorder_back`
* `Verif.Reorder.mesh_represents`
* `Verif.Reorder.oriented_partial`
* `Verif.Reorder.oriented_wrong`
* `Verif.Reorder.edge_sign`
* `Verif.Reorder.face_sign_wrong`
* `Verif.LocalFn.system_partial`
* `Verif.LocalFn.two_functions`
* `Verif.LocalFn.one_function`
* `Verif.LocalFn.matrix_of_system_partial`
* `Verif.LocalFn.rhs_mixed_wrong`
* `Verif.LocalFn.failure_lost_wrong`
* `Verif.LocalFn.work_enough`
* `Verif.FnMem.one_function`
* `Verif.FnMem.system_memory_partial`
* `Verif.FnMem.assemblings_partial`
* `Verif.FnMem.rhs_only_wrong`
* `Verif.FnMem.mat_only_wrong`
* `Verif.FnMem.busy_wrong`
* `Verif.Det.det_partial`
* `Verif.Det.triangular`
* `Verif.Det.det_scaled_wrong`
* `Verif.Det.symDet_partial`
* `Verif.Det.symDet_wrong`
* `Verif.Det.inv_partial`
* `Verif.GidMap.again`
* `Verif.GidMap.cont_runs`
* `Verif.GidMap.cont_single`
* `Verif.MeshInt.batched_sum`
* `Verif.MeshInt.versions_agree`
* `Verif.MeshInt.exact`
* `Verif.Gather.geomOk_unite`
* `Verif.Gather.geomOk_power`
* `Verif.Gather.gather_partial`
* `Verif.Gather.vars_partial`
* `Verif.Gather.component_place_wrong`
* `Verif.Gather.vars_power`
* `Verif.Gather.vars_product`
* `Verif.InterpConst.constant_partial`
* `Verif.InterpConst.constantSub_partial`
* `Verif.InterpConst.constantSub_eq`
* `Verif.InterpConst.constant_one`
* `Verif.InterpConst.p1_constant`
* `Verif.InterpConst.p2_constant`
* `Verif.InterpConst.p3_constant`
* `Verif.InterpConst.cr1_constant`
* `Verif.InterpConst.cr1_face_wrong`
* `Verif.InterpConst.mini_wrong`
* `Verif.VecIter.tags_safe`
* `Verif.VecIter.tags_owned_partial`
* `Verif.VecIter.assign_leaks_wrong`
* `Verif.NVector.inv_ok`
* `Verif.NVector.invTest_ok`
* `Verif.NVector.constrMask_ok`
* `Verif.NVector.getLength_wrong`
* `Verif.NVector.wrms_wrong`
* `Verif.NVector.assm_code`
* `Verif.KinParam.real_partial`
* `Verif.KinParam.int_ok`
* `Verif.KinParam.switch_ok`
* `Verif.KinParam.unknown_refused`
* `Verif.KinParam.text_ok`
* `Verif.KinParam.refused_wrong`
* `Verif.KinParam.damping_zero_wrong`
* `Verif.Dirichlet.byDofs_exact`
* `Verif.Dirichlet.byDofs_unpaired`
* `Verif.Dirichlet.residual_exact`
* `Verif.Dirichlet.residual_unpaired_wrong`
* `Verif.Dirichlet.nonExists_ent`
* `Verif.Enumerator.lower_own`
* `Verif.Enumerator.lower_partial`
* `Verif.Enumerator.lower_reverse_partial`
* `Verif.Enumerator.lower_reverse_wrong`
* `Verif.Enumerator.glob_order_partial`
* `Verif.Enumerator.ani_order`
* `Verif.Enumerator.ani_order_doc`
* `Verif.VarTag.tag_enough`
* `Verif.VarTag.tag_exact`
* `Verif.VarTag.tag_none`
* `Verif.VarTag.its_partial`
* `Verif.VarTag.its_wrong`
