{
 "claims": [
  {
   "property": "C01",
   "status": "proved",
   "theorems": [
    "Slinky.euclideanDiv_spec",
    "Slinky.euclideanDiv_overflow",
    "Slinky.euclideanMod_spec",
    "Slinky.ediv_emod_char",
    "Slinky.ediv_emod_unique",
    "Slinky.euclideanDivPositiveDivisor_spec",
    "Slinky.euclideanModPositiveModulus_spec"
   ],
   "note": "All widths >= 2 bits."
  },
  {
   "property": "C02",
   "status": "proved",
   "theorems": [
    "Slinky.floorDiv_spec",
    "Slinky.ceilDiv_spec",
    "Slinky.roundDiv_spec",
    "Slinky.alignDown_spec",
    "Slinky.alignUp_spec",
    "Slinky.alignDown_defined",
    "Slinky.alignUp_defined"
   ],
   "note": ""
  },
  {
   "property": "C03",
   "status": "proved",
   "theorems": [
    "Slinky.overflow_spec",
    "Slinky.clampTo_spec",
    "Slinky.addSat_spec",
    "Slinky.subSat_spec",
    "Slinky.sat_no_ub",
    "Slinky.mulSat_spec",
    "Slinky.divSat_spec"
   ],
   "note": ""
  },
  {
   "property": "C04",
   "status": "proved",
   "theorems": [
    "Slinky.gcd_spec",
    "Slinky.gcd_char",
    "Slinky.gcd_natAbs",
    "Slinky.lcm_spec"
   ],
   "note": ""
  },
  {
   "property": "C05",
   "status": "partial",
   "theorems": [
    "Slinky.staircaseSumBounds_sound",
    "Slinky.staircaseSumBounds32_counterexample",
    "Slinky.staircaseSumBounds32_sound_partial"
   ],
   "note": "Sound for exact integers; the 32-bit code is refuted for large coefficients (counterexample) and proved when nothing is truncated."
  },
  {
   "property": "C06",
   "status": "partial",
   "theorems": [
    "Slinky.MR.add_sound",
    "Slinky.MR.sub_sound",
    "Slinky.MR.mul_sound",
    "Slinky.MR.div_sound",
    "Slinky.MR.union_sound",
    "Slinky.MR.inter_sound",
    "Slinky.MR.inter_overflow_counterexample",
    "Slinky.MR.mod_sound_partial",
    "Slinky.MR.mod_counterexample"
   ],
   "note": "% is unsound for an unnormalized divisor (counterexample); & is unsound when lcm overflows (counterexample)."
  },
  {
   "property": "C07",
   "status": "partial",
   "theorems": [
    "Slinky.evaluate_correct",
    "Slinky.evaluate_sound",
    "Slinky.evaluate_let_duplicate_counterexample"
   ],
   "note": "Full for expressions whose let lists bind distinct symbols; duplicates are refuted by the counterexample."
  },
  {
   "property": "C08",
   "status": "partial",
   "theorems": [
    "Slinky.match_iff",
    "Slinky.compare_spec",
    "Slinky.nodeLess_strict_total_order",
    "Slinky.matchS_iff",
    "Slinky.compareS_swap",
    "Slinky.compareS_strict_weak_order",
    "Slinky.matchS_counterexample"
   ],
   "note": "Expressions: proved. Statements: a strict weak order whose equivalence is match; match ignores the workers of loops, the storage of allocations and the closure flag (matchS_iff says exactly what it ignores; matchS_counterexample)."
  },
  {
   "property": "C09",
   "status": "partial",
   "theorems": [
    "Slinky.dependsOn_sound",
    "Slinky.dependsOn_precise",
    "Slinky.dependsOn_flags",
    "Slinky.canSubstituteBuffer_sound",
    "Slinky.findDependencies_sound",
    "Slinky.findDependencies_precise",
    "Slinky.isPure_sound",
    "Slinky.dependsOnS_flags",
    "Slinky.findDependenciesS_iff",
    "Slinky.findBufferDependencies_iff",
    "Slinky.findDependenciesS_sound",
    "Slinky.dependsOnS_sound",
    "Slinky.dependsOnS_sound_example",
    "Slinky.dependsOnS_async_counterexample"
   ],
   "note": "Proved for expressions and, for statements, except that the symbol of an async is reported as a dependency although the async declares it (refuted by dependsOnS_async_counterexample): the statement theorems exclude async symbols."
  },
  {
   "property": "C10",
   "status": "partial",
   "theorems": [
    "Slinky.substitute_correct_partial",
    "Slinky.substituteBuffer_correct",
    "Slinky.substituteExpr_correct",
    "Slinky.substitute_capture_counterexample",
    "Slinky.substituteBuffer_capture_counterexample",
    "Slinky.substituteS_sem_partial",
    "Slinky.substituteS_exec_partial",
    "Slinky.subEx_ok",
    "Slinky.substituteS_workers_counterexample",
    "Slinky.substituteS_async_counterexample",
    "Slinky.substituteS_copy_counterexample",
    "Slinky.substituteS_capture_counterexample"
   ],
   "note": "Statements: substituteS_* (no closures, no capture; max_workers, async without symbol and copy_stmt that declares the target are refuted). Proved for capture-free substitutions; the captured case is refuted. buffer_at is assumed to treat a missing argument as buffer_min (BufferAtMin, proved for unfolded non-empty buffers by bufferAtMin_linear)."
  },
  {
   "property": "C11",
   "status": "partial",
   "theorems": [
    "Slinky.contains_correct",
    "Slinky.union_sound",
    "Slinky.union_tight",
    "Slinky.inter_exact",
    "Slinky.shift_exact",
    "Slinky.neg_exact",
    "Slinky.rsub_exact",
    "Slinky.scale_sound",
    "Slinky.select_exact_partial",
    "Slinky.select_unbounded_counterexample",
    "Slinky.clamp_correct",
    "Slinky.clamp_in",
    "Slinky.alignE_correct",
    "Slinky.align_sound",
    "Slinky.range_correct",
    "Slinky.extent_empty_correct",
    "Slinky.boxUnion_sound_partial",
    "Slinky.boxUnion_counterexample",
    "Slinky.boxInter_exact",
    "Slinky.boxInter_defined"
   ],
   "note": "All operations proved except select of unbounded intervals (refuted) and box union with a longer first operand (refuted)."
  },
  {
   "property": "C12",
   "status": "partial",
   "theorems": [
    "Slinky.Rules.minRules_sound",
    "Slinky.Rules.maxRules_sound",
    "Slinky.Rules.addRules_sound",
    "Slinky.Rules.subRules_sound",
    "Slinky.Rules.mulRules_sound",
    "Slinky.Rules.divRules_sound",
    "Slinky.Rules.modRules_sound",
    "Slinky.Rules.lessRules_sound",
    "Slinky.Rules.equalRules_sound",
    "Slinky.Rules.andRules_sound",
    "Slinky.Rules.orRules_sound",
    "Slinky.Rules.notRules_sound",
    "Slinky.Rules.selectRules_sound",
    "Slinky.Rules.callRules_sound"
   ],
   "note": "All 479 rules. Four rules fall through to the next alternative when an alternative overflows and are only identities if it does not (side .exact); four rules need the operand in 64 bits (.range); three need constants in 32 bits (.fit32)."
  },
  {
   "property": "C13",
   "status": "partial",
   "theorems": [
    "Slinky.matchAny_iff",
    "Slinky.matchAny_sound",
    "Slinky.substP_spec",
    "Slinky.findRepl_sound",
    "Slinky.rewrite_correct",
    "Slinky.rewrite_correct_partial",
    "Slinky.rewrite_min_overflow_counterexample",
    "Slinky.rewrite_max_overflow_counterexample",
    "Slinky.rewrite_equal_overflow_counterexample",
    "Slinky.rewrite_less_staircase_counterexample"
   ],
   "note": "The engine is right for the 468 rules without side condition (rewrite_correct), and for all 479 rules if the side conditions hold (rewrite_correct_partial); without them it is refuted by the counterexamples. Expressions without infinities."
  },
  {
   "property": "C14",
   "status": "partial",
   "theorems": [
    "Slinky.simplifyBin_sound_partial",
    "Slinky.simplifyBin_sound",
    "Slinky.simplifyNot_sound",
    "Slinky.simplifySelect_sound_partial",
    "Slinky.simplifySelect_sound",
    "Slinky.simplifyCall_sound_partial",
    "Slinky.simplifyCall_sound",
    "Slinky.simplifyCall_folded_counterexample"
   ],
   "note": "All node simplifiers of simplify_exprs.cc. Unconditional for the rules without side conditions (gSafe); with all rules, under the side conditions of C12/C13. Buffer_at is modelled as ignoring an index equal to the min, which is false for folded buffers (counterexample)."
  },
  {
   "property": "C15",
   "status": "partial",
   "theorems": [
    "Slinky.constantLowerBound_sound",
    "Slinky.constantUpperBound_sound",
    "Slinky.evaluateConstant_sound",
    "Slinky.evaluateConstantLowerBound_sound",
    "Slinky.evaluateConstantUpperBound_sound",
    "Slinky.proveConstantTrue_sound",
    "Slinky.proveConstantFalse_sound",
    "Slinky.constantLowerBound_sound_partial",
    "Slinky.constantUpperBound_sound_partial",
    "Slinky.proveConstantTrue_sound_partial",
    "Slinky.proveConstantFalse_sound_partial",
    "Slinky.evaluate_not_counterexample",
    "Slinky.evaluate_and_counterexample"
   ],
   "note": "Full for expressions where the operands of logical operators are booleans; otherwise refuted by the counterexamples, and proved with a guard on the bounds of such operands."
  },
  {
   "property": "C16",
   "status": "partial",
   "theorems": [
    "Slinky.boundsBin_sound_partial",
    "Slinky.boundsBin_safe",
    "Slinky.boundsNot_sound",
    "Slinky.boundsSelect_sound",
    "Slinky.boundsAbs_sound",
    "Slinky.simplifyIntersection_sound_partial",
    "Slinky.boundsBin_nonneg",
    "Slinky.boundsAnd_counterexample",
    "Slinky.boundsOr_counterexample",
    "Slinky.boundsNot_counterexample",
    "Slinky.boundsSelect_counterexample",
    "Slinky.boundsSub_staircase_counterexample"
   ],
   "note": "Every bounds_of of simplify_bounds.cc, and simplify_intersection, for the guarded version (safe rewrite rules, 32-bit staircases). For and, or, not and select the code is wrong if the bounds of an operand can be negative without being exact: counterexamples."
  },
  {
   "property": "C17",
   "status": "partial",
   "theorems": [
    "Slinky.simplify_sound_partial",
    "Slinky.boundsOf_sound_partial",
    "Slinky.alignment_sound_partial",
    "Slinky.simplify_safe",
    "Slinky.mutateN_sound",
    "Slinky.memOf_ok",
    "Slinky.simplify_less_max_counterexample",
    "Slinky.simplify_nonbool_counterexample",
    "Slinky.simplify_fold_zero_counterexample",
    "Slinky.boundsOf_let_counterexample",
    "Slinky.simplify_mod_counterexample"
   ],
   "note": "The whole simplifier of expressions (variables, buffer fields, lets, select with learning, calls), with user bounds and alignments, by induction on fuel. Partial: about the guarded version; the counterexamples show that the code without the guards changes values. Statements and intervals are not modelled."
  },
  {
   "property": "C18",
   "status": "partial",
   "theorems": [
    "Slinky.proveTrue_sound_partial",
    "Slinky.proveFalse_sound_partial",
    "Slinky.attemptToProve_sound_partial",
    "Slinky.prove_consistent_partial",
    "Slinky.proveTrue_safe",
    "Slinky.proveTrueS_sound",
    "Slinky.proveFalseS_sound",
    "Slinky.learn_sound"
   ],
   "note": "For the guarded version of the simplifier, see C17."
  },
  {
   "property": "C19",
   "status": "proved",
   "theorems": [
    "Slinky.crop_dim",
    "Slinky.crop_bounds",
    "Slinky.crop_other",
    "Slinky.crop_broadcast",
    "Slinky.crop_address",
    "Slinky.crop_empty",
    "Slinky.crop_nonempty",
    "Slinky.crop_crop"
   ],
   "note": "Index arithmetic over unbounded integers."
  },
  {
   "property": "C20",
   "status": "partial",
   "theorems": [
    "Slinky.slice_rank",
    "Slinky.slice_dim",
    "Slinky.slice_address",
    "Slinky.slice_inBounds",
    "Slinky.slice_out_of_bounds",
    "Slinky.slice_broadcast",
    "Slinky.slice_many",
    "Slinky.slice_many_beyond_rank"
   ],
   "note": "slice(ds) equals slicing one at a time when no dimension is beyond the first implicit one; otherwise its assertion fails (slice_many_beyond_rank)."
  },
  {
   "property": "C21",
   "status": "partial",
   "theorems": [
    "Slinky.translate_address",
    "Slinky.translate_folded",
    "Slinky.translate_folded_counterexample",
    "Slinky.fuse_offset",
    "Slinky.fuse_contains",
    "Slinky.attemptFuse_same",
    "Slinky.fuseContiguous_same",
    "Slinky.swap_same",
    "Slinky.sortDims_same",
    "Slinky.sortDims_sorted",
    "Slinky.optimizeDimsSets_same",
    "Slinky.slicePoint_same",
    "Slinky.optimizeDims_same_partial",
    "Slinky.fuse_folded_inner_counterexample",
    "Slinky.fuse_folded_outer_counterexample",
    "Slinky.fuse_broadcast_counterexample",
    "Slinky.fuse_bounds_counterexample"
   ],
   "note": "Proved for unfolded dimensions, first buffer without stride 0; the four counterexamples refute the claim without these conditions."
  },
  {
   "property": "C22",
   "status": "partial",
   "theorems": [
    "Slinky.initStrides_spec",
    "Slinky.initStrides_disjoint",
    "Slinky.initStrides_fits",
    "Slinky.initStrides_negative_counterexample",
    "Slinky.initStrides_overlap_counterexample"
   ],
   "note": "Disjointness needs the preset strides to be pairwise nested, and fitting in the allocation needs non-negative preset strides; both are shown necessary by counterexamples."
  },
  {
   "property": "C23",
   "status": "proved",
   "theorems": [
    "Slinky.flatBounds_encloses",
    "Slinky.flatBounds_attained",
    "Slinky.flatBounds_succeeds",
    "Slinky.sizeBytes_covers",
    "Slinky.sizeBytes_tight",
    "Slinky.sizeBytes_eq_or_overflow",
    "Slinky.sizeBytes_empty",
    "Slinky.sizeBytes_folded_not_tight",
    "Slinky.validate_correct",
    "Slinky.validate_empty"
   ],
   "note": "size_bytes is tight except for folded dimensions smaller than their fold factor, as its comment says."
  },
  {
   "property": "C24",
   "status": "proved",
   "theorems": [
    "Slinky.FE.forEachElement_once"
   ],
   "note": "All ranks, strides, folds, empty buffers, null bases, other buffers that are smaller, of lower or of higher rank. Unbounded integers."
  },
  {
   "property": "C25",
   "status": "partial",
   "theorems": [
    "Slinky.FE.forEachContiguousSlice_once_partial",
    "Slinky.FE.forEachContiguousSlice_two_slices"
   ],
   "note": "Needs that at most one dimension of the first buffer with more than one index has the stride of an element; otherwise the code makes one slice of the product of the extents (counterexample)."
  },
  {
   "property": "C26",
   "status": "partial",
   "theorems": [
    "Slinky.Copy.copy_correct_partial",
    "Slinky.Copy.copy_padded_partial",
    "Slinky.Copy.copy_in_place_partial",
    "Slinky.Copy.pad_correct_partial",
    "Slinky.Copy.copy_empty_counterexample",
    "Slinky.Copy.copy_pad_counterexample",
    "Slinky.Copy.copy_pad_false",
    "Slinky.Copy.pad_zero_counterexample"
   ],
   "note": "copy with and without padding, in place, and pad, for all ranks, strides, element sizes, broadcasts; includes optimize_dims, the fill loops and the memcpy. Partial: unfolded buffers, dst has an element and no stride 0, and (with padding) the bounds of src are preserved by optimize_dims; the counterexamples show that the code is wrong without these. Unbounded integers."
  },
  {
   "property": "C27",
   "status": "proved",
   "theorems": [
    "Slinky.TP.at_most_once",
    "Slinky.TP.done_exactly_once",
    "Slinky.TP.parallelForPlan_correct",
    "Slinky.TP.parallelForPlan_serial"
   ],
   "note": "Sequentially consistent atomics; unbounded counters."
  },
  {
   "property": "C28",
   "status": "proved",
   "theorems": [
    "Slinky.TP.wait_returns_after_all_bodies",
    "Slinky.TP.wait_task_done",
    "Slinky.TP.done_exactly_once",
    "Slinky.TP.todo_nonneg",
    "Slinky.TP.completed_once",
    "Slinky.TP.worker_limit"
   ],
   "note": "For every program that uses the pool, not only parallel_for."
  },
  {
   "property": "C29",
   "status": "partial",
   "theorems": [
    "Slinky.TP.no_deadlock",
    "Slinky.TP.no_lost_wakeup",
    "Slinky.TP.work_stays_queued",
    "Slinky.TP.no_infinite_internal_run",
    "Slinky.TP.parallel_for_completes",
    "Slinky.TP.mutual_exclusion",
    "Slinky.TP.max_workers_zero_hangs",
    "Slinky.TP.two_waiters_lost_wakeup"
   ],
   "note": "Full for programs that use the pool through parallel_for with max_workers != 0. max_workers = 0 hangs, and two threads in wait_for on the same task can lose a wakeup: both are counterexample theorems."
  },
  {
   "property": "C30",
   "status": "partial",
   "theorems": [
    "Slinky.TP.semaphore_conservation",
    "Slinky.TP.semaphore_changes",
    "Slinky.TP.semaphore_wait_returns",
    "Slinky.TP.semaphore_nonneg",
    "Slinky.TP.semaphore_no_lost_wakeup",
    "Slinky.TP.semaphore_wait_twice_negative"
   ],
   "note": "Counts never become negative if each wait names a semaphore at most once; otherwise they do (counterexample)."
  },
  {
   "property": "C31",
   "status": "partial",
   "theorems": [
    "Slinky.exec_restores",
    "Slinky.exec_restores_context",
    "Slinky.lets_duplicate_not_restored",
    "Slinky.async_symbol_not_restored",
    "Slinky.transpose_shadowed_undefined",
    "Slinky.exStmt_restores"
   ],
   "note": "All statement kinds, nesting, failures, parallel loops and tasks. Partial because the code does not restore the symbol of an async (it is 0 afterwards) and a let_stmt that binds a symbol twice: both are counterexample theorems. Calls are assumed not to modify the context."
  },
  {
   "property": "C32",
   "status": "partial",
   "theorems": [
    "Slinky.loop_serial_runs",
    "Slinky.loop_parallel_runs",
    "Slinky.loop_parallel_closure",
    "Slinky.mem_loopValues",
    "Slinky.loopValues_increasing",
    "Slinky.parCount_eq",
    "Slinky.parallel_empty_loop_runs_away",
    "Slinky.negative_step_differs",
    "Slinky.exLoop_parallel"
   ],
   "note": "Positive steps and max >= min - 1. Otherwise the serial and parallel loops differ: counterexample theorems."
  },
  {
   "property": "C33",
   "status": "partial",
   "theorems": [
    "Slinky.exec_result",
    "Slinky.exec_stops",
    "Slinky.failed_huge_allocation_not_noticed",
    "Slinky.exStmt_restores"
   ],
   "note": "The result is 0 iff nothing failed, otherwise the error of something that failed; serial statements stop at the first error. A failed allocation of a multiple of 2^64 elements is not noticed (counterexample)."
  },
  {
   "property": "C34",
   "status": "proved",
   "theorems": [
    "Slinky.exec_allocations",
    "Slinky.allocate_scope",
    "Slinky.exStmt_restores"
   ],
   "note": "Counted per allocation handle, for every statement, with explicit free, errors, parallel loops and tasks."
  },
  {
   "property": "C35",
   "status": "proved",
   "theorems": [
    "Slinky.RC.rc_no_dangling",
    "Slinky.RC.rc_no_leak",
    "Slinky.RC.rc_destroyed_at_most_once",
    "Slinky.RC.rc_destroyed_by_last",
    "Slinky.RC.rc_no_use_after_destroy",
    "Slinky.RC.rc_count",
    "Slinky.RC.rc_freed",
    "Slinky.RC.rc_terminates",
    "Slinky.RC.rc_progress",
    "Slinky.RC.rc_quiesces",
    "Slinky.RC.Example.assign_child_result"
   ],
   "note": "Any number of threads and handles, handles that are members of objects, every interleaving of the atomic operations. The client may not have a data race on a handle (Legal, Writable); the counter is unbounded."
  },
  {
   "property": "C36",
   "status": "partial",
   "theorems": [
    "Slinky.SM.run_correct",
    "Slinky.SM.scope_restores",
    "Slinky.SM.scope_only_symbol",
    "Slinky.SM.moved_from_inert",
    "Slinky.SM.exit_twice",
    "Slinky.SM.close_reverse_restores",
    "Slinky.SM.close_forward_restores",
    "Slinky.SM.close_forward_duplicate_not_restored",
    "Slinky.SM.lookup_iff_name",
    "Slinky.SM.name_injective",
    "Slinky.SM.insert_correct",
    "Slinky.SM.insert_preserves",
    "Slinky.SM.insertUnique_fresh",
    "Slinky.SM.lookupD_eq",
    "Slinky.SM.contains_eq"
   ],
   "note": "Proved in LIFO nesting. A std::vector of scoped values, which the code uses, destroys in construction order and restores only distinct symbols (counterexample for a repeated symbol)."
  },
  {
   "property": "C37",
   "status": "proved",
   "theorems": [
    "Slinky.emptyIntersection_correct",
    "Slinky.emptyIntersection_sets",
    "Slinky.emptyIntersection_comm",
    "Slinky.emptyIntersection_unsorted",
    "Slinky.permute_correct",
    "Slinky.permute_identity",
    "Slinky.permute_perm",
    "Slinky.subspan_correct",
    "Slinky.subspan2_correct",
    "Slinky.subspan_beyond"
   ],
   "note": ""
  },
  {
   "property": "C38",
   "status": "proved",
   "theorems": [
    "Slinky.blockMake_correct",
    "Slinky.blockMake2_correct",
    "Slinky.blockMakeTail_correct",
    "Slinky.eval_mkBin",
    "Slinky.isPositive_sound",
    "Slinky.isNonNegative_sound",
    "Slinky.isNegative_sound",
    "Slinky.isNonPositive_sound",
    "Slinky.isBoolean_sound",
    "Slinky.boolean_correct",
    "Slinky.isTrue_sound",
    "Slinky.crop_buffer_shadowed_differs"
   ],
   "note": "block::make, the canonicalizing expression builders, and the sign and boolean predicates."
  },
  {
   "property": "C39",
   "status": "proved",
   "theorems": [
    "Slinky.fold_share_iff",
    "Slinky.fold_window",
    "Slinky.fold_window_write",
    "Slinky.fold_window_sharp",
    "Slinky.isFolded_iff"
   ],
   "note": "One folded dimension; choosing the fold factor (slide_and_fold_storage) is not modelled."
  },
  {
   "property": "C40",
   "status": "partial",
   "theorems": [
    "Slinky.deshadow_sem",
    "Slinky.deshadow_exec",
    "Slinky.deshadow_noShadow",
    "Slinky.deshadow_wf",
    "Slinky.dsStmt_deshadow_ok",
    "Slinky.exec_sem",
    "Slinky.sem_ren",
    "Slinky.flattenLets_sound",
    "Slinky.pruneLets_sound",
    "Slinky.visitLets_good",
    "Slinky.deshadow_crop_in_place_counterexample",
    "Slinky.deshadow_buffer_at_counterexample"
   ],
   "note": "deshadow of every statement: same result, same calls and allocations in the same order, nothing shadowed afterwards (except by allocate). Partial: statements that mean something in the specification (Sem.lean), no let x = x, no explicit buffer_min index of buffer_at, no copy_stmt, no closures; the counterexamples show that a crop in place and such an index do change. Restructuring of expression lets is that of the simplifier (C17); lets of statements in the simplifier are not modelled."
  },
  {
   "property": "C41",
   "status": "partial",
   "theorems": [
    "Slinky.canonicalize_same",
    "Slinky.canonicalize_norm",
    "Slinky.canonicalize_sem_partial",
    "Slinky.canonicalize_exec_partial",
    "Slinky.canonicalize_counterexample",
    "Slinky.canonicalize_example"
   ],
   "note": "The result is the same up to what match ignores (canonicalize_same). It is exactly the statement, and does exactly the same, if parts that match agree on workers, storage and closures (canonicalize_norm, canonicalize_exec_partial); without that a serial loop becomes parallel (canonicalize_counterexample). Blocks are as block::make makes them."
  },
  {
   "property": "C42",
   "status": "partial",
   "theorems": [
    "Slinky.optimizeSymbols_sem_partial",
    "Slinky.optimizeSymbols_exec_partial",
    "Slinky.optimizeSymbols_in_place_partial",
    "Slinky.optimizeSymbols_closures_partial",
    "Slinky.rsS_fuel",
    "Slinky.serialConst_proves",
    "Slinky.optEx_out",
    "Slinky.optEx_applies",
    "Slinky.optimizeSymbols_crop_counterexample",
    "Slinky.optimizeSymbols_async_counterexample",
    "Slinky.optimizeSymbols_workers_counterexample",
    "Slinky.optimizeSymbols_shadow_counterexample"
   ],
   "note": "For deshadowed statements whose crops evaluate independently of the dimensions cropped before, without asyncs without a symbol, workers that depend on buffers, or copy_stmt (Stmt.OptOK): the counterexamples show that each of these conditions is needed."
  },
  {
   "property": "C43",
   "status": "partial",
   "theorems": [
    "Slinky.fuseSiblings_sem_partial",
    "Slinky.fuseSiblings_alloc_partial",
    "Slinky.fuseSiblings_exec_partial",
    "Slinky.fuseSiblings_le",
    "Slinky.fuseRun_complete",
    "Slinky.fuseS_stable",
    "Slinky.sibStmt_ok",
    "Slinky.sibStmt_sem",
    "Slinky.sibAlloc_ok",
    "Slinky.fuseSiblings_capture_counterexample",
    "Slinky.fuseSiblings_call_counterexample"
   ],
   "note": "For statements in which the symbol of a merged declaration is not free in the body of the later one and the parameters do not call functions of the world (the counterexamples show that the code does not check either and that the result of the program changes); statements with a meaning in the specification (no copy_stmt), no closures. Merged allocations: for worlds that give the same address to the same allocation and do not look at allocations or contents of fresh memory."
  },
  {
   "property": "C44",
   "status": "partial",
   "theorems": [
    "Slinky.implementCopy_sound_partial",
    "Slinky.implements_copied",
    "Slinky.isCopy_fits",
    "Slinky.isLinear_sound",
    "Slinky.copyDims_view",
    "Slinky.copyLoops_seq",
    "Slinky.icCond",
    "Slinky.icRun",
    "Slinky.shear_counterexample",
    "Slinky.folded_src_counterexample",
    "Slinky.padded_offset_counterexample",
    "Slinky.select_index_counterexample",
    "Slinky.shadowed_index_counterexample"
   ],
   "note": "For copies in which an index of src that an index of dst passes through to depends on no other index of dst (the shear counterexample shows that the code miscompiles otherwise; stencil copies such as src(x, y + k), which the code gets right, are not covered), src is not folded, index names are not in scope, and simplify and evaluate_constant_lower_bound are right (hypothesis SimpSound). Where the index of src depends on the bounds of dst the copy must be in bounds. The counterexamples show that each of the other conditions is needed. The padding in memory is a scalar."
  },
  {
   "property": "C45",
   "status": "partial",
   "theorems": [
    "Slinky.slide_and_fold_sound_partial",
    "Slinky.slide_covers_partial",
    "Slinky.fold_resolved",
    "Slinky.slideDims_each",
    "Slinky.slideDims_one_overlap",
    "Slinky.slideAndFoldBuffer_one_overlap",
    "Slinky.slideAndFoldBuffer_other",
    "Slinky.overlap_sound",
    "Slinky.foldFactor_sound",
    "Slinky.slide_example",
    "Slinky.fold_example",
    "Slinky.slide_misaligned_counterexample",
    "Slinky.slide_warm_up_counterexample",
    "Slinky.slide_gap_counterexample",
    "Slinky.slide_pipelined_gap_counterexample",
    "Slinky.slideDim_folded",
    "Slinky.slideDim_factor_const",
    "Slinky.slidePass_flat_partial",
    "Slinky.slidePass_nested_counterexample"
   ],
   "note": "The decisions of slide_and_fold_buffer for a dimension with constant fold factor and overlap, and the fold factor with W workers. Partial: what the pass assumes about the iterations it adds before the first one is a hypothesis (SlideRun.warm, aligned), what is produced in one iteration must fit into the fold (hfit), in a pipelined loop a fold without overlap must not skip indices (htile): the counterexamples show that each of these is needed, as the code does not check it. Several dimensions: each one is handled like a single one, only one overlaps (slideDims_*). The simplifier must be right (SlideOK, C17). The traversal is only modelled for statements without buffer declarations: nothing changes if loops are not nested (slidePass_flat_partial), but with nested loops the outer loop gets the min of the inner one, as the visitor does not pop its stack (slidePass_nested_counterexample). Not modelled: how the pass computes the bounds of crops, folds that depend on variables."
  },
  {
   "property": "C46",
   "status": "partial",
   "theorems": [
    "Slinky.pipeline_in_order",
    "Slinky.pipeline_exclusive",
    "Slinky.pipeline_lead",
    "Slinky.pipeline_progress",
    "Slinky.pipeline_terminates",
    "Slinky.pipeline_complete",
    "Slinky.pipeline_buffer",
    "Slinky.pipeline_slide_and_fold_partial",
    "Slinky.pipelineOf_ok",
    "Slinky.pipelineOf_synced",
    "Slinky.pipeline_semaphores",
    "Slinky.pipeline_example",
    "Slinky.pipeActs_reachable",
    "Slinky.pipeline_unsynced_counterexample",
    "Slinky.pipeline_error_counterexample"
   ],
   "note": "All interleavings of W workers on the loop and semaphores that the pass builds: order, exclusion, bounded lead, no deadlock, termination, completeness, and with C45 the contents of a folded buffer between two synchronised stages. Partial: the consumer must be synchronised: with a user limit of 3 workers the third stage is not, and the data race is exhibited (pipeline_unsynced_counterexample); without errors: if a stage fails the loop hangs (pipeline_error_counterexample). Threads that help with other tasks while they wait and loops nested in a stage are not modelled."
  },
  {
   "property": "C47",
   "status": "partial",
   "theorems": [
    "Slinky.allocBounds_cover_partial",
    "Slinky.pipeline_reads_in_bounds_partial",
    "Slinky.loop_reads_in_bounds_partial",
    "Slinky.loop_partition",
    "Slinky.getOutputBounds_sound",
    "Slinky.skipSlices_spec",
    "Slinky.allocChecks_sound",
    "Slinky.inputChecks_sound",
    "Slinky.simplify_drops_allocChecks",
    "Slinky.inferredDims_stride",
    "Slinky.small_allocation_counterexample",
    "Slinky.crop_broadcast_counterexample",
    "Slinky.output_not_checked_counterexample",
    "Slinky.ib_reads",
    "Slinky.ib_loop"
   ],
   "note": "For all pipelines, with bounds_of as modelled in C17 (guarded version). Partial: the bounds that bounds_of returns must be finite and free of the dimensions (NoVars, EndsOK: bounds_of may leave a dimension in the result); dimensions that the user changes are only checked if their stride is known: otherwise the simplifier drops the checks (simplify_drops_allocChecks, small_allocation_counterexample); buffers that are cropped in a loop must not be broadcasts (crop_broadcast_counterexample); outputs of the pipeline that a func reads must be large enough, they are not checked (output_not_checked_counterexample). Which funcs are computed in which loop, and which dimensions are cropped there, is arbitrary, not modelled."
  },
  {
   "property": "C48",
   "status": "proved",
   "theorems": [
    "Slinky.SPipe.schedule_spec",
    "Slinky.SPipe.schedule_total",
    "Slinky.SPipe.topoSort_spec",
    "Slinky.SPipe.topoSort_total",
    "Slinky.SPipe.topoSort_acyclic",
    "Slinky.SPipe.computeLocs_spec",
    "Slinky.SPipe.computeLocs_total",
    "Slinky.SPipe.buildNest_spec",
    "Slinky.SPipe.buildNest_total",
    "Slinky.SPipe.lca_spec",
    "Slinky.SPipe.schedEx_schedule",
    "Slinky.SPipe.schedEx_exec",
    "Slinky.SPipe.schedEx_spec",
    "Slinky.SPipe.schedEx_total",
    "Slinky.SPipe.schedEx_cycle",
    "Slinky.SPipe.schedEx_bad"
   ],
   "note": "All graphs of funcs. The loop variables of one func are different. An assertion that fails (cycles, an explicit location that is not around the consumers) is a result without a schedule. The nest has the calls and loops; crops, allocations and checks around them are in C47 and C49."
  },
  {
   "property": "C49",
   "status": "proved",
   "theorems": [
    "Slinky.APipe.buildPipeline_spec",
    "Slinky.APipe.layout_spec",
    "Slinky.APipe.layOut_spec",
    "Slinky.APipe.makeLoopA_spec",
    "Slinky.APipe.layEx_decls",
    "Slinky.APipe.layEx_spec",
    "Slinky.APipe.layEx_bad"
   ],
   "note": "All pipelines with a schedule (C48) and at least one func; a buffer is the output of one func, a constant has no producer. `StoreOK`: store_at is a loop around the place where the buffer is computed (the assertion pipeline.cc:803 checks only that the loop exists; `layEx_bad` shows that with a loop that is not around the consumers the buffer is allocated in this loop and a consumer is not in its scope). Shapes of the allocations are in C47."
  },
  {
   "property": "C50",
   "status": "partial",
   "theorems": [
    "Slinky.earlyFree_spec_partial",
    "Slinky.earlyFreeR_goal",
    "Slinky.earlyFreeR_conv",
    "Slinky.Early.spec",
    "Slinky.earlyFree_inserts",
    "Slinky.efMut_runs",
    "Slinky.efMut_noUse",
    "Slinky.efEx_result",
    "Slinky.efEx_conds",
    "Slinky.efEx_run",
    "Slinky.earlyFree_async_counterexample",
    "Slinky.earlyFree_shadow_counterexample",
    "Slinky.earlyFree_const_counterexample"
   ],
   "note": "All statements and all executions, both directions (no execution is added or lost). Proved if the name of a heap allocation is not used again for an allocation or constant buffer in its scope, and no async has a task and a body that both use it; without these conditions the code is refuted: the task frees a buffer that the body uses; a shadowing allocation is freed twice; a constant buffer is freed. Expressions in bounds read metadata, which is valid after a free."
  },
  {
   "property": "C51",
   "status": "partial",
   "theorems": [
    "Slinky.parallelizeTasks_spec_partial",
    "Slinky.parallelizeTasks_state_partial",
    "Slinky.parallelizeTasks_semKept",
    "Slinky.parallelizeTasks_semaphore_example",
    "Slinky.PT.schedule_tree",
    "Slinky.PT.visit_main",
    "Slinky.TProc.Run.legal",
    "Slinky.TWorld.Same.order",
    "Slinky.parallelizeTasks_tests",
    "Slinky.ptEx_spec",
    "Slinky.ptEx_runs",
    "Slinky.ptW_ok",
    "Slinky.parallelizeTasks_pad_counterexample",
    "Slinky.parallelizeTasks_free_counterexample",
    "Slinky.parallelizeTasks_let_counterexample",
    "Slinky.parallelizeTasks_shadow_counterexample",
    "Slinky.parallelizeTasks_make_counterexample",
    "Slinky.parallelizeTasks_async_counterexample"
   ],
   "note": "All statements under Stmt.TaskOK, all interleavings, errors at any point. Each condition of TaskOK is needed: without it the code is refuted (padding of a copy is not recorded as read; free is not recorded as a use; lets and make_buffer of two buffers are not aliases; an allocation that shadows the source of a crop hides its uses; a block in an async hides what the task produces). Checks that are not about a buffer may move (unit tests expect that), so they are only ordered with respect to the buffers in them. Sets of pointers are lists of indices in the order of the stages (they are in one vector, so the order of the pointers is that of the indices)."
  },
  {
   "property": "C52",
   "status": "partial",
   "theorems": [
    "Slinky.removePureDims_spec_partial",
    "Slinky.RP.visit_sem",
    "Slinky.rpW_minRank",
    "Slinky.rpStmt_ok",
    "Slinky.rpStmt_sem",
    "Slinky.rpStmt_removed",
    "Slinky.removePureDims_example",
    "Slinky.rpTest_cropDim",
    "Slinky.rpTest_cropBuffer",
    "Slinky.rpTest_allocate",
    "Slinky.rpTest_inputs",
    "Slinky.rpTest_clone",
    "Slinky.rpTest_transpose",
    "Slinky.rpTest_two",
    "Slinky.rpTest_shadow",
    "Slinky.rpTest_shadow_two",
    "Slinky.removePureDims_empty_counterexample",
    "Slinky.removePureDims_outputs_counterexample",
    "Slinky.removePureDims_scalar_counterexample",
    "Slinky.removePureDims_shadow_counterexample",
    "Slinky.removePureDims_no_output_counterexample"
   ],
   "note": "All statements without closures under the run-time conditions Stmt.PureOK, each of which is shown to be needed by a counterexample about the code: an empty crop to a point gives a call a buffer without memory that is not empty; outputs at different indices are all sliced at the index of the first; scalar arguments are evaluated after slicing; a crop_dim that is not a point and shadows keeps the dimensions of the outer symbol, so rows are lost; a call without outputs reads outputs.front(). Trusted: World.MinRank is the promise of the calls, World.AllocBounds that the allocator keeps bounds."
  },
  {
   "property": "C53",
   "status": "partial",
   "theorems": [
    "Slinky.CB.crop_bounds_partial",
    "Slinky.CB.same_crop_buffer",
    "Slinky.CB.crop_bounds_safe_partial",
    "Slinky.CB.rrb_sound",
    "Slinky.CB.enumB_sound",
    "Slinky.CB.mutIv_sound",
    "Slinky.CB.cropMin_sound",
    "Slinky.CB.exCrop_simplified",
    "Slinky.CB.crop_negative_counterexample",
    "Slinky.CB.crop_add_min_counterexample"
   ],
   "note": "Proved for the simplifier with the guards of C17, if no bound is multiplied or divided by a negative constant on the way to a redundant bound (spineOK) and x is positive where x + min(max, z) becomes x + z (AddMinOK). Both conditions are needed: counterexamples."
  },
  {
   "property": "C54",
   "status": "partial",
   "theorems": [
    "Slinky.CC.concat_partial",
    "Slinky.CC.stack_partial",
    "Slinky.CC.concat_piece",
    "Slinky.CC.stack_piece",
    "Slinky.CC.ccRun",
    "Slinky.CC.ccRangesOk",
    "Slinky.CC.stRun",
    "Slinky.CC.stOk",
    "Slinky.CC.concat_broadcast_counterexample",
    "Slinky.CC.stack_out_of_bounds_counterexample"
   ],
   "note": "Any number of sources, any rank, any ranges. Conditions: sources are not folded (folded_src_counterexample of C44), the metadata of the parts are 64-bit integers, the ends of the ranges are in order and do not use the copied buffers; a source that is broadcast in the dimension of a concatenation has an index of its range in its bounds (otherwise the input crop makes it empty: concat_broadcast_counterexample); the destination of a stack has the indices of all sources (otherwise copy is called with a null destination that is not empty: stack_out_of_bounds_counterexample)."
  },
  {
   "property": "C55",
   "status": "partial",
   "theorems": [
    "Slinky.DL.drop_loop_exact_partial",
    "Slinky.DL.drop_loop_covers_partial",
    "Slinky.DL.dead_loop",
    "Slinky.DL.once_loop_partial",
    "Slinky.DL.dl_result",
    "Slinky.DL.dlCond",
    "Slinky.DL.dlOneWay",
    "Slinky.DL.dlTight",
    "Slinky.DL.memS_ok",
    "Slinky.DL.drop_loop_scalar_counterexample",
    "Slinky.DL.drop_loop_diagonal_counterexample",
    "Slinky.DL.drop_loop_step_counterexample",
    "Slinky.DL.drop_loop_metadata_counterexample",
    "Slinky.DL.once_empty_counterexample"
   ],
   "note": "All loops with a positive step around any nest of crops around a call. Conditions: the simplifier is sound (C17), the scalars do not depend on the loop, no crop uses what another crop declares, one of the two tests of contiguity is proved by itself, and for the exact theorem the bounds over the loop are reached. Without the conditions the code is refuted: a scalar that is the loop variable becomes 0; two crops of one buffer make a square of a diagonal; a step that does not divide the extent makes the call compute more; a crop whose bounds use the metadata of another crop loses elements; a loop that is empty but proved to have at most one iteration becomes a call. Not modelled: copies as the body. (Loop-invariant code motion is C58.)"
  },
  {
   "property": "C56",
   "status": "partial",
   "theorems": [
    "Slinky.AIP.aliasInPlace_partial",
    "Slinky.AIP.mutate_al",
    "Slinky.AIP.sim",
    "Slinky.AIP.sim_call",
    "Slinky.AIP.Cmp.dead",
    "Slinky.AIP.exS_program",
    "Slinky.AIP.exS_alias",
    "Slinky.AIP.exS_run",
    "Slinky.AIP.exS_ok",
    "Slinky.AIP.run_runF",
    "Slinky.AIP.aliasInPlace_size_counterexample",
    "Slinky.AIP.aliasInPlace_outputs_counterexample",
    "Slinky.AIP.aliasInPlace_parts_counterexample"
   ],
   "note": "Pipelines of calls, blocks, allocations, crops and clones in any nesting, any number of calls; the pass is modelled for all statements. Missing: loops, slices, transposes, copies (the theorem has Scoped). Conditions without which the code is refuted: the buffer that is declared later is not larger than the one it is computed in place of (bounds are not compared); an input may be used for at most one output of a call (both outputs would share memory); no buffer is written by two calls. Element sizes, strides and fold factors are not in the model of memory."
  },
  {
   "property": "C57",
   "status": "partial",
   "theorems": [
    "Slinky.NS.narrow_partial",
    "Slinky.NS.narrowAlloc_partial",
    "Slinky.NS.narrow_exec_partial",
    "Slinky.NS.narrow_tight",
    "Slinky.NS.narrowAlloc_tight",
    "Slinky.NS.liftLoop_sem",
    "Slinky.NS.exStmts_ok",
    "Slinky.NS.exStmts_narrow",
    "Slinky.NS.narrow_fail_counterexample",
    "Slinky.NS.narrow_unused_counterexample",
    "Slinky.NS.narrowAlloc_fail_counterexample"
   ],
   "note": "All declarations of buffers and all bodies. Conditions: the declaration or the allocation succeeds, and its parameters do not ask the world (then evaluating it later gives the same). Without the first, the code is refuted: a make_buffer or an allocation that fails makes the original program fail before any call, the simplified program runs the calls before the first use, and loses the error if there is no use. Not modelled: the replacement of declarations of which only the metadata is used."
  },
  {
   "property": "C58",
   "status": "partial",
   "theorems": [
    "Slinky.LI.licm_partial",
    "Slinky.LI.licm_lifted",
    "Slinky.LI.licm_all",
    "Slinky.LI.hoisted_pf",
    "Slinky.LI.step_inv",
    "Slinky.LI.conflict_of",
    "Slinky.LI.ex_licm",
    "Slinky.LI.ex_hoist",
    "Slinky.LI.ex_putback",
    "Slinky.LI.ex_folded",
    "Slinky.LI.ex_alias",
    "Slinky.LI.ex_nested",
    "Slinky.LI.ex_good",
    "Slinky.LI.ex_forward",
    "Slinky.LI.ex_pf",
    "Slinky.LI.ex_applies",
    "Slinky.LI.ex_value",
    "Slinky.LI.licm_empty",
    "Slinky.LI.licm_carried",
    "Slinky.LI.licm_overwritten"
   ],
   "note": "Any body and any number of iterations. Conditions without which the code is refuted: the loop has an iteration (moved statements are run even if the loop is empty: licm_empty), no statement uses what it or a later statement computes in an earlier iteration (licm_carried), each element has one right value (the code does not check that a moved statement overwrites what a statement before it needs: licm_overwritten). Trusted: the spec of a statement (which elements it needs and computes, LWorld.Right) and that a statement without the crops of the loop does what all iterations do together (LWorld.Whole); the simplification of moved statements (E.simp) is a parameter."
  },
  {
   "property": "C59",
   "status": "partial",
   "theorems": [
    "Slinky.VW.crop_of_crop_partial",
    "Slinky.VW.crop_of_crop_sem_partial",
    "Slinky.VW.mergeCrops_val",
    "Slinky.VW.slice_of_crop_partial",
    "Slinky.VW.slice_of_crop_sem_partial",
    "Slinky.VW.sliceSrc_val",
    "Slinky.VW.transpose_of_transpose_partial",
    "Slinky.VW.transpose_transpose",
    "Slinky.VW.mergeTranspose_view",
    "Slinky.VW.popRank_transpose",
    "Slinky.VW.noop_transpose_partial",
    "Slinky.VW.ex_declared",
    "Slinky.VW.ex_decl_ok",
    "Slinky.VW.ex_crop_ok",
    "Slinky.VW.ex_merge",
    "Slinky.VW.ex_makeCrop",
    "Slinky.VW.ex_sliceSrc",
    "Slinky.VW.ex_makeSlice",
    "Slinky.VW.ex_declaredT",
    "Slinky.VW.ex_transpose",
    "Slinky.VW.crop_beyond_counterexample",
    "Slinky.VW.slice_empty_crop_counterexample",
    "Slinky.VW.slice_broadcast_counterexample",
    "Slinky.VW.transpose_noop_counterexample",
    "Slinky.VW.transpose_fold_counterexample"
   ],
   "note": "Chains of any length, any rank. Conditions without which the code is refuted: bounds that use the bounds of a cropped buffer need the crop to be inside of the buffer (crop_beyond_counterexample: the bounds of the crop are substituted without clamping); no broadcast is sliced outside of its bounds (slice_empty_crop_counterexample); no dimension that is sliced is known to be a broadcast (its index is dropped and the dimension stays: slice_broadcast_counterexample); a transpose in order of a buffer whose last dimension is a broadcast (transpose_noop_counterexample); fold factors of broadcasts can change in transposes (transpose_fold_counterexample). Other conditions: buffers with memory have no empty dimensions, bounds without let and buffer_at, no view of itself (the code would not terminate for a crop of itself), all indices can be evaluated. The simplification of the bounds and indices is C53 and C17. Not modelled: slices of constant buffers, the substitution of a transpose of which only the base is used."
  },
  {
   "property": "C60",
   "status": "partial",
   "theorems": [
    "Slinky.MV.toView_sem_partial",
    "Slinky.MV.toView_transpose_partial",
    "Slinky.MV.slice_sem",
    "Slinky.MV.crop_sem",
    "Slinky.MV.transpose_view",
    "Slinky.MV.make_inv",
    "Slinky.MV.sem_truncate",
    "Slinky.MV.ex_at",
    "Slinky.MV.ex_makes",
    "Slinky.MV.ex_makesC",
    "Slinky.MV.ex_within",
    "Slinky.MV.counterexample_unknown_rank",
    "Slinky.MV.counterexample_crop_outside",
    "Slinky.MV.counterexample_crop_folded"
   ],
   "note": "All ranks, arguments and dimensions. Conditions without which the code is refuted: if anything is known of the source, its rank is known (a rank that is not known is -1, which is less than every rank, so that the dimensions that the make_buffer does not have are kept: counterexample_unknown_rank); the bounds of a crop are inside of the bounds of the source (a crop is clamped, a make_buffer is not: counterexample_crop_outside); no index of a crop is of a folded dimension (counterexample_crop_folded). Other conditions: the make_buffer does not fail, it has no trailing broadcasts, its dimensions exist in the source, its pointer is not null (but may be no pointer), a crop is not of itself. The transpose is the same buffer up to fold factors of broadcasts. Not modelled here: canonicalize_buffer (the metadata is given in terms of the source)."
  },
  {
   "property": "C61",
   "status": "proved",
   "theorems": [
    "Slinky.SZ.sanitize_correct",
    "Slinky.SZ.sanitize_free",
    "Slinky.SZ.sanL_spec",
    "Slinky.SZ.putE_eval",
    "Slinky.SZ.define_eval",
    "Slinky.SZ.ex_san",
    "Slinky.SZ.ex_user",
    "Slinky.SZ.ex_meta",
    "Slinky.SZ.buffer_at_counterexample"
   ],
   "note": "All expressions, in one run of the sanitizer over all of them. Conditions (UserE): metadata is of inputs and outputs (the code asserts it), lets in expressions do not shadow inputs, outputs and lets of the pipeline, and a buffer is only used by its metadata and buffer_at; the indices of buffer_at only use inputs, outputs and lets of the pipeline. Without the last the code is refuted: buffer_at_counterexample (the address is computed at the start of the pipeline, where the dimension is not defined). Not modelled: that the builder applies the sanitizer to each expression (it is the list of expressions of the theorem)."
  },
  {
   "property": "C62",
   "status": "partial",
   "theorems": [
    "Slinky.LT.visitLet_sem_partial",
    "Slinky.LT.letLoop_eval",
    "Slinky.LT.prune_eval",
    "Slinky.LT.flatten_sem",
    "Slinky.LT.ex_visitLet",
    "Slinky.LT.ex_steps",
    "Slinky.LT.alias_counterexample"
   ],
   "note": "All lets and bodies, for any simplifier of values and body that is right (StepOK, the hypothesis on the body); the symbols are new (deshadow runs before). The code is refuted for two names of one buffer: alias_counterexample (the symbol of a buffer is looked up once, but the second name is mapped to the first, which is itself replaced and removed: the result uses a variable that is not in scope). The lets of the result are not a closure (as in the code; simplify runs before the pass that makes closures)."
  },
  {
   "property": "C63",
   "status": "partial",
   "theorems": [
    "Slinky.PE.evaluate_sem_partial",
    "Slinky.PE.evaluateNew_sem_partial",
    "Slinky.PE.session_sem_partial",
    "Slinky.PE.again_sem_partial",
    "Slinky.PE.evaluate_context_partial",
    "Slinky.PE.setup_env",
    "Slinky.PE.exP_wf",
    "Slinky.PE.ex_sem",
    "Slinky.PE.same_object_counterexample"
   ],
   "note": "All pipelines whose body has a meaning in the specification sem (all declarations, loops, calls, allocations, asyncs; missing: early free, lets that make a second name for a buffer, transposes in place that need the rest of the dims). If one object is passed as an input and an output the code is refuted: same_object_counterexample (a crop of the output crops the input)."
  },
  {
   "property": "C64",
   "status": "partial",
   "theorems": [
    "Slinky.FS.foldSlice_same_partial",
    "Slinky.FS.foldSlice_inBounds_partial",
    "Slinky.FS.foldSlice_outOfBounds",
    "Slinky.FS.foldSlice_fits",
    "Slinky.FS.slices_keep",
    "Slinky.FS.ex_ok",
    "Slinky.FS.negative_stride_counterexample",
    "Slinky.FS.empty_counterexample"
   ],
   "note": "All ranks, indices, bounds, strides and padding. Partial: the constant is not folded, the dimensions that are kept have no stride 0 (the conditions of C26 for copy), the slice has elements (without: empty_counterexample, only the address differs), and its size does not overflow. Writing only allocated memory needs strides that are not negative; otherwise the code is refuted (negative_stride_counterexample: raw_buffer::make allocates for a negative stride, but sets the base to the start)."
  },
  {
   "property": "C65",
   "status": "partial",
   "theorems": [
    "Slinky.SD.mutateDims_buffer_partial",
    "Slinky.SD.canonicalize_sem_partial",
    "Slinky.SD.related_offset",
    "Slinky.SD.related_address",
    "Slinky.SD.isDim_val",
    "Slinky.SD.fold_counterexample",
    "Slinky.SD.stride_counterexample",
    "Slinky.SD.unknown_counterexample"
   ],
   "note": "All ranks, metadata, provers that prove nothing false, states. Partial because the code is refuted outside the stated conditions: a fold factor is dropped from a make_buffer whose first element is not a multiple of it (fold_counterexample: addresses shift; distances between elements are kept in general), a stride that is the constant auto_stride is left out of a make_buffer, which the evaluator cannot evaluate (stride_counterexample), and a fold factor that is not known of the source is taken to be unfolded (unknown_counterexample). Of allocate the metadata only: the strides that init_strides chooses when the fold factor is dropped are not compared. The simplification of the expressions is C17, the prover is abstract."
  },
  {
   "property": "C66",
   "status": "partial",
   "theorems": [
    "Slinky.CM.merge_partial",
    "Slinky.CM.buffersEqual_partial",
    "Slinky.CM.findParent_spec",
    "Slinky.CM.tracks_all",
    "Slinky.CM.ex_find",
    "Slinky.CM.crop_counterexample",
    "Slinky.CM.null_counterexample",
    "Slinky.CM.two_slices_counterexample"
   ],
   "note": "All ranks, contents, declarations and symbols. Partial because the code is refuted outside the stated conditions: the information about a constant is copied to its crops and slices, so an equal constant may be replaced by the crop (crop_counterexample; proved if constants are not cropped or sliced); constants without memory, which fold_slice_of_const_buffer makes, are compared (null_counterexample); at most one dimension has the stride of an element and more than one index (two_slices_counterexample: equal constants are not found equal, as bytes behind them are compared). Substituting the symbol in the body is C10."
  },
  {
   "property": "C67",
   "status": "partial",
   "theorems": [
    "Slinky.SC.cleanup_runs_partial",
    "Slinky.SC.cleanup_keeps_runs_partial",
    "Slinky.SC.removes",
    "Slinky.SC.serial_run",
    "Slinky.SC.remove_runs",
    "Slinky.SC.ex_loop_good",
    "Slinky.SC.ex_loop",
    "Slinky.SC.ex_pipe_good",
    "Slinky.SC.ex_pipe",
    "Slinky.SC.wrong_init_counterexample",
    "Slinky.SC.self_wait_counterexample"
   ],
   "note": "All statements and all interleavings. Partial because the code is refuted outside the stated conditions: the call of init_semaphores that is removed is the first of the body, whatever it initializes (wrong_init_counterexample; proved if the first call initializes the semaphore, and no other call does); a thread that waits for itself forever is not distinguished from one that does not (self_wait_counterexample: runs are gained; cleanup_keeps_runs_partial does not need the condition). An allocation of semaphores is one semaphore; loops have a number of iterations; the value that a wait takes is 1. Semaphores in the thread pool are C30, pipelined loops C46."
  },
  {
   "property": "C68",
   "status": "partial",
   "theorems": [
    "Slinky.AC.dst_address_partial",
    "Slinky.AC.src_address_partial",
    "Slinky.AC.src_within_partial",
    "Slinky.AC.grow_keeps",
    "Slinky.AC.ex_dst",
    "Slinky.AC.ex_dst_address",
    "Slinky.AC.ex_broadcast",
    "Slinky.AC.ex_src",
    "Slinky.AC.ex_src_address",
    "Slinky.AC.scale_counterexample",
    "Slinky.AC.fold_counterexample",
    "Slinky.AC.grow_counterexample"
   ],
   "note": "All ranks, bounds, strides, fold factors, transposes, offsets, scales, broadcasts and indices. Partial because the code is refuted outside the stated conditions: where a scaled copy starts in the source lacks the scale (scale_counterexample: dst(x) = src(2x), the source starts before 2 * the first x: dst(3) is src(3)); the alias of a folded buffer starts at its first element, whose place in the fold is counted twice (fold_counterexample); a source that ends after the destination gets a destination that is too small (grow_counterexample: the extent of the intersection is added). Expressions are their values; what is true is proved; no padding, no strides asked for by the allocation, no earlier aliases; crops, slices and transposes between the allocation and the copy are not modelled."
  },
  {
   "property": "C69",
   "status": "partial",
   "theorems": [
    "Slinky.AV.slice_address",
    "Slinky.AV.slice_perm_all",
    "Slinky.AV.insertAt_defined",
    "Slinky.AV.transpose_address_partial",
    "Slinky.AV.transpose_perm",
    "Slinky.AV.transposeAt_defined",
    "Slinky.AV.ex_slice",
    "Slinky.AV.ex_transpose",
    "Slinky.AV.transpose_counterexample",
    "Slinky.AV.twice_counterexample",
    "Slinky.AV.new_dim_counterexample",
    "Slinky.AV.new_dim_kept"
   ],
   "note": "All ranks, dimensions, slices, transposes and indices. Partial because the code is refuted outside the stated conditions: a transpose with fewer dimensions than the buffer writes behind the end of the vector of indices (transpose_counterexample; proved never to happen if all dimensions are there); a dimension of the buffer that is in two dimensions of a transpose gets the last index, not the sum (twice_counterexample); a slice increments new_dim, the biggest int, that stands for a broadcast in permutation (new_dim_counterexample). Expressions are their values; the substitution of the metadata of the view (merge_buffer_info) and crops are not modelled."
  },
  {
   "property": "C70",
   "status": "partial",
   "theorems": [
    "Slinky.RMC.removeCopy_partial",
    "Slinky.RMC.copies_sublist",
    "Slinky.RMC.copies_removed",
    "Slinky.RMC.ex_one",
    "Slinky.RMC.ex_one_removed",
    "Slinky.RMC.ex_views_removed",
    "Slinky.RMC.two_copies_counterexample",
    "Slinky.RMC.shadow_counterexample"
   ],
   "note": "All statements, views, copies and contents of memory. Partial because the code is refuted outside the stated conditions: all copies between the two buffers are removed, also if there are two, at different places, and the alias is for one of them (two_copies_counterexample: a concatenation of a buffer with itself; the number of copies to the other buffer is not looked at); a name that is declared again is taken for the old buffer (shadow_counterexample; the pass runs after deshadow, C40). A copy has no padding, memcpy is a copy (the check that replaces it is not modelled). That the copy the alias is for copies every element to itself is C68."
  },
  {
   "property": "C71",
   "status": "partial",
   "theorems": [
    "Slinky.AS.alias_stride_partial",
    "Slinky.AS.alias_stride_scaled_partial",
    "Slinky.AS.ex_scaled",
    "Slinky.AS.stride_kept",
    "Slinky.AS.bounds_kept",
    "Slinky.AS.fixed_bounds",
    "Slinky.AS.prT_sound",
    "Slinky.AS.ex_first",
    "Slinky.AS.ex_padding",
    "Slinky.AS.ex_conflict",
    "Slinky.AS.ex_point",
    "Slinky.AS.ex_grow",
    "Slinky.AS.no_share_partial",
    "Slinky.AS.ex_no_share",
    "Slinky.AS.one_element_counterexample",
    "Slinky.AS.scale_counterexample",
    "Slinky.AS.grow_counterexample"
   ],
   "note": "All buffers, strides and sequences of attempts. Partial because the code is refuted for copies with a scale of a buffer without strides: the stride that is asked for is given to the other buffer as it is, and the alias has a multiple of it (scale_counterexample: dst(x) = src(2 x), where dst asks to be dense). Also, a buffer that asks for a stride in one dimension only can be made bigger in another, and then its elements share memory (grow_counterexample). If the allocation asks for strides in all dimensions, has more than one element in each, and is a transpose of the other buffer, which has no strides, then its elements do not share memory in the other buffer either, which may be bigger (no_share_partial; refuted for a dimension of one element that the code does not see, one_element_counterexample). Not proved: the same for buffers with other dimensions, whose strides are chosen when they are allocated; contiguous copies, whose strides the code does not check, are in C72."
  },
  {
   "property": "C72",
   "status": "partial",
   "theorems": [
    "Slinky.ACo.alias_unique",
    "Slinky.ACo.alias_base",
    "Slinky.ACo.alias_base_empty",
    "Slinky.ACo.ex_empty",
    "Slinky.ACo.alias_memory",
    "Slinky.ACo.memcpy_removed_partial",
    "Slinky.ACo.reshape_same",
    "Slinky.ACo.ex_alias",
    "Slinky.ACo.ex_same",
    "Slinky.ACo.ex_memory",
    "Slinky.ACo.ex_removed",
    "Slinky.ACo.size_counterexample",
    "Slinky.ACo.stride_counterexample",
    "Slinky.ACo.fold_counterexample"
   ],
   "note": "All ranks, bounds, strides and contents of memory. Partial: the allocation is assumed to be dense and of the size of the memcpy. The code does not check either when it makes the alias: an allocation that is bigger is written after the end of the other buffer, and the sizes are compared only later, where the memcpy was (size_counterexample); strides that the allocation asks for are replaced (stride_counterexample); the alias of a folded buffer starts in the middle (fold_counterexample). What the statements between do with the memory is a hypothesis (the alias was written where the allocation would have been)."
  },
  {
   "property": "C73",
   "status": "partial",
   "theorems": [
    "Slinky.ASc.target_declared_partial",
    "Slinky.ASc.target_copied",
    "Slinky.ASc.ex_targets",
    "Slinky.ASc.ex_not_self",
    "Slinky.ASc.ex_declared",
    "Slinky.ASc.ex_inner",
    "Slinky.ASc.self_copy_counterexample"
   ],
   "note": "All statements and names. Partial because an allocation that is copied to itself (self_copy_counterexample) is a candidate for itself; pipelines do not make such copies. Only the names are modelled: that a copy has the form the code can handle, and that the alias is compatible, are C68, C69 and C71; the names of buffers in the bounds of the alias are not."
  },
  {
   "property": "C74",
   "status": "partial",
   "theorems": [
    "Slinky.ALp.leaveLoop_cov",
    "Slinky.ALp.leaveLoops_cov",
    "Slinky.ALp.grown_in_loops_partial",
    "Slinky.ALp.ex_bounds",
    "Slinky.ALp.ex_outer",
    "Slinky.ALp.ex_finite",
    "Slinky.ALp.ex_covered"
   ],
   "note": "All loops and bounds. Partial: the bounds must be finite after every loop, and the loop variables must not be left in them (if they are, the buffer cannot be allocated outside of the loop: the variable has no value there); bounds of C16 are right only for the rules that are proved, under the hypotheses of C17 (BufMem, SimpCfgOK)."
  }
 ]
}