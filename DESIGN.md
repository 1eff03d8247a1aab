# Formal model of dsharlet/slinky in Lean 4

## Method

The C++ code is transcribed, function by function, into total, computable Lean 4 definitions under
`lean/Verif/*.lean`; each definition cites the file and lines it models. Properties are theorems in separate
`*Props.lean` files, phrased against small specifications (`lean/Verif/Spec*.lean` or statements in plain
mathematics: `Int.ediv`, `Dvd`, `Nat.gcd`, membership, ...). Signed machine integers are modelled either
as `Int` with explicit overflow outcomes (`none` = the C++ has signed-overflow UB) or, where the code itself
checks overflow, by those checks.

Non-termination / recursion the C++ does by unbounded recursion ("mutate again until no change") is modelled by
fuel; theorems quantify over every amount of fuel, so they cover every terminating run (partial correctness).

Concurrency is modelled by labelled transition systems over explicit shared state with one transition per
atomic operation; invariants are proved by induction over arbitrary executions.

When the code violates a property, there is a theorem `..._counterexample`-style that exhibits it in the model,
and the strongest variant that I can prove carries the suffix `_partial`.

## Trusted base

* Lean 4.33.0 kernel; axioms allowed: `propext`, `Classical.choice`, `Quot.sound` (checked with
  `#print axioms`). No `sorry`, no `native_decide`, no `bv_decide`, no own axioms.
* The transcription of C++ into Lean (by hand; the rewrite-rule table by `tools/rules2lean.py`).
* The C++ memory model is taken to be sequentially consistent for the atomics used by the thread pool.

## Per-property plan

`M` is the module with the model, `P` the modules with the theorems. "planned" means not done yet.

| id | model | proof |
|----|-------|-------|
| C01-C04 | M `Arith`: transcription of `base/arithmetic.h` over `Int` with a type range `[lo,hi]`. P `ArithProps` | equalities with `Int.ediv`/`Int.emod`, `omega`, `nlinarith` |
| C05 | M `Arith` (`staircase_sum_bounds`, exact and 32 bit). P `StaircaseProps` | periodicity in the lcm of the divisors |
| C06 | M `ModRem`. P `ModRemProps` | divisibility reasoning per operator |
| C07 | M `Expr`: AST, machine evaluator (`Option`, `none` = overflow UB), mathematical evaluator. P `EvalProps` | structural induction |
| C08 | M `Compare`: the three-way comparison of `matcher`. P `CompareProps`. `CompareStmt`: the same for statements; S `Stmt.Same` (equal, except for what `match` does not compare) | induction, order lemmas; counterexample for workers and storage |
| C09, C10 | M `DependsOn`, `DependsOnFlags`, `Subst`. P `DependsOnProps`, `SubstProps`. `DependsStmt`: the same for statements; S `Stmt.Uses`. `DependsSem`: what is not reported does not change the meaning (`sem`) | induction with environments that agree off a variable; counterexample for the symbol of `async`. `SubstStmt`: `substitute` of statements keeps the meaning (`sem`), `SubstStmtThm`: and what the evaluator does |
| C11 | M `Interval`. P `IntervalProps` | case analysis |
| C12, C13 | M `Rewrite` (patterns, matcher, substitution, replacement conditions), `Rules` (all 479 rules of `simplify_rules.h`, generated by `tools/rules2lean.py`). P `Rules*Props` (one theorem per rule), `RewriteProps`, `RewriteComplete`, `RewriteTables` | one soundness lemma per rule; engine soundness once, by induction on patterns |
| C14 | M and P `SimplifyExprs` (constant folding, infinities, canonicalization, the rule tables, `simplify(call)`); `gSafe` drops the rules with side conditions | from C12/C13 |
| C15 | M `ConstEval` (`constant_evaluator`, `prove_constant_true/false`), P `ConstEvalProps`, `ConstEvalMore`; the guard `trust` (absent in the code) marks where non-boolean operands of logical operators make it wrong | induction with sign |
| C16 | `BoundsOf`: every `bounds_of` of simplify_bounds.cc over expression intervals (infinite ends are "no information") | `BoundsOfProps`, `BoundsOfThm`: per node; partial because and/or/not/select are wrong for possibly negative operands (counterexamples) |
| C17, C18 | `Simplifier`: one step `visit` of class `simplifier` for every expression node (with `expr_info`, `buffer_info`, `constant_adder`, `knowledge`), tied with fuel by `mutateN`; the API `simplify`, `bounds_of`, `prove_true`, `prove_false`, `attempt_to_prove` | `SimplifierInfo` (what the state means), `SimplifierLearn`, `SimplifierVisit`, `SimplifierThm` (one lemma per node, induction on fuel), `SimplifierApi` (theorems, a memory with buffers, counterexamples); partial because the code without the guards of `SimpCfg` is wrong; statements and intervals are not modelled |
| C19-C21, C39 | M `Buffer` (dim, raw_buffer, crop, slice, translate, fuse, sort, optimize_dims, folding). P `BufferProps`, `FuseProps` | arithmetic over unbounded integers, list induction |
| C22, C23 | M `Strides` (flat bounds, size_bytes, init_strides, allocate size). P `StridesProps`, `InitStridesProps` | induction over dimensions |
| C24, C25 | M `ForEach` (`for_each_impl`: the plan of loops, with fusing, folds, crops of the other buffers, and the loops). P `ForEachProps`, `ForEachThm` (chunks of nonlinear loops), `ForEachMain` (the plan), `ForEachApi` | induction on the rank: the calls are a permutation of the enumeration of the indices; C25 is partial: it needs at most one dimension with the stride of an element (counterexample) |
| C26 | M `Copy` (memory is a function from addresses to bytes; `memcpy`, `fill`, `optimize_fill_value`, `copy_impl`, `pad_impl`, `copy`, `pad`). P `CopyProps` (rows of `memcpy` and fills), `CopyImpl` (`copy_impl` is a pointwise copy, using C24, C25), `Track` (`optimize_dims` preserves the bounds of the source), `CopyPad` (`pad_impl`), `CopyApi` (theorems), `CopyEx` (examples, counterexamples) | every operation is `Copied` for a set of pairs of addresses; unions of such sets compose if the elements are separate. Partial: not folded, dst not empty, bounds preserved by `optimize_dims` (counterexamples) |
| C27-C30 | M `ThreadPool`: a transition system, one step per atomic operation, any number of threads, arbitrary user code, tasks, nested waits, semaphores. P `ThreadPoolInv/Props/Steps/Stack/Term/Live/Examples`, `SemaphoreProps` | inductive invariants over all runs; a well-founded measure for termination; stuck-state analysis for deadlock |
| C31-C34 | M `Stmt`: the statement evaluator (all statement kinds) over a context, buffer objects and a log of everything the outside world is asked to do. P `StmtSem`, `StmtBig` (a relation with one rule per way to evaluate), `StmtExec` (the relation covers the evaluator), `StmtProps`, `StmtAlloc`, `StmtLoops`, `StmtExamples` | structural recursion for the evaluator; rule induction for the properties |
| C35 | `RefCount` (transition system: threads, handles, member handles, atomic counter steps, client operations), `RefCountProps` (invariant: counter = counted handles + pending releases + taken pointers; a running destructor is unique), `RefCountSpec` | proved: never dangling, destroyed exactly once by the last reference, freed, counts, termination of cascades |
| C36 | `SymbolMap` (vector of optionals with grow, guards, programs with nested scopes, vectors of guards, `node_context`), `SymbolMapProps` | refinement to functions from symbols to values; pigeonhole for `insert_unique`; counterexample for a vector of guards with a repeated symbol |
| C37 | `SetSpan` | induction on the two-pointer loop; `permute`, `subspan` |
| C38 | M `Stmt` (block::make), `Interval`, `Subst` (builders). P `StmtBlocks`, `IntervalProps`, `SubstProps` | list induction, case analysis |
| C40 | S `Sem`: the meaning of statements in an environment of numbers and buffers, without mutation; `SemExec`, `SemStmt`: the evaluator of `Stmt` computes it. M `Deshadow` (`deshadow`: every visitor of `substitutor` and `deshadower`). P `Rename`, `RenameStmt`, `RenameSem` (statements that are equal up to names, shared by all passes that rename), `DeshadowThm`, `DeshadowProps`, `DeshadowEx`. Lets of expressions: `SimplifierThm` | a relation `RenS` between statements, induction on it; induction on statements for `NoShadow`; counterexamples for crops in place and for explicit `buffer_min` indices |
| C41 | M `Canonicalize`: `node_canonicalizer` with its map of statements. S `Stmt.Same`, `Stmt.norm`, `sem` | invariant of the map, induction on the statement; counterexample: a serial loop becomes parallel |
| C42 | M `OptSymbols`: `reuse_shadows` (on symbol substitution, `SubstStmt`) and the closures. S `Sem`/`exec`, `Stmt.InPlaceOwned`, `Stmt.ParClosed` | induction on the height of the statement with the set of symbols that may be mutated; counterexamples for crops, asyncs, workers, shadowing |
| C43 | M `FuseSiblings`: `can_fuse`, `fuse`, the visitor of blocks (with fuel, `fuseS_stable`). S `Sem`/`exec`, `SibPair`; `SemLe`: congruence of the meaning up to invisible events | induction on the fuel with congruence lemmas; two declarations are one by substitution of environments (`sem_congr`); counterexamples for capture and for calls in parameters |
| C44 | M `ImplementCopy`: `is_linear`, `is_copy` (with selects), `is_copy_dst_dim`, the loop over the indices, the loops and slices; `simplify` and `evaluate_constant_lower_bound` are parameters that are assumed to be right (`SimpSound`; C15, C17). S `Implements`, `CopiedFrom` (C26), `sem` | `SemEval`: values of the evaluator are values of `eval`; per dimension `isCopy_fits` (linear arithmetic with Euclidean division); a list of views by induction on the indices (`copyDims_view`); the loops are a sequence (`copyLoops_seq`); counterexamples for shears, folded sources, padded copies whose offset depends on `dst`, selects whose condition is an index |
| C45 | M `SlideFold`: `constant_fold_factor`, `where_true_upper_bound`, the loop over the dimensions of `slide_and_fold_buffer`, the scaling of the fold factor with the number of workers. S `SlideStore`: a folded dimension as a store from slots to indices; `Produced`/`Producing`: the states of the store when the producer has completed `k` iterations and is in the middle of another one | values of the simplified bounds in an iteration (C16, C17, `substitute` C10); a sliding window of at most F live indices is kept (`sliding_window`); induction on the iterations; several dimensions by induction; counterexamples for misaligned warm-up, bounds that are not valid in the warm-up, gaps; `SlideVisit`: the visitor of loops for statements without buffer declarations |
| C46 | M `Pipelined`: `add_synchronization`, the numbering of stages, the size of the semaphore array and the number of workers; the threads as atomic actions (take an iteration, wait and enter, finish, signal, leave, fail) on the semaphores folded by the number of stages, interleaved in any order; a folded buffer that the producer writes index by index. S: `In`, `Completed`, `Done`, `Producing` (C45) | invariant: one token per stage, in the slot before the first iteration that has not completed it; a token cannot be stolen because of the number of workers (pigeonhole); the first iteration under way can always move; a measure for termination; counterexamples for an unsynchronised consumer and for errors |
| C47 | M `InferBounds`: `get_output_bounds` (with slices), `bounds_of(interval)`, `compute_input_bounds`, `compute_allocation_bounds`, `substitute_buffer_dims`, the checks, `crop_for_loop`, `get_loop_bounds`; the metadata that `make_buffers` and crops define as relations. S `PointOf`, `ReadsAt`, `NthUnsliced`, `ReadsInBounds` | invariants of the loops that build the bounds, `boundsOf_sound_partial` (C17), induction on the order of the buffers; counterexamples: dropped checks of allocations, cropped broadcasts |
| C48 | M `Schedule`: `topological_sort`, `find_path_from_root`, `compare_paths_up_to`, `lca`, `compute_innermost_locations`, the calls and loops of `build` and `make_loop`. S `OrderOK`, `ScheduleOK`, `NestOK` (calls with the loops around them, executions with iteration vectors) | invariants of the depth first search and of the loop tree, induction on the nesting; termination by the depth |
| C49 | M `Layout`: `compute_deps_count`, `produce`, `produce_allocation`, `place_constrained_buffers`, `place_constant_buffers`, `lay_out_allocations`, `build`, `make_loop`, the constants of `make_buffers`. S `LayoutOK` (declarations with loops and scopes), `WF`, `StoreOK` | ranges of statements are slices of the calls in text order (`Chain`, `Ext`), invariant of the state (`St`, `Acc`), induction on the nesting as in C48 |
| C50 | M `EarlyFree`: `insert_free_into_allocate`, `early_free_inserter` on all statements. S `Runs` (all executions of a statement as sequences of allocations, uses and frees, any interleaving), `GoodLife`, `Early` | induction on statements by shape; an inserted free commutes with merges of threads; counterexamples for threads and shadowing |
| C51 | M `ParTasks`: `task_parallelizer` (the sets of each stage, the graph, `fuse`, the groups of tasks). S `TWorld.Unr` (a statement as a process of actions in sequence or in parallel), `TProc.Run` (all interleavings, errors at any point), `TWorld.Legal` (an execution that keeps the order of dependent actions), `RaceFree` | `ParDag`: invariant of the graph while stages are fused and produced, the result is a tree in which conflicting stages are in order; `ParProof`: executions of race-free processes are legal; `ParMain`: induction on statements with the memory that is reached by each recorded symbol; one counterexample for each condition; `ParBarrier`: `SemKept`, blocks with semaphore operations stay in order |
| C52 | M `RemovePure`: `pure_dims_remover` (sets of dimensions, slices of a call). S `Buf.dropDims` (a buffer at one index of some dimensions), `World.MinRank` (the promise of `min_rank`), `Stmt.PureOK` (conditions on the values in an execution) | `RemovePureThm`: invariant that recorded dimensions have one index, for crops, slices, transposes and allocations; the nest of slices is `dropDims`; induction on statements. `RemovePureEx`: a world that keeps the promise, the unit tests, one counterexample for each condition |
| C53 | M `CropBounds`: `enumerate_bounds`, `remove_redundant_bounds`, `mutate` of an interval, `mutate_crop_bounds`, over any simplifier of expressions. S `SameCrop` (same bounds of the cropped dimension, or both empty), `Tells` (what is known of a bound) | `CropBoundsThm`: invariant of `remove_redundant_bounds`: combined with the bound of the buffer, the bound has the same value; then `same_crop_buffer` for `Buf.crop`. Partial: negative scales and `x + min(max, z)` with `x ≤ 0` are wrong in the code (counterexamples in `CropBoundsEx`) |
| C54 | M `Concat`: `make_copy_func`, `make_concat`, `make_stack`, `make_call` of copies, the pass `implement_copies` (over `implement_copy` of C44). S `concatAt`, `stackAt`: the element of a source that belongs to an index of the destination; `CopiedFrom` of C26 for memory | `ConcatPiece`, `ConcatMain`: each source is a part of the destination (`Part`: crop or slice of the destination, C19/C20, then `implementCopy_sound_partial`); parts are joined by induction over the sources. Partial: `concat_broadcast_counterexample`, `stack_out_of_bounds_counterexample` (`ConcatEx`) |
| C55 | M `DropLoop`: `drop_loop` and the last step of `visit(const loop*)`, over the simplifier of C17. S `Covers`, `NoMore`, `Each`: the elements (with addresses) of the buffers of the calls | `DropLoopThm`: the environment inside a nest of crops; the iterations of a loop; bounds over the loop from the soundness of the simplifier; `DropLoopMain`: `drop_loop_covers_partial`, `drop_loop_exact_partial` (induction over the iterations: no gaps), `dead_loop`, `once_loop_partial`. Partial: counterexamples in `DropLoopEx` |
| C56 | M `AliasInPlace`: `in_place_aliaser` for all statements. S `AliasInPlaceSem`: `Run`, what a statement does to the elements of allocations (views of regions; calls read their inputs and then write their outputs; sharing memory without permission has no meaning), `Program`: the conditions on the pipeline | `AliasInPlaceThm`: buffers that share memory form chains, along which the last use of one is the call that writes the next; `AliasInPlaceSim`: simulation for any statement with allocations replaced along chains; `AliasInPlaceMain`: the pass counts uses exactly (reverse traversal) and records only such chains; `aliasInPlace_partial`. Partial: no loops; counterexamples in `AliasInPlaceEx` |
| C57 | M `NarrowScope`: `lift_decl_invariants` with the `make_*` functions given to it, and the splitting of the body in `visit(const allocate*)`, for any declaration `Head` and any body. S `sem`, `dependsOnS` (C09) | C09 (a statement that does not depend on a symbol does the same outside of its scope), declarations do not depend on the log (`SemLe`), induction over the runs of the block; for allocations up to the events of the allocator (`Le`). `narrow_tight`, `narrowAlloc_tight`: the result is as narrow as possible. Partial: declarations that fail (counterexamples in `NarrowScopeEx`) |
| C58 | M `Licm`: the code motion of `visit(const loop*)` with `buffers_accessed_via_aliases` and `remove_loop_var_in_crop_bounds`, for any body. S `LWorld`: each statement, for each value of the loop variable, needs and computes some elements of memory; `iterations` is the loop, `hoisted` the result | invariant of the list of lifted statements and the statements left in the loop: every statement comes after those that feed it (`Ord`, `step_inv`); from it every element is computed before it is used (`hoisted_pf`), so both programs end with the right values. Partial: empty loops, loop-carried dependencies and overwritten values (counterexamples in `LicmEx`) |
| C59 | M `Views`: the loops of `visit_crop`, `visit_slice` and `visit(const transpose*)` over the declarations in scope, and the new declarations. S `Declared` (the declarations are true), `Head.val` (the buffer that a declaration declares, as the evaluator does), `SameView` | `ViewsThm`: crop of a crop is the crop to the intersection (`cropS_inter`); `ViewsSub`, `ViewsCrop`: replacing metadata by the bounds of the crop keeps values, induction on the chain (`mergeCrops_val`); `ViewsSlice`: slicing inside of a crop (`slice_crop_base`, induction on dimensions); `ViewsTrans`: composition of permutations up to broadcasts. Partial: counterexamples in `ViewsEx` |
| C60 | M `MakeView`: `is_buffer_dim`, `is_slice`, `is_crop`, `is_transpose`, `make_truncate` of `visit(const make_buffer*)`. S `makeHead` (the make_buffer, with the semantics of the evaluator), `Makes`, `Within`, `SameView` | `MakeViewThm`: what the make_buffer declares (`make_inv`), `buffer_at` is the base of the slice (`bufferAt_sliceV`), induction on the dimensions (`slice_dims`), truncation (`sem_truncate`); `MakeViewCrop`: the base of the crop is `buffer_at` (`crop_loop`, induction), the permutation (`perm_dims`). Partial: counterexamples in `MakeViewEx` |
| C61 | M `Sanitize`: `sanitize_user_exprs` (visit, `define_replacements`). S `UserE` (the expressions that are allowed), `atStart` (the environment as the user means it), `evalS`/`sem` | `SanitizeThm`: the state is a map to new symbols (`sanL_spec`, induction on expressions), the replaced expression has the same value (`putE_eval`), the lets define the values at the start (`define_eval`), the result uses no input or output (`sanitize_free`) |
| C62 | M `LetStmt`: `visit_let` for statements (`letLoop`, `prune`, `flatten`), with the simplifiers of values and body as parameters. S `extend` (the environment with the values that are replaced), `StepOK`, `sem` | `LetStmtThm`: invariant of the loop over the lets (`letLoop_eval`), removal of unused lets by `depends_on` (`prune_eval`), merging (`flatten_sem`). `LetStmtEx`: a counterexample for two names of a buffer |
| C63 | M `PipeEval`: `pipeline::setup`, all overloads of `pipeline::evaluate`, a user that runs pipelines in one context, over the evaluator `exec`. S `Pipe.env` (only what is passed has a value), `sem`, `sessionSem` | `PipeEvalThm`: after setup the state represents the environment, whatever it was before (`setup_env`), then the theorem that the evaluator computes the meaning (`run_sem`), induction on the runs. `PipeEvalEx`: one object as input and output is a counterexample |
| C64 | M `FoldSlice`: `fold_slice_of_const_buffer`, `raw_buffer::make`, over the models of `copy` (C26), `slice` (C20) and `size_bytes` (C23). S `fill` (the index in the constant), `keep` (the dimensions of the slice), slices of the constant itself | `FoldSliceThm`: induction on the dimensions (`sliceBack_pin`, `slices_keep`), `copy_correct_partial`, `sizeBytes_covers` |
| C65 | M `SimpDims`: `mutate_dim`, `mutate_buffer`, `is_buffer_meta`, `is_buffer_dim`, `canonicalize_buffer`, over the evaluation of dimensions (`Sem`). The prover is abstract: nothing it proves has the value 0. S `SameDim` (bounds, strides, distances between elements), `Buf.offset`, `sem` of the `make_buffer` | `SimpDimsThm`: case analysis per dimension, then induction on the dimensions |
| C66 | M `ConstMerge`: `buffers_equal`, the search of `visit(const constant_buffer*)`, what is known of constants in crops and slices, over the model of `for_each_contiguous_slice` (C25). S `SameConst` (dimensions and the bytes of every element at the same indices), `declare` (the buffers in the body of declarations) | `ConstMergeThm`: `forEachContiguousSlice_once_partial`, induction on the calls, the symbols and the declarations |
| C67 | M `SemClean`: `semaphore_cleaner`: which allocations are semaphores, which are used at another depth, what is removed. S `Runs`: the events of a statement in the order in which they happen, with all interleavings of threads; a semaphore must allow its operations | `SemCleanThm`: interleavings and the events without one semaphore (`Shuf.lift`), the operations of a semaphore of one thread are the same in all runs (`serial_run`), induction on the statement |
| C68 | M `AliasCopy`: `alias_copy_dst`, `alias_copy_src`, the bounds and fold factors of `alias_compatible`, the new bounds and the buffer of `visit(const allocate*)`, `buffer_at`. S `srcIdx` (the element that the copy reads), `Within` | `AliasCopyThm`: the offsets of the dimensions are summed over the indices of the source and of the destination (`sum_match`); `flat_offset_bytes` is linear, or the fold factor divides |
| C69 | M `AliasView`: the changes of `at` and `permutation` in `visit(const slice_buffer*)`, `slice_dim`, `transpose`. S `buffer_at` (the model of C31) of the view and of the buffer | `AliasViewThm`: slices of different dimensions commute, induction on the dimensions |
| C70 | M `RemoveCopy`: `copy_remover`. S `Ex` (what a statement may do to memory; buffers are functions from indices to addresses), `OnlyAlias` (all copies between the two allocations copy elements to themselves, by the allocation that a view is a part of) | `RemoveCopyThm`: induction on the statement; the names that the code tracks are views of the two allocations |
| C71 | M `AliasStride`: the strides in `alias_compatible`, the new strides and bounds in `visit(const allocate*)`, sequences of attempts. S `HasStride` (the stride of a dimension of an alias, from the strides the other buffer is allocated with), `NoShare` (different elements have different addresses), `Sound` (a prover proves only what is true) | `AliasStrideThm`: invariant of the loop over the dimensions (the strides of the buffer are the ones that the check has seen); strides that are defined are kept by every attempt |
| C72 | M `AliasContig`: `make_contiguous_dims`, the base of the alias (`buffer_at` of `buffer_mins`), the check of `alias_compatible` for contiguous copies. S `flat` (the flat index), `count`, `InB`, `memcpy` of C26 | `AliasContigThm`: the offset of a dense buffer is the flat index times the size of an element; flat indices are a mixed radix representation, by induction on the dimensions |
| C73 | M `AliasScope`: which aliases `copy_aliaser` tries for an allocation (names only). S `Free` (names that are declared outside of a statement), `Copied` (the buffers of copies, through views) | `AliasScopeThm`: induction on the statement |
| C74 | M `AliasLoop`: `visit(const loop*)` of `copy_aliaser`, over the model of `bounds_of` (C16, C17) and `depends_on`. S `Iteration` (all loop variables are within their bounds) | `AliasLoop`: induction on the loops, soundness of `bounds_of`; example `AliasLoopEx` |

## What is not modelled

* Pointers and object lifetimes, except where a property is about them (buffer addresses are integers; allocations are numbered).
* C++ templates and overloads that only forward.
* Thread pool: weak memory orders, `work_until_idle`, `expect_workers`, wrap-around of `std::size_t` counters, and the reference counts
  of tasks. A section under the mutex that touches only data guarded by the mutex is one step.
* Statements: calls do not change the context; iterations of a parallel loop and tasks of `async` run in an arbitrary order but without
  interleaving (the interleavings are in `ThreadPool`); the addresses of buffer objects are not reused; `free` only as the condition of a
  `check`; the race between a task that copies the context and the statement after `enqueue` that sets the symbol of the task.
* Infinity nodes in interval arithmetic are modelled as unbounded ends (`none`).
* Passes of the pipeline builder: the traversal of `slide_and_fold_storage`, `alias_copies` (except the aliases of one copy, slices and transposes of them, the strides, contiguous copies, the names, loops, and the removal of the copies: C68-C74),
  the simplifier of statements (except checks, the bounds of crops, the removal of loops, moving statements out of loops, views of views, make_buffer that is a view, lets, and the scopes of buffers), and the construction of the pipeline (`pipeline.cc`) except its bounds, its loop nest and its allocations.
* Everything under `apps/`, printing, tracing and the benchmark code.
