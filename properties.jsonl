{"id": "C01", "title": "Euclidean division and modulo", "statement": "For every numerator a and denominator b, the `/` and `%` of slinky satisfy a = b*(a/b) + a%b with 0 <= a%b < |b| when b != 0, and both are 0 when b = 0; the special-purpose positive-divisor variants agree with the general ones whenever the divisor is positive; no intermediate step overflows a 64-bit index unless a = INT64_MIN and b = -1.", "quantifier": "all integers a, b (all int64 pairs for the overflow part)", "why_tests_cant": "2^128 argument pairs; unit tests cover a few hundred", "anchors": ["slinky/base/arithmetic.h: euclidean_div, euclidean_mod, euclidean_div_positive_divisor, euclidean_mod_positive_modulus, floor_div"]}
{"id": "C02", "title": "Rounding and alignment helpers", "statement": "floor_div/ceil_div/round_div return the floor, ceiling and nearest integer of the quotient and align_down/align_up the largest multiple <= x and the smallest multiple >= x, for every x and every positive divisor.", "quantifier": "all integers a and all divisors b > 0", "why_tests_cant": "the claim ranges over an unbounded set; a test only samples it", "anchors": ["slinky/base/arithmetic.h: floor_div, ceil_div, round_div, align_down, align_up"]}
{"id": "C03", "title": "Overflow detection and saturation", "statement": "The checked operations report overflow exactly when the mathematical result does not fit the type (and otherwise return the mathematical result), and the saturating operations return the representable value nearest the mathematical result.", "quantifier": "all pairs of values of a two's-complement type of any width >= 2 bits", "why_tests_cant": "the corner cases are sparse in a 2^128 space", "anchors": ["slinky/base/arithmetic.h: add_sat, sub_sat, mul_sat, div_sat, add_overflows, sub_overflows, mul_overflows, add_with_overflow, sub_with_overflow, mul_with_overflow"]}
{"id": "C04", "title": "gcd and lcm", "statement": "gcd(a,b) of non-negative a,b is the greatest common divisor and lcm(a,b) of positive a,b the least common multiple; the gcd loop terminates on every input.", "quantifier": "all natural a, b", "why_tests_cant": "the claim ranges over an unbounded set; a test only samples it", "anchors": ["slinky/base/arithmetic.h: gcd, lcm"]}
{"id": "C05", "title": "Staircase sum bounds", "statement": "The interval returned for the sum of two staircase functions ((x+a1)/b1)*c1 + ((x+a2)/b2)*c2 contains the value of that sum at every integer x, and every finite end is attained.", "quantifier": "all integers x and all six coefficients", "why_tests_cant": "x is unbounded; a test can only try finitely many x per coefficient choice", "anchors": ["slinky/base/arithmetic.cc: staircase_sum_bounds", "slinky/base/arithmetic.h: staircase"]}
{"id": "C06", "title": "Congruence (modulus/remainder) arithmetic", "statement": "If x is in the congruence class set described by A and y by B, then x+y, x-y, x*y, x/y, x%y are in the sets described by A+B, A-B, A*B, A/B, A%B; A|B contains everything in A or B; A&B contains everything in both; also when the 64-bit computation of the result overflows.", "quantifier": "all modulus/remainder pairs and all members", "why_tests_cant": "the claim ranges over an unbounded set; a test only samples it", "anchors": ["slinky/base/modulus_remainder.h"]}
{"id": "C07", "title": "Machine evaluation equals mathematical evaluation", "statement": "If evaluating an expression performs no 64-bit overflow then the value returned is the mathematical value of the expression (with division/modulo by zero = 0, logical results in {0,1}); evaluation of a defined expression in which every variable read is set never fails otherwise, and it leaves every variable of the context as it was.", "quantifier": "all expressions, all contexts", "why_tests_cant": "expressions and contexts are unbounded", "anchors": ["slinky/runtime/evaluate.cc: evaluator, evaluate", "slinky/runtime/evaluate.h: make_binary, eval_context"]}
{"id": "C08", "title": "Structural comparison is a total order", "statement": "compare/node_less on expressions is a strict total order up to structural equality: irreflexive, antisymmetric, transitive, total, and match(a,b) holds exactly when a and b are the same expression structurally; hence using expr as std::map keys is sound.", "quantifier": "all expressions a, b, c", "why_tests_cant": "the claim ranges over an unbounded set; a test only samples it", "anchors": ["slinky/builder/substitute.cc: matcher, match, compare", "slinky/builder/substitute.h: node_less"]}
{"id": "C09", "title": "depends_on is sound", "statement": "If depends_on(e, x) reports nothing, then the value of e is the same for all values of x; is_pure expressions do not read buffer metadata; find_dependencies lists every variable that can influence the value.", "quantifier": "all expressions, variables and environments", "why_tests_cant": "the claim ranges over an unbounded set; a test only samples it", "anchors": ["slinky/runtime/depends_on.cc: depends_on, is_pure, find_dependencies"]}
{"id": "C10", "title": "substitute is semantic substitution", "statement": "evaluate(substitute(e, x, r)) in an environment equals evaluate(e) with x bound to the value of r, respecting let shadowing, for expressions and for statements (result and effects); substitution of an expression pattern replaces only occurrences of that pattern.", "quantifier": "all expressions, replacements and environments", "why_tests_cant": "the claim ranges over an unbounded set; a test only samples it", "anchors": ["slinky/builder/substitute.cc: substitute, var_substitutor, substitutor"]}
{"id": "C11", "title": "Interval arithmetic is inclusion-sound", "statement": "For the interval operations (+ - * / with a scalar expression, unary -, | and &, select, clamp): if a value lies in each operand interval then the corresponding scalar result lies in the resulting interval (undefined ends mean unbounded), & contains exactly the common values, | contains both.", "quantifier": "all interval expressions, scalars and environments", "why_tests_cant": "the claim ranges over an unbounded set; a test only samples it", "anchors": ["slinky/runtime/expr_stmt.cc: interval_expr operators, select, clamp, box_expr operators"]}
{"id": "C12", "title": "Every rewrite rule is an identity", "statement": "Each of the rewrite rules used by the simplifier, applied to any expression matching its pattern under its predicate, yields an expression with the same value in every environment.", "quantifier": "all rules in the table, all expressions matching, all environments", "why_tests_cant": "roughly 480 rules with symbolic constants; the fuzz tests sample only a few thousand expressions", "anchors": ["slinky/builder/simplify_rules.h", "slinky/builder/rewrite.h"]}
{"id": "C13", "title": "The pattern matcher/rewriter is correct", "statement": "A successful pattern match (with commutation, optional constants and staircase patterns) binds wildcards so that the instantiated pattern has the same value as the matched expression; and the replacement built (with constant folding) has the value of the instantiated replacement; constant predicates that overflow never enable an unsound rewrite.", "quantifier": "all patterns, all expressions, all environments", "why_tests_cant": "the claim ranges over an unbounded set; a test only samples it", "anchors": ["slinky/builder/rewrite.h: match, match_any_variant, substitute, rewriter"]}
{"id": "C14", "title": "Node simplifiers preserve value", "statement": "simplify(op, a, b) for each arithmetic, comparison, logical, select and abs node returns an expression with the same value as op(a, b) in every environment.", "quantifier": "all operand expressions and environments", "why_tests_cant": "the claim ranges over an unbounded set; a test only samples it", "anchors": ["slinky/builder/simplify_exprs.cc"]}
{"id": "C15", "title": "Constant bounds are conservative", "statement": "If evaluate_constant(e)/evaluate_constant_lower_bound(e)/evaluate_constant_upper_bound(e) returns a constant then it equals / is <= / is >= the value of e in every environment.", "quantifier": "all expressions and environments", "why_tests_cant": "the claim ranges over an unbounded set; a test only samples it", "anchors": ["slinky/builder/simplify.cc: constant_evaluator, constant_lower_bound, constant_upper_bound, evaluate_constant*"]}
{"id": "C16", "title": "bounds_of is conservative", "statement": "bounds_of of each node returns an interval that contains the value of the node whenever the operand intervals contain the operand values.", "quantifier": "all nodes, operand intervals and environments", "why_tests_cant": "the claim ranges over an unbounded set; a test only samples it", "anchors": ["slinky/builder/simplify_bounds.cc: bounds_of", "slinky/builder/simplify.cc: bounds_of"]}
{"id": "C17", "title": "simplify preserves value under bounds and alignment", "statement": "simplify(e, bounds, alignment) evaluates to the same value as e in every environment in which every variable satisfies the given bounds and alignment.", "quantifier": "all expressions, bound maps, alignment maps and environments", "why_tests_cant": "the simplifier is a recursive fixpoint over an unbounded term language", "anchors": ["slinky/builder/simplify.cc: simplifier"]}
{"id": "C18", "title": "prove_true / prove_false are sound", "statement": "If prove_true(c, bounds, alignment) returns true then c evaluates to nonzero in every environment satisfying bounds and alignment; if prove_false then c evaluates to zero.", "quantifier": "all conditions and environments", "why_tests_cant": "the claim ranges over an unbounded set; a test only samples it", "anchors": ["slinky/builder/simplify.cc: prove_true, prove_false, attempt_to_prove"]}
{"id": "C19", "title": "Cropping a buffer", "statement": "After crop(d, min, max) the buffer's bounds in d are the intersection of the old bounds and [min,max], every other dim is unchanged, and every index tuple inside the cropped bounds refers to the same address as before (folded and unfolded dims); an empty crop yields a null base; cropping twice equals cropping to the intersection.", "quantifier": "all buffers, dims, crop bounds, indices", "why_tests_cant": "the claim ranges over an unbounded set; a test only samples it", "anchors": ["slinky/runtime/buffer.h: raw_buffer::crop, dim"]}
{"id": "C20", "title": "Slicing a buffer", "statement": "After slice(d, at) with at in bounds the buffer has one dimension less and index tuple i refers to the address that the tuple with `at` inserted at d referred to; an out of bounds slice yields a null base; slicing several dims at once equals slicing one at a time.", "quantifier": "all buffers, dims, positions, indices", "why_tests_cant": "the claim ranges over an unbounded set; a test only samples it", "anchors": ["slinky/runtime/buffer.h: raw_buffer::slice"]}
{"id": "C21", "title": "Translating, fusing and sorting dims preserve addresses", "statement": "translate shifts all indices without moving elements; fuse, sort_dims and optimize_dims preserve the multiset of (address of buffer 1, ..., address of buffer n) tuples visited over the bounds of the first buffer.", "quantifier": "all buffers and dims", "why_tests_cant": "the claim ranges over an unbounded set; a test only samples it", "anchors": ["slinky/runtime/buffer.h: translate, fuse, sort_dims, optimize_dims, fuse_contiguous_dims", "slinky/runtime/buffer.cc"]}
{"id": "C22", "title": "Automatic strides give a valid layout", "statement": "After init_strides/allocate with some strides given and the others automatic, distinct in-bounds index tuples (up to folding and explicit overlap) have non-overlapping elements and all of them lie inside the reported allocation size with the requested alignment.", "quantifier": "all ranks, extents, element sizes, fold factors and preset strides", "why_tests_cant": "the claim ranges over an unbounded set; a test only samples it", "anchors": ["slinky/runtime/buffer.cc: init_strides, init_strides_impl, alloc_size, raw_buffer::make, allocate"]}
{"id": "C23", "title": "size_bytes covers every element", "statement": "size_bytes/flat bounds computed from the dims enclose the byte range of every in-bounds element, folded or not, with positive, negative or zero strides, and both ends are attained for non-empty buffers.", "quantifier": "all buffers and in-bounds indices", "why_tests_cant": "the claim ranges over an unbounded set; a test only samples it", "anchors": ["slinky/runtime/buffer.h: flat_offset_bytes, contains", "slinky/runtime/buffer.cc: size_bytes, calculate_flat_bounds"]}
{"id": "C24", "title": "for_each_element visits every element exactly once", "statement": "for_each_element(f, a, others...) calls f exactly once per index tuple in a's bounds with the addresses of that tuple in each buffer, null for the others where the tuple is out of bounds or the base is null, also for folded, broadcast and empty buffers.", "quantifier": "all buffers of any rank", "why_tests_cant": "the claim ranges over an unbounded set; a test only samples it", "anchors": ["slinky/runtime/buffer.h: for_each_element", "slinky/runtime/buffer.cc: for_each_impl"]}
{"id": "C25", "title": "for_each_contiguous_slice covers every element exactly once", "statement": "The (pointer, extent) slices passed to the callback partition the elements of the first buffer, and within each slice the element k of every buffer is at pointer + k*elem_size (or the pointer is null and all are out of bounds).", "quantifier": "all buffers of any rank", "why_tests_cant": "the claim ranges over an unbounded set; a test only samples it", "anchors": ["slinky/runtime/buffer.h: for_each_contiguous_slice", "slinky/runtime/buffer.cc: for_each_impl"]}
{"id": "C26", "title": "copy and pad are pointwise copies", "statement": "After copy(src, dst, padding) every element of dst whose index is in src's bounds equals the src element, every other element of dst equals the element of padding at its indices (without padding, every index of dst must be in bounds of src), and no other memory is written; pad(in_bounds, dst, padding) overwrites exactly the elements of dst out of bounds with the elements of padding.", "quantifier": "all pairs of non-overlapping buffers, any rank, strides, folding", "why_tests_cant": "the claim ranges over an unbounded set; a test only samples it", "anchors": ["slinky/runtime/buffer.cc: copy, pad, copy_impl, pad_impl, fill"]}
{"id": "C27", "title": "parallel_for runs each iteration exactly once", "statement": "For every interleaving of any number of workers, every iteration index in [0,n) of an enqueued task is executed at most once, and exactly once when the task reports done.", "quantifier": "all n, shard counts, worker counts, interleavings", "why_tests_cant": "scheduling is nondeterministic", "anchors": ["slinky/base/thread_pool_impl.cc: task_impl::work, shard::work", "slinky/base/thread_pool.h: parallel_for"]}
{"id": "C28", "title": "A task is done only when every body returned", "statement": "task::done (and therefore wait_for) becomes true only after every one of the n bodies has returned; exactly one worker observes completion; the worker limit is never exceeded.", "quantifier": "all interleavings", "why_tests_cant": "scheduling is nondeterministic", "anchors": ["slinky/base/thread_pool_impl.cc: task_impl::work, allocate_worker, wait_for, dequeue"]}
{"id": "C29", "title": "No lost wakeups and no deadlock in the pool", "statement": "Whenever a task is unfinished, some thread can make progress: a waiter never sleeps while the task it waits for is complete.", "quantifier": "all interleavings", "why_tests_cant": "scheduling is nondeterministic", "anchors": ["slinky/base/thread_pool_impl.cc: wait_for, atomic_call"]}
{"id": "C30", "title": "Semaphores", "statement": "semaphore_wait on several semaphores subtracts all counts atomically and only when every one is available; counts never become negative; total signalled = total waited + remaining in every interleaving; a wait does not proceed before the matching signals.", "quantifier": "all interleavings of any number of signal/wait operations", "why_tests_cant": "scheduling is nondeterministic", "anchors": ["slinky/runtime/evaluate.cc: semaphore_init, semaphore_signal, semaphore_wait"]}
{"id": "C31", "title": "Evaluating a statement restores the context", "statement": "After evaluate(s) returns, every symbol of the context has the value (and every buffer the metadata) it had before, whatever declarations, crops, slices, transposes and loops s performs and whether or not it failed.", "quantifier": "all statements, contexts, callbacks", "why_tests_cant": "the claim ranges over an unbounded set; a test only samples it", "anchors": ["slinky/runtime/evaluate.cc: eval(let_stmt), eval(crop_buffer), eval(crop_dim), eval(slice_buffer), eval(slice_dim), eval(transpose), eval(allocate), eval(make_buffer), eval(clone_buffer), eval(loop)"]}
{"id": "C32", "title": "Serial and parallel loops run the same iterations", "statement": "A parallel loop runs its body for exactly the loop variable values min, min+step, ..., <= max that the serial loop runs.", "quantifier": "all bounds and steps", "why_tests_cant": "the claim ranges over an unbounded set; a test only samples it", "anchors": ["slinky/runtime/evaluate.cc: eval_loop_serial, eval_loop_parallel"]}
{"id": "C33", "title": "Errors stop execution and are reported", "statement": "If any call or check fails, evaluation stops (no later statement of a serial block or loop runs) and the first failing result is returned; otherwise 0 is returned; a parallel loop returns a failure value of one of its iterations iff one failed.", "quantifier": "all statements and failure points", "why_tests_cant": "the claim ranges over an unbounded set; a test only samples it", "anchors": ["slinky/runtime/evaluate.cc: eval(block), eval(loop), eval(check), eval(call_stmt)"]}
{"id": "C34", "title": "Allocations are released exactly once", "statement": "Every allocation made while evaluating a statement is freed exactly once, after the last use of its scope, on success and on failure.", "quantifier": "all statements, failure points", "why_tests_cant": "the claim ranges over an unbounded set; a test only samples it", "anchors": ["slinky/runtime/evaluate.cc: eval(allocate)"]}
{"id": "C35", "title": "Reference counting", "statement": "An object managed by ref_count is destroyed exactly once, when its last reference goes away, and never while a reference exists, under any sequence of copies, moves, assignments, take and releases.", "quantifier": "all operation sequences (histories)", "why_tests_cant": "histories are unbounded", "anchors": ["slinky/base/ref_count.h"]}
{"id": "C36", "title": "Symbol maps and name contexts", "statement": "node_context::insert_unique returns a symbol different from every existing one, name and lookup are inverse; a scoped value restores the previous value when the scope ends, in LIFO nesting.", "quantifier": "all histories of insertions and scopes", "why_tests_cant": "the claim ranges over an unbounded set; a test only samples it", "anchors": ["slinky/runtime/expr.h: symbol_map, scoped_value_in_symbol_map", "slinky/runtime/expr_stmt.cc: node_context"]}
{"id": "C37", "title": "Set and span utilities", "statement": "empty_intersection on sorted ranges is true exactly when no element is common; permute places elements by index.", "quantifier": "all sorted ranges", "why_tests_cant": "the claim ranges over an unbounded set; a test only samples it", "anchors": ["slinky/base/set.h: empty_intersection", "slinky/base/span.h: permute"]}
{"id": "C38", "title": "Statement builders preserve meaning", "statement": "block::make flattens nested blocks and drops undefined statements without changing the sequence of effects; commutative operand canonicalization in the expression builders does not change values; boolean(x), is_boolean, is_positive, ... are semantically correct.", "quantifier": "all statements/expressions", "why_tests_cant": "the claim ranges over an unbounded set; a test only samples it", "anchors": ["slinky/runtime/expr_stmt.cc: block::make, make_bin_op, boolean, is_boolean, is_positive, is_non_negative"]}
{"id": "C39", "title": "Folding a buffer keeps live data intact", "statement": "If a buffer dimension is folded with factor F and at any time only indices in a window of at most F consecutive positions are live, no live element is overwritten by writing another live element: two indices share storage iff they are congruent mod F.", "quantifier": "all fold factors, windows and indices", "why_tests_cant": "the claim ranges over an unbounded set; a test only samples it", "anchors": ["slinky/runtime/buffer.h: dim::flat_offset_bytes", "slinky/builder/slide_and_fold_storage.cc"]}
{"id": "C40", "title": "Deshadowing and let restructuring preserve meaning", "statement": "Renaming declarations apart, removing unused lets and substituting trivial lets does not change the value of any expression (or the effect of any statement).", "quantifier": "all expressions/statements", "why_tests_cant": "the claim ranges over an unbounded set; a test only samples it", "anchors": ["slinky/builder/optimizations.cc: deshadow", "slinky/builder/simplify.cc: visit_let"]}
{"id": "C41", "title": "canonicalize_nodes keeps the statement", "statement": "canonicalize_nodes(s) replaces parts of s by parts that are the same in every respect the evaluator can observe (symbols, bounds, steps, workers, storage, calls): evaluating the result performs the same calls and allocations with the same results.", "quantifier": "all statements and all environments they are evaluated in", "why_tests_cant": "the claim ranges over an unbounded set; a test only samples it", "anchors": ["slinky/builder/optimizations.cc: node_canonicalizer, canonicalize_nodes", "slinky/builder/substitute.cc: matcher, compare, node_less"]}
{"id": "C42", "title": "optimize_symbols keeps the meaning and does not make races", "statement": "optimize_symbols(s), which lets crops, slices, transposes and clones reuse the symbol of their source in place and wraps the bodies of parallel loops and asyncs into closures, evaluates like s: the same result, the same calls, checks and allocations, the same buffers afterwards. A buffer is only mutated in place by the task that declared it, and everything that may run in parallel is a closure of exactly the symbols it uses.", "quantifier": "all statements, all environments and all worlds", "why_tests_cant": "the pass is a recursive rewrite of an unbounded statement language and the result runs concurrently", "anchors": ["slinky/builder/optimizations.cc: reuse_shadows, optimize_symbols, insert_closures", "slinky/builder/substitute.cc: substitute"]}
{"id": "C43", "title": "fuse_siblings keeps the meaning", "statement": "fuse_siblings(s) merges declarations that follow each other in a block and declare the same buffer (same kind, source and parameters). Evaluating the result gives the same result, calls and checks in the same order with the same buffers; if allocations are merged, it only allocates less. No two neighbours that declare the same buffer remain.", "quantifier": "all statements, all environments and all worlds", "why_tests_cant": "the pass is a recursive rewrite of an unbounded statement language", "anchors": ["slinky/builder/optimizations.cc: sibling_fuser, fuse_siblings"]}
{"id": "C44", "title": "implement_copy implements the copy", "statement": "A copy statement dst(x, y, ...) = src(f, g, ...) is replaced by loops around calls of the copy function with views of src and parts of dst. Whenever the replacement succeeds, the parts together are exactly the elements of dst, and in each call the element of the view at the same indices is the element of src at (f, g, ...), or neither exists (so that it is padded). In memory, dst is then the copy (padded where src has no element) and nothing else is changed.", "quantifier": "all copies (any rank, any index expressions, scales, offsets, selects, broadcasts), all bounds and layouts of src and dst", "why_tests_cant": "the shapes, index expressions and bounds are unbounded, and which indices are looped or passed to the copy function depends on them", "anchors": ["slinky/builder/optimizations.cc: implement_copy, is_copy, is_copy_dst_dim, is_linear"]}
{"id": "C45", "title": "Sliding windows and folded storage keep what is needed", "statement": "When a produced buffer is only computed incrementally in a loop (sliding window) and its dimension is folded, every element that an iteration of the consumer reads has been produced by this or an earlier iteration, and is still in its place of the folded buffer when it is read - also if the loop is pipelined and the producer is ahead by as many iterations as there are workers.", "quantifier": "all loops, bounds of the consumer, strides of the loop, numbers of workers and points in the execution", "why_tests_cant": "loop bounds, required bounds and the progress of a pipelined producer are unbounded", "anchors": ["slinky/builder/slide_and_fold_storage.cc: slide_and_fold_buffer, where_true_upper_bound, is_monotonic, visit_call_or_copy, resolve_worker_count"]}
{"id": "C46", "title": "Pipelined loops keep the order and complete", "statement": "In a loop that is run as a pipeline by several threads, every synchronised stage runs the iterations in order and one at a time, after the earlier stages of the same iteration; no thread gets ahead of an unfinished stage by more iterations than there are workers, so that what a stage reads from a folded buffer is still there; and the loop always completes, whatever the order in which the threads run.", "quantifier": "all interleavings of any number of workers, all numbers of stages and iterations, all loop bounds and steps", "why_tests_cant": "scheduling is nondeterministic and the histories are unbounded", "anchors": ["slinky/builder/slide_and_fold_storage.cc: loop_info::add_synchronization, mutate, add_synchronization_buffers, visit(loop)", "slinky/runtime/evaluate.cc: eval_semaphore_wait, eval_semaphore_signal, eval_loop_parallel", "slinky/base/thread_pool_impl.cc: enqueue, shard::work"]}
{"id": "C47", "title": "Bounds inference allocates and checks everything that is read", "statement": "Given the bounds of the inputs of every func in terms of the dimensions of its outputs, the buffers that a pipeline allocates, the checks it makes of the input buffers and the crops it makes in loops are such that every element that a func reads to compute an element of its outputs is within the bounds of the buffer it reads; and the iterations of a loop compute every element of the outputs of the loop exactly once.", "quantifier": "all pipelines, bounds expressions, sizes of the outputs, points of the outputs and elements that are read", "why_tests_cant": "the bounds are symbolic expressions that must be right for every size", "anchors": ["slinky/builder/pipeline.cc: get_output_bounds, compute_input_bounds, compute_allocation_bounds, substitute_buffer_dims, produce_allocation, add_input_checks, make_buffers, crop_for_loop, get_loop_bounds", "slinky/builder/simplify.cc: bounds_of, visit(check)"]}
{"id": "C48", "title": "The schedule computes every func once, in time and where it should be", "statement": "The pipeline builder puts every func that is needed for the outputs into the loop nest exactly once, inside its own loops and inside loops that enclose all of its consumers: the ones the user asked for with compute_at, otherwise the innermost such loops. When the nest runs, all calls of a func in one iteration of these loops come before any call of a consumer in this iteration, for any number of iterations of every loop. If the funcs do not depend on themselves and there are no explicit locations, there always is a schedule; a cycle is refused.", "quantifier": "all pipelines (graphs of funcs with shared producers), all loops and explicit locations, all numbers of iterations", "why_tests_cant": "the graphs and the executions are unbounded", "anchors": ["slinky/builder/pipeline.cc: topological_sort, find_path_from_root, compare_paths_up_to, lca, compute_innermost_locations, pipeline_builder::build, make_loop"]}
{"id": "C49", "title": "Every buffer is allocated once, around all of its uses, where the user asked for it", "statement": "The statement that the pipeline builder makes has exactly the calls and loops of the schedule, an allocation of every buffer that is computed and is not an output of the pipeline at exactly one place, and a declaration of every constant that is used at exactly one place, and no other allocations or constants. The scope of an allocation contains the call that computes the buffer and all calls that read it; the scope of a constant contains all calls that read it. An allocation is in the loop that the user asked for with store_at (the root by default), if this is a loop around the place where the buffer is computed.", "quantifier": "all pipelines (graphs of funcs with shared producers, copies, padded copies, constants and several outputs), all schedules and all locations for the storage", "why_tests_cant": "the graphs are unbounded, and the algorithm interleaves lifetimes, copies and constants", "anchors": ["slinky/builder/pipeline.cc: compute_deps_count, produce, produce_allocation, has_all_allocations, place_constrained_buffers, place_constant_buffers, lay_out_allocations, pipeline_builder::build, make_loop, make_buffers"]}
{"id": "C50", "title": "Early frees do not change the program and are not too early", "statement": "insert_early_free adds frees of heap allocations after the last statement that uses them. In every execution of the result, every allocation is made once, then used any number of times and then freed exactly once (by the added free or at the end of its scope): never used after it was freed, never freed twice, and nothing that is not an allocation is freed. Otherwise the executions are the same: they make the same allocations and uses in the same order and succeed or fail in the same way, and at every point no more allocations are live than before.", "quantifier": "all statements, all executions: any order of threads and iterations, any number of iterations, any failing call, check or allocation", "why_tests_cant": "the executions are nondeterministic and unbounded", "anchors": ["slinky/builder/optimizations.cc: insert_free_into_allocate, early_free_inserter, insert_early_free", "slinky/runtime/evaluate.cc: eval_free, eval(allocate)"]}
{"id": "C51", "title": "Tasks made from a block keep the order of dependent statements", "statement": "parallelize_tasks(s) makes statements of blocks run at the same time. In every execution of the result, whatever the interleaving of the threads and wherever an error stops them, a call, copy or check runs only after everything that comes before it in s and that it depends on (one of them writes memory that the other one reads or writes, or one is a check of a buffer that the other one uses), through any crops, slices, transposes and clones of the buffers; nothing is lost or done twice; and what can run at the same time is independent, if that was so in s. So the memory at the end is the same.", "quantifier": "all statements, all environments in which different buffers have different memory, all interleavings and all points at which an error stops the execution", "why_tests_cant": "the order of threads is not determined by a test, and the graph of dependencies is unbounded", "anchors": ["slinky/builder/optimizations.cc: task_parallelizer, parallelize_tasks", "slinky/builder/optimizations.h: parallelize_tasks", "slinky/runtime/depends_on.cc: find_buffer_data_dependency"]}
{"id": "C52", "title": "Slicing off dimensions a call does not care about changes nothing", "statement": "A call can be made with min_rank, which says that it does the same when dimensions (from min_rank) in which its outputs have one index are sliced off, from the outputs and the inputs, at this index. If calls keep this promise, remove_pure_dims(s) has the same result, runs the same calls in the same order with buffers that are the same up to such dimensions, and does the same allocations and checks as s.", "quantifier": "all statements, all values of min_rank, all environments, schedules and histories", "why_tests_cant": "the dimensions are found through any nesting of crops, slices, transposes, clones, allocations and shadowing", "anchors": ["slinky/builder/optimizations.cc: pure_dims_remover, remove_pure_dims", "slinky/runtime/stmt.h: call_stmt::attributes::min_rank"]}
{"id": "C53", "title": "Simplifying the bounds of a crop never changes the crop", "statement": "simplify may replace the bounds of a crop_dim or crop_buffer by simpler ones, drop a bound that the buffer satisfies anyway, and remove tests for an empty crop. The cropped buffer is the same as before, or both crops are empty; and what the simplifier assumes afterwards about the bounds of the cropped dimension is true.", "quantifier": "all bounds of a crop (min, max, or both), all facts known about the bounds of the dimension and about variables, all values of variables and buffers", "why_tests_cant": "The removal of redundant bounds goes through sums, products, quotients, min, max and selects, using bounds that are proved for symbolic values; tests evaluate a few pipelines, not every bound, every sign of a scale and every known fact", "anchors": ["slinky/builder/simplify.cc:1940-2112 enumerate_bounds, remove_redundant_bounds, mutate_crop_bounds", "slinky/builder/simplify.cc:508-529 mutate(interval_expr)"]}
{"id": "C54", "title": "Concatenations and stacks copy each element from the right source", "statement": "func::make_concat(srcs, dst, dim, bounds) makes a statement after which the element of dst at x with bounds[i] <= x[dim] < bounds[i+1] is the element of source i at x with x[dim] - bounds[i]; func::make_stack(srcs, dst, dim) makes one after which the element of dst with the index i in dim is the element of source i at the other indices. Elements that no source has, and all other memory, are not changed.", "quantifier": "all numbers of sources, ranks, dimensions, ranges (any expressions), bounds and layouts of the buffers and memory", "why_tests_cant": "the number of sources, the sizes and the layouts are unbounded, and the statement is a nest of crops, slices and loops that depends on them", "anchors": ["slinky/builder/pipeline.cc: func::make_copy, func::make_concat, func::make_stack, make_copy_func, func::make_call", "slinky/builder/optimizations.cc: implement_copies, implement_copy"]}
{"id": "C55", "title": "A loop that the simplifier removes is replaced by one call for the same elements", "statement": "simplify may replace a serial loop around a call on crops of buffers by one call on larger crops. The call is made exactly if the loop has an iteration, with the same scalars, and the elements of each of its buffers are exactly the elements that this buffer has in the calls of the iterations, at the same addresses. A loop that is proved to be empty does nothing; a loop that is proved to have at most one iteration is its body.", "quantifier": "all loops (bounds, steps), all nests of crops around a call, all bounds of the crops, all buffers and environments, all facts the simplifier knows", "why_tests_cant": "the loop bounds, crop bounds and buffers are symbolic; whether the crops of successive iterations leave no gap and what their union is must be right for every value and for every number of iterations", "anchors": ["slinky/builder/simplify.cc:1346-1386 drop_loop", "slinky/builder/simplify.cc:1388-1520 visit(const loop*)"]}
{"id": "C56", "title": "Computing in place does not change results", "statement": "When a call says (allow_in_place) that an output may be computed in place of an input, the pipeline may give both the same memory. The outputs of the pipeline then have the same values as without in-place computation, the inputs of the pipeline are not changed, no two outputs of a call share memory, and a call gets an output that shares memory with an input only if its attributes allow it for this pair.", "quantifier": "all pipelines: all orders of calls, all nestings of allocations, crops and clones, all attributes, all contents of the inputs, all calls", "why_tests_cant": "whether a buffer is used after a call depends on the whole pipeline, and chains of calls make many buffers share memory; the number of calls and buffers is unbounded", "anchors": ["slinky/builder/optimizations.cc:1007-1213 in_place_aliaser, alias_in_place", "slinky/runtime/stmt.h: call_stmt::attributes"]}
{"id": "C57", "title": "Narrowing the scope of a buffer changes nothing a pipeline does", "statement": "simplify moves statements that do not use a buffer out of the declaration (make_buffer, constant, crop, slice, transpose) or the allocation of the buffer, and removes declarations and allocations that are not used. The simplified program makes the same calls with the same arguments in the same order and has the same result; only the times of allocations and frees change. After it, only statements that use a buffer are between the first and the last use of an allocation, and only statements that use a declared buffer are in its scope.", "quantifier": "all declarations and allocations, all bodies (any number of statements, of any kind), all environments, all results of calls", "why_tests_cant": "which statements use the buffer and how they alternate with others is unbounded; the declaration is evaluated again, later, after calls that were inside of it", "anchors": ["slinky/builder/simplify.cc:71-99 lift_decl_invariants", "slinky/builder/simplify.cc:1650-1688 visit(const allocate*)", "slinky/builder/simplify.cc:1874-1932 visit(const make_buffer*), visit(const constant_buffer*)", "slinky/builder/simplify.cc:2186-2233 visit_crop", "slinky/builder/simplify.cc:2336-2360 visit_slice", "slinky/builder/simplify.cc:2428-2443 visit(const transpose*)"]}
{"id": "C58", "title": "Moving statements out of loops computes the same values", "statement": "simplify moves statements of the body of a loop that do not depend on the loop variable to before the loop; a statement that depends on the loop only by the bounds of its crops is moved too, without these bounds, if a moved statement uses what it computes. The program then computes the same: every element that the loop computes has the same value at the end, every element is computed before it is used, every statement of the body is still there (in the loop or before it), and no moved statement depends on the loop.", "quantifier": "all bodies (any number of statements of any kind), all loops, all aliases and folded dimensions, all memories and all meanings of calls", "why_tests_cant": "whether a chain of statements can be moved depends on who produces what for whom, also through aliases, over all iterations; the number of statements and iterations is unbounded", "anchors": ["slinky/builder/simplify.cc:1280-1294 buffers_accessed_via_aliases", "slinky/builder/simplify.cc:1296-1344 remove_loop_var_in_crop_bounds", "slinky/builder/simplify.cc:1425-1509 visit(const loop*)"]}
{"id": "C59", "title": "A view of a view is replaced by the same view of the original buffer", "statement": "simplify replaces a crop of a crop (of a crop ...) by one crop of the original buffer, a slice of a crop by a slice of the original buffer, and a transpose of a transpose by one transpose; it makes a crop or slice of one dimension a crop_dim or slice_dim, drops bounds and indices at the end that do nothing, and removes views that do nothing. The body sees the same buffer: same memory, same bounds, strides and fold factors in the same dimensions, so that the pipeline does the same.", "quantifier": "all chains of crops (any length, any number of dimensions, any bounds, also those that use the metadata of the cropped buffer), all slices and all transposes, all buffers and environments", "why_tests_cant": "the number of views in a chain, their dimensions and the bounds (symbolic expressions, which can use the metadata of the buffer that is replaced) are unbounded; whether a slice is inside of a crop is decided by proof", "anchors": ["slinky/builder/simplify.cc:2114-2233 visit_crop", "slinky/builder/simplify.cc:2247-2374 prove_slice_unaffected_by_crop, visit_slice", "slinky/builder/simplify.cc:2376-2443 visit(const transpose*)", "slinky/builder/substitute.cc:854-926 substitute_buffer, make_dims_from_bounds", "slinky/base/span.h:181-187 permute"]}
{"id": "C60", "title": "A make_buffer that is a view of a buffer is replaced by the same view", "statement": "simplify replaces a make_buffer whose base is buffer_at of a buffer by a slice, a crop or a transpose of the buffer if its dimensions are those of the view. The body sees the same buffer as before: same memory, element size, rank and dimensions, so that the pipeline does the same.", "quantifier": "all arguments of buffer_at, all dimensions of the make_buffer (any number, any expressions), all buffers and environments, all bodies", "why_tests_cant": "the number of dimensions and the bounds are unbounded, and the decision is made on expressions, not on the values of the bounds and of the metadata of the buffer", "anchors": ["slinky/builder/simplify.cc:1690-1700 is_buffer_dim", "slinky/builder/simplify.cc:1747-1873 visit(const make_buffer*)"]}
{"id": "C61", "title": "User expressions mean the buffers of the pipeline, not crops of them", "statement": "The expressions that a user gives to a pipeline (bounds and crops of inputs, steps of loops, scalars of calls, bounds of copies) can use the metadata of the inputs and outputs of the pipeline, and the addresses of elements of them if the indices do not depend on loops. Wherever the pipeline evaluates such an expression, also inside of loops, crops and slices that shadow the inputs and outputs, its value is the value with the inputs and outputs as they are at the start of the pipeline (and all other variables as they are there).", "quantifier": "all expressions, any number of them, all inputs and outputs, all declarations that shadow them, all values of the other variables", "why_tests_cant": "the expressions are arbitrary and shared by the whole pipeline; the scopes in which they are evaluated depend on the schedule", "anchors": ["slinky/builder/pipeline.cc:256-312 sanitize_user_exprs", "slinky/builder/pipeline.cc:337-350 compute_input_bounds", "slinky/builder/pipeline.cc:736,792,1391,1406"]}
{"id": "C62", "title": "Simplifying lets of a statement does not change what it does", "statement": "The simplifier replaces lets whose value is a number or a variable, gives lets with the same value one name, removes lets that are not used and merges lets in lets. If the simplifications of the values and of the body are right, the simplified statement does what the statement does, and does not use variables that are not in scope.", "quantifier": "all lists of lets, all bodies, all environments, all logs, all simplifiers of expressions and of the body that are right", "why_tests_cant": "the lets refer to each other in all ways, and the values that are replaced depend on the simplifications of the earlier ones", "anchors": ["slinky/builder/simplify.cc:1183-1253 visit_let", "slinky/builder/simplify.cc:1120-1122 should_substitute"]}
{"id": "C63", "title": "A pipeline sees what is passed to it, and nothing else", "statement": "The result of running a pipeline, and what it does, depend only on the arguments, the inputs and the outputs that are passed (and on the world), not on what is in the context. So one context can be used for any number of runs, of any pipelines, with any arguments, and a pipeline that is set up once can be run again. The buffer objects that are passed are as they were after each run. (The objects that are passed are different objects.)", "quantifier": "all pipelines, all arguments, all contents of the context, all sequences of runs, also runs that fail", "why_tests_cant": "a stale value in a reused context is only seen if a pipeline reads a symbol that it does not set, or does not restore one; tests use a new context", "anchors": ["slinky/runtime/pipeline.h:14-39 pipeline", "slinky/runtime/pipeline.cc:10-48 setup, evaluate", "slinky/runtime/evaluate.h:46-90 eval_context", "slinky/runtime/evaluate.cc evaluate"]}
{"id": "C64", "title": "Folding a slice of a constant buffer", "statement": "If a constant buffer is sliced at constant indices, the simplifier makes a new constant. It has the dimensions, the bounds and the element size of the slice, it has data if and only if the slice has, and each element is a copy of the element of the slice at the same indices. The constant itself is not changed, and only memory that was allocated for the new constant is written.", "quantifier": "all constants of any rank, bounds, strides and padding, all lists of indices (defined and undefined, in and out of bounds)", "why_tests_cant": "any rank and any subset of sliced dimensions, whose order matters (slicing one dimension renumbers the others); layouts with padding between rows", "anchors": ["slinky/builder/simplify.cc:218-260 fold_slice_of_const_buffer", "slinky/builder/simplify.cc:2324-2331", "slinky/runtime/buffer.cc:52-75 alloc_size", "slinky/runtime/buffer.cc:91-111 raw_buffer::make"]}
{"id": "C65", "title": "The metadata of buffers that the simplifier declares", "statement": "Simplifying the metadata of a buffer declaration does not change the buffer. Leaving out metadata that are defaults, dropping fold factors of dimensions that are within one fold, and dropping broadcasts at the end, keeps the bounds and strides of all dimensions and the address of every element. Writing the metadata of a make_buffer as the metadata of another buffer that they are known to equal gives the same buffer, so the program does the same.", "quantifier": "all dimensions, fold factors and strides, all provers whose claims are true, all knowledge about the other buffer that is true, all programs and states", "why_tests_cant": "any rank, any metadata expressions, any order of the dimensions; a fold factor that is dropped changes addresses only for some bounds", "anchors": ["slinky/builder/simplify.cc:1606-1648 mutate_dim, mutate_buffer", "slinky/builder/simplify.cc:1702-1745 is_buffer_meta, is_buffer_dim, canonicalize_buffer", "slinky/runtime/evaluate.cc:650-690", "slinky/runtime/buffer.h:124-131 dim::flat_offset_bytes"]}
{"id": "C66", "title": "Merging equal constants", "statement": "A constant buffer is replaced by another buffer in scope only if that buffer has the same value: the same dimensions, strides and element size, and the same bytes in every element. Two constants are found to be equal if and only if they have the same value (padding is not compared), no null pointer is read, and a small constant of which there is a copy in scope is always replaced.", "quantifier": "all constants of any rank, strides and padding, all memory contents, all nestings of declarations, all symbols", "why_tests_cant": "any rank and padding, any contents of the padding, any order of symbols; which buffer is found depends on the numbering of the symbols and on what crops and slices are in scope", "anchors": ["slinky/builder/simplify.cc:53-69 buffers_equal", "slinky/builder/simplify.cc:1895-1914 visit(const constant_buffer*)", "slinky/builder/simplify.cc:2120-2346 visit_crop, visit_slice", "slinky/runtime/buffer.h:76-79"]}
{"id": "C67", "title": "Removing semaphores that do nothing", "statement": "Semaphores that only one thread uses are removed from a statement, and the statement still has the same runs: the orders in which the calls, and the waits and signals of the other semaphores, can happen are the same as before. Semaphores that two threads use are kept.", "quantifier": "all nestings of blocks, loops (serial and parallel), tasks and allocations of semaphores, all interleavings of threads", "why_tests_cant": "any program and any interleaving; a removed semaphore that is needed shows in a race in some runs only", "anchors": ["slinky/builder/optimizations.cc:2186-2277 semaphore_cleaner, cleanup_semaphores"]}
{"id": "C68", "title": "Replacing an allocation by an alias of the other buffer of a copy", "statement": "When the allocation of the source or of the destination of a copy is replaced by an alias of the other buffer, every element of the replaced buffer has the address of the element that the copy would have read it from or written it to, so that the copy can be removed. A destination that must be made bigger keeps its elements, and has a place for every element of the source; inputs and outputs are never made bigger.", "quantifier": "all ranks, bounds, strides and fold factors, all transposes, offsets, scales and broadcasts of the copy, all indices", "why_tests_cant": "any bounds of the two buffers: the wrong element is read only if there is more in the source than the copy needs, or if the alias does not start at a multiple of a fold factor", "anchors": ["slinky/builder/optimizations.cc:328-458 alias_compatible", "slinky/builder/optimizations.cc:494-640 visit(const allocate*)", "slinky/builder/optimizations.cc:703-812 alias_copy_dst, alias_copy_src", "slinky/builder/optimizations.cc:103-190 is_copy, is_copy_dst_dim", "slinky/runtime/evaluate.cc:207-225 eval_buffer_at"]}
{"id": "C69", "title": "An alias of a view is an alias of the buffer", "statement": "If an allocation is an alias of a slice or of a transpose of a buffer, then it is changed to be an alias of the buffer that starts at the same address, and each of its dimensions still stands for the same dimension of the buffer.", "quantifier": "all ranks, bounds, strides and fold factors, all slices (also of dimensions that the buffer does not have), all transposes, all indices, defined or not", "why_tests_cant": "any rank and order of the dimensions; a wrong index is an address in another part of the buffer only for some bounds", "anchors": ["slinky/builder/optimizations.cc:912-999 visit(const slice_buffer*), visit(const slice_dim*), visit(const transpose*)", "slinky/runtime/evaluate.cc:207-225 eval_buffer_at", "slinky/runtime/evaluate.cc:798-892 eval(slice_buffer), eval(slice_dim), eval(transpose)"]}
{"id": "C70", "title": "Removing the copies between a buffer and its alias", "statement": "When an allocation has become an alias of another buffer, the copies between the two, and between views of them, are removed, and what the statement does to memory does not change. No other copy is removed, and nothing is added.", "quantifier": "all statements of copies, views, other declarations and calls, all views and indices of copies, all contents of memory", "why_tests_cant": "any number and nesting of views and copies; a copy that is removed and does something shows only if the elements it writes are read later", "anchors": ["slinky/builder/optimizations.cc:199-260 copy_remover, remove_copy", "slinky/builder/optimizations.cc:494-640 visit(const allocate*)"]}
{"id": "C71", "title": "An alias has the strides that its allocation asks for", "statement": "When an allocation that asks for strides becomes an alias of another buffer, the alias has these strides, also if other allocations become aliases of the same buffer before or after it. A stride that a buffer has never changes, an input or an output is never made bigger, the elements that a buffer had are still elements of it, and the strides it gets do not make its elements share memory.", "quantifier": "all buffers, strides, bounds, transposes, and sequences of attempts to make allocations aliases of a buffer; all sound provers", "why_tests_cant": "any number of aliases, in any order; the stride decides which memory is read, and it is only seen in the callbacks", "anchors": ["slinky/builder/optimizations.cc:262-269 dim_has_stride, any_stride_defined", "slinky/builder/optimizations.cc:329-460 alias_compatible", "slinky/builder/optimizations.cc:494-640 visit(const allocate*)"]}
{"id": "C72", "title": "An alias for a memcpy is the same bytes", "statement": "When a call named memcpy copies an allocation to another buffer, and the allocation is replaced by a dense alias of that buffer, the elements of the alias are exactly the bytes from the base of the buffer on, no two elements share memory, and the memory afterwards is what the memcpy would have made. If both buffers are dense, elements with the same flat index are the same memory.", "quantifier": "all ranks, bounds, element sizes, strides and bases of the two buffers, all contents of memory", "why_tests_cant": "any rank and extents; an alias with a wrong layout shows only as wrong elements for particular shapes", "anchors": ["slinky/builder/optimizations.cc:333-340 alias_compatible", "slinky/builder/optimizations.cc:661-700 make_contiguous_dims, visit(const call_stmt*)", "slinky/builder/optimizations.cc:590-604 visit(const allocate*)"]}
{"id": "C73", "title": "An allocation becomes an alias only of a buffer that is declared there", "statement": "The buffers that an allocation may become an alias of are exactly the buffers that it, or a view of it, is copied from or to, and the alias is made where these are declared: names that are declared inside the allocation are replaced by the buffer they are views of, or not used.", "quantifier": "all statements of copies, views, allocations, loops and blocks, all names, also declared again", "why_tests_cant": "any nesting of views and allocations; a wrong name is a buffer that does not exist or another buffer of the same name", "anchors": ["slinky/builder/optimizations.cc:484-530 visit(const allocate*)", "slinky/builder/optimizations.cc:703-880 alias_copy_dst, alias_copy_src, merge_buffer_info"]}
{"id": "C74", "title": "A buffer that is made bigger in a loop is big enough for all iterations", "statement": "When a buffer that is allocated outside of loops is made bigger for an alias in the loops, and what the alias needs depends on the loop variables, the bounds that the buffer is allocated with contain every element that is needed in any iteration.", "quantifier": "all nests of loops, bounds of loops and aliases, values of the loop variables and of everything else", "why_tests_cant": "any number of loops and iterations; an element that is missing is memory after the end of the allocation", "anchors": ["slinky/builder/optimizations.cc:642-658 visit(const loop*)", "slinky/builder/simplify.cc:2499-2509 bounds_of"]}
