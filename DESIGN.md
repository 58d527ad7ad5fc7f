# Formal model of ZigZag (KULeuven-MICAS/zigzag) in Lean 4

Source read: `/repo` (python, read only, never executed). Lean project: `lean/`.

## Method

* Every Lean definition that models code carries a comment with the file and line range of the code.
* Models are total computable functions over `List`, `Nat`, `Int`, `Rat`, `Option`, `Except`.
  Exceptions of the python code are values (`Except`), mutation becomes state passing, `while` loops become
  structural recursion, well-founded recursion or fuel with a proof that the fuel suffices. Processes are transition relations.
* Python `dict`s are association lists in insertion order with a duplicate-free key invariant where needed.
* Each topic `Foo` lives in `Verif/Foo/Model.lean` (code), `Verif/Foo/Spec.lean` (independent specification, when
  the statement needs vocabulary of its own), `Verif/Foo/Lemmas.lean` and others (helpers) and `Verif/Foo/Props.lean`
  (the property theorems, each with a concrete `example` meeting the hypotheses).
* If the code does not satisfy a property, the negation is proved on a concrete reachable witness (`*_false`), and the
  part that does hold is proved with suffix `_partial`. A property is `proved` only if all of its statement is.
* Theorems are tested against wrong programs: a definition is edited like a realistic bug and the build has to fail in
  the theorem of the claim (`seeded/LOG.jsonl`).

## Trusted base

* The Lean 4.33.0 kernel. Every theorem depends on no axioms other than `propext`, `Classical.choice` and `Quot.sound`
  (checked for every theorem of the manifest).
* That the Lean definitions mirror the cited python lines (reviewed by hand).
* Python semantics: insertion ordered dicts, aliasing as described in each model, stable `sorted`, first `min`/`max`.
* Floating point rounding is modelled only in module `Float` (C08, C114, C115: correctly rounded quotients and products, unbounded exponent). Elsewhere all `float` values are exact rationals; C114 justifies this for ceilings and floors of quotients of integers below 2^53.
* External libraries replaced by a contract or a parameter: `sympy.factorint` (contract), `networkx` topological sort
  (modelled as the queue algorithm), `random` and `np.exp` (arbitrary values), `cerberus` (the schema is assumed satisfied).

Simplifications by topic (also stated at the top of each model):

| topic | simplification |
|---|---|
| Alloc, Latency | layer operands identified with memory operands (a bijection, C48) |
| SpatialMapping, Imc | order in which python sets are traversed is an arbitrary parameter |
| Cme | the accelerator of a result is its name |
| Latency | `cycles_per_op` is a whole number |
| Buffer, Ports | tables of lists are functions of the place |
| Salsa | allocator and cost model are one arbitrary function from orders to costs |
| Hierarchy | memories are known by identifier |
| Workload, Locality | nodes are known by position or id; graph given by neighbour lists in Locality |
| Imc | cost of a converter, cell area and read count of the precharge energy are parameters |
| Equation, LayerBuild | ASCII characters; a regular expression is the set of its texts; `int` accepts digits only |
| Onnx | attributes are natural numbers; a tensor attribute is given by its numbers; a wrong kind of attribute is a type error at once |
| MapInfo | one operand at a time |
| Print | colours and column widths left out; a row is its loop and its memory names |
| Save | directories exist; a file is closed before the next result; the figure of the memory hierarchy is left out; the text of a result is an arbitrary function, which may raise after some bytes |
| Pipeline | parsers, save and visualisation stages left out; layers given in topological order; mapping search and cost model are arbitrary functions, which may raise |
| Keywords | every stage is reduced to its parameter list and the keywords of the calls in `run`; one path through the pipeline is followed; checks on values are left out |
| HwOpt | fields of the yaml file that are not overwritten are one opaque value; the remaining stages are a function of the file and the mapping; array dimensions are numbers; costs are rationals; the plot and a missing output folder are left out |
| HwEq | equality of operational arrays is a parameter; costs are rationals; sha512 is any function without collisions; pickling keeps the order of dictionaries |
| Cacti | CACTI itself is a parameter (a function of the configuration, assumed to report the size and width it was asked for where the theorem says so); file accesses of one phase are one step; a crash cuts a record between lines (a cut inside a line, and the YAML error of a cut inside the quoted technology, are not modelled); text of the pool that is no record is not modelled; int(size/8) is exact |
| CactiImc | CACTI's numbers and which arrays it accepts are parameters, the shape of the lines it writes is modelled; numbers are rationals and `round(·, 7)` is a parameter; the process starts in the directory of the project |
| Float | binary64 without bounds on the exponent; CPython's int / int and float * float are assumed to round correctly, ties to even |
| Hints | python sets are lists in traversal order, the order of a new set is a parameter; the diagonal option is off; the stages after the generator appear only through the number of mappings launched before the run stops |
| Json | a file is the tree that is written, the text form is that of Python's json module; numbers are rationals; a tuple as key fails in the conversion instead of in json.dump; memory levels are represented by their texts |
| Files | the part of cerberus used by the schemas is modelled from its documentation (type, required, nullable, default, regex, allowed, min, minlength, maxlength, schema, items, oneof, valuesrules; unknown fields are errors; normalization fills defaults first); keys of mappings are texts and different; `\\d` stands for ASCII digits; which exception a refused file raises is not modelled; the regular expressions for equations and relations are parameters |
| Plot | matplotlib calls are values (position, bottom, height, text); colours, hatches, legends, axis limits, font sizes and the file are left out; energies and cycles are exact rationals; the order of the set of operands is a parameter; topological generations are given |
| CactiText | values are texts (command line arguments); of CACTI only the choice of the reader of a line is modelled, and that a later line for the same reader overrides an earlier one; an output line is its list of fields, `float` is a parameter with rational values (no infinities); paths are absolute without `.` and `..` |
| OnnxModel | the mapping of a layer is a parameter that may raise; `onnx.compose.merge_graphs` is a parameter; the attribute `branch` (read by nothing) is left out; names of operators are ASCII |
| Roles | operands of a layer have different names; memory operands are texts; lines 685-739 of the generator stage are an arbitrary continuation |
| Evaluate | a layer operand is its memory operand; ports are allocated and levels numbered before; `cycles_per_op` is a whole number; the evaluation of in-memory computing is not included |
| Search | arrays that are not for in-memory computing; the conditions `Prepared` on accelerator, layer and spatial mapping are what the earlier stages establish |
| Whole | files after the schema check; a layer operand is identified with its memory operand; prices of memories with automatic cost extraction are a parameter; arrays that are not for in-memory computing |
| Net | as Whole; layers are given in topological order; a memory without a port for the movement that limits the unrolling raises its exception earlier; an unfinished enumeration of orders (`fuel`) counts as an exception, the theorems are for enough fuel |
| Call | files are decoded documents; the regular expressions of equations and relations are parameters; operands with other names than `I1`, `I2`, `O`, outputs not linked to `O`, in-memory arrays, and entries of an ordering of the user with a negative number of iterations end with `notImplemented`; entries of an ordering that name a loop of the layer which is called `*` do too; the extraction of costs is a function of name, type, size and width |
| OnnxCall | the shapes of all tensors are part of the model; operators `If` end with `notImplemented`; nodes are parsed before the edges are added |
| Anneal | one worker process, whose result is the answer (with more, the best of several such runs with other random numbers); random draws, the shuffle and the comparison of the exponential with the draw are parameters; an exception in a worker is an exception of the call (in the code the caller waits for ever) |
| Reuse | the graph without dummy nodes (C61) is given by neighbours and the first node; the accelerator of a layer is written as a file again whose prices are those of the memories (the code copies the memory instances); all outputs are called O |
| ImcCall | the array is given as one size of wordlines and of bitlines in the file; the temporal mapping of the weights in the array is read off the lowest level of the weights; what the plots and saved files do is left out |
| Shipped | the YAML files were converted to values by a script (comments left out, of two equal keys the last one counts as in PyYAML); the files for in-memory computing are left out; two ONNX models were converted by a script that decodes the file format (attributes that are no integers are `other`) |
| LocalCall | the stages for locality on the parsed files; a layer is known by its place in the file, successors and predecessors come in the order in which edges are added, the first node is the first layer; layers with the same id are left out |
| ImcFiles | the area of a converter (a power of 10 with a rational exponent in the code) is a parameter `adcArea`; cells extracted by CACTI, precisions that are not natural numbers and arrays without the IMC flag are outside this part |
| Ports, LayerBuild | types of fields as the schema prescribes |

Not modelled: the remaining plots and printing (`visualization`), logging, pickle/yaml/json encoding, CACTI, file access,
`modify_innermost_input_mem_size` (dead code), the ONNX protobuf format.


## Properties: what is modelled and how it is proved

Status and theorem names are those of `MANIFEST.json` (prefix `Verif.` left out).

| id | property | modelled | proof | status | theorems |
|---|---|---|---|---|---|
| C01 | Loop-order enumeration is sound | multipermute.py `init`, `visit`, `permutations` as a pointer machine on a list heap | invariant of every step: the visited chain is a permutation of the input | proved | `Multiperm.permutations_sound` |
| C02 | Loop-order enumeration is complete, duplicate free and terminates | same | the order of visits refines a recursive cool-lex enumeration; completeness and absence of duplicates by induction on the multiset | proved | `Multiperm.permutations_complete` |
| C03 | Constrained enumeration equals filtered enumeration | constrained generator and constraint classes | simulation: same pointer states, filtered yields | proved | `Multiperm.constrained_eq_scan` `Multiperm.constrained_complete` `Multiperm.static_positions_iff` `Multiperm.static_positions_and_sizes_iff` `Multiperm.static_positions_out_of_range` |
| C04 | Spatial times temporal loops cover every layer dimension | `LomaEngine.get_temporal_loops` | induction over the spatial loops with an invariant per dimension | proved | `TemporalLoops.loma_covers` `TemporalLoops.loma_exact` |
| C05 | Temporal loops contain no trivial dimension and waste less than one extra iteration per spatial loop | `LomaEngine.get_temporal_loops` | induction over the spatial loops with an invariant per dimension | proved | `TemporalLoops.loma_exact` `TemporalLoops.loma_minimal` `TemporalLoops.loma_nontrivial` |
| C06 | Prime factorisation of temporal loops preserves each dimension | `get_prime_factors` with factorint as a parameter under a contract | product of prime factors; contract shown satisfiable | proved | `Lpf.prime_factors_preserve` `Lpf.prime_factors_empty` `Lpf.prime_factors_empty_limit_zero` `Lpf.factContract_primeFactorsList` |
| C07 | Limiting the number of loop factors preserves iteration counts and reaches the limit | `limit_lpfs` | invariant on products per dimension; measure is the number of factors | proved | `Lpf.limit_preserves` |
| C08 | Reported number of loop orders equals the number of orders enumerated | `compute_nb_permutations`, exact and with quotients rounded to 53 binary digits | multinomial coefficient counts the arrangements; every divisor of 22! has an odd part below 2^53 | proved | `Lpf.nb_permutations_exact` `Float.nb_permutations_float` `Float.nb_permutations_false` |
| C09 | The engine skips only orders that do not fit and fails exactly when none fits | `LomaEngine.run` over the models of generator, allocator and loop splitting | characterisation of yields; composition of C01-C13 | proved | `Engine.engine_yields_fitting` `Engine.engine_other_exception` `Engine.engine_tries_all` |
| C10 | Memory allocation keeps the loop order of every operand | memory_allocator.py `allocate_node`, `calc_size_slices`, `find_best_loop_combination` | invariants by induction on nodes; bijection between mixed radix indices and loop choices for optimality | proved | `Alloc.run_keeps_order` `Alloc.run_prefix` |
| C11 | Allocated data fits in memory | memory_allocator.py `allocate_node`, `calc_size_slices`, `find_best_loop_combination` | invariants by induction on nodes; bijection between mixed radix indices and loop choices for optimality | proved | `Alloc.run_fits` `Alloc.dimSizes_get` |
| C12 | The chosen loop combination is access-optimal | memory_allocator.py `allocate_node`, `calc_size_slices`, `find_best_loop_combination` | invariants by induction on nodes; bijection between mixed radix indices and loop choices for optimality | proved | `Alloc.run_optimal` `Alloc.search_optimal` |
| C13 | Even mapping keeps shared memories aligned | memory_allocator.py `allocate_node`, `calc_size_slices`, `find_best_loop_combination` | invariants by induction on nodes; bijection between mixed radix indices and loop choices for optimality | proved | `Alloc.run_even` |
| C14 | Stationary-loop merge-down preserves the loop nest | temporal_mapping.py merge of loops of size one and stationary loops | fixed point iteration with the sum of level indices as measure | proved | `TemporalMapping.merge_down_preserves` |
| C15 | Merge-down reaches a stationary mapping | temporal_mapping.py merge of loops of size one and stationary loops | fixed point iteration with the sum of level indices as measure | proved | `TemporalMapping.merge_down_stationary` |
| C16 | Cycles per memory level are consistent | temporal_mapping.py cycle counts and total cycle check | telescoping products | proved | `TemporalMapping.cycles_product` `TemporalMapping.cycles_step` `TemporalMapping.total_cycle_ok` `TemporalMapping.total_cycle_detects` `TemporalMapping.allocated_total_cycle` |
| C17 | Partially relevant dimension size is the number of distinct indices | layer_node.py `calc_pr_dimension_size`, `calc_tensor_size` | cardinality of the set of touched positions; exact condition for equality; counterexample | partial | `LayerNode.pr_size_partial` `LayerNode.pr_size_exact_iff` `LayerNode.pr_size_false` `LayerNode.pr_size_zero` `LayerNode.pr_total_padding` `LayerNode.tensor_size_partial` `LayerNode.operand_size_full` |
| C18 | Partially relevant loops are split without changing iteration counts | mapping_assist_funcs.py `decouple_pr_loop` | telescoping products; product per level preserved; counterexample for shared loops | proved | `Decouple.decouple_pos` `Decouple.decouple_split` `Decouple.decouple_product` `Decouple.decouple_data_size` `Decouple.decouple_reuse` `Decouple.decouple_layer_total` `Decouple.decouple_shared_false` |
| C19 | Unit counts factor in unique and duplicate parts | spatial_mapping_internal.py | telescoping products of unrollings | proved | `SpatialInternal.unit_count_factors` `SpatialInternal.serve_scope` `SpatialInternal.bw_boost` `SpatialInternal.unit_counts_monotone` `SpatialInternal.check_bottom_ok` `SpatialInternal.check_bottom_decoupled` |
| C20 | Reducing a user spatial mapping makes it valid | spatial_mapping.py with an arbitrary set order | invariant for every choice; exact condition; counterexample for C22 | proved | `SpatialMapping.check_and_reduce_valid` `SpatialMapping.check_and_reduce_id` |
| C21 | Validity check decides exactly the documented conditions | spatial_mapping.py with an arbitrary set order | invariant for every choice; exact condition; counterexample for C22 | proved | `SpatialMapping.is_valid_iff` `SpatialMapping.is_valid_false` `SpatialMapping.is_valid_assert` |
| C22 | Performance indicator ranks utilization first | spatial_mapping.py with an arbitrary set order | invariant for every choice; exact condition; counterexample for C22 | partial | `SpatialMapping.indicator_formula` `SpatialMapping.indicator_double_partial` `SpatialMapping.indicator_diverse_partial` `SpatialMapping.indicator_false` |
| C23 | Maximal unrollings respect memory bandwidth | spatial_mapping_generation.py | bounds by induction; sortedness; counterexamples for C24 and C58 (shared objects modelled by references) | proved | `SpatialGen.max_unrolling_exact` `SpatialGen.max_unrolling_total` `SpatialGen.max_unrolling_zero` |
| C24 | Capacity limiting respects memory capacity | spatial_mapping_generation.py | bounds by induction; sortedness; counterexamples for C24 and C58 (shared objects modelled by references) | partial | `SpatialGen.adjust_factors` `SpatialGen.limit_capacity_lowers` `SpatialGen.limit_capacity_fits_partial` `SpatialGen.cap_step_fits_partial` `SpatialGen.limit_capacity_false` `SpatialGen.limit_capacity_crash` |
| C25 | Generated spatial mappings are valid, ranked and bounded in number | spatial_mapping_generation.py | bounds by induction; sortedness; counterexamples for C24 and C58 (shared objects modelled by references) | proved | `SpatialGen.single_oa_exact` `SpatialGen.generate_ranked` `SpatialGen.generate_complete` `SpatialGen.generate_valid` |
| C26 | Spatial mapping conversion covers layer dimensions exactly | spatial_mapping_conversion.py `convert_user_spatial_mapping` | rational arithmetic, induction over array dimensions | proved | `Conversion.convert_exact` `Conversion.convert_of_valid` `Conversion.convert_covers` |
| C27 | Per-level spatial mapping conserves unrolling | `generate_mapping_per_mem_lvl` | conservation by induction over levels | proved | `Conversion.per_level_placement` `Conversion.per_level_conserved` `Conversion.per_level_check` |
| C28 | Adding cost results is a commutative monoid action on the totals | cost_model.py `CumulativeCME`, SumStage | commutative monoid laws on every field, folds over permutations | proved | `Cme.add_spec` `Cme.add_comm_cost` `Cme.add_assoc_cost` `Cme.add_balanced` `Cme.mul_eq_sum` `Cme.mul_ok` `Cme.add_assoc_success_false` |
| C29 | Total energy is the sum of its breakdown | cost_model.py energy | sums over levels and directions; bounds of ceilings | proved | `Energy.energy_breakdown` `Energy.energy_balanced` `Energy.energy_nonneg` `Energy.table_access_bounds` |
| C30 | Latency figures are ordered | cost_model.py loading, off-loading, overall latency | order reasoning over all ports and links; counterexamples | partial | `Latency.overall_ordered` `Latency.latency_ordered_partial` `Latency.latency_ordered_false` |
| C31 | Balanced reduction conserves the requested amount and respects minimums | `reduce_balanced` | conservation by induction over the list; counterexample for the minimum | partial | `Balance.balance_conserves` `Balance.balance_exact` `Balance.balance_single` `Balance.balance_ok` `Balance.balance_minimum_partial` `Balance.balance_minimum_false` |
| C32 | Memory updating windows union is bounded | window union and port activity | busy cycles as a set of natural numbers; inclusion-exclusion; bounds | proved | `Window.window_union` `Window.window_union_le` `Window.window_union_ge` `Window.window_union_le_sum` `Window.window_union_perm` `Window.loop_nest_consistent` `Window.window_union_error_false` |
| C33 | Combined port stalls are non-negative and dominate | window union and port activity | busy cycles as a set of natural numbers; inclusion-exclusion; bounds | proved | `Window.port_stall_bounds` `Window.port_stall_zero_iff` `Window.stall_comb_bounds` `Window.stall_comb_attained` `Window.port_stall_mono` |
| C34 | Optimising stages return the first best result | reduce_stages.py | fold invariant | proved | `Stages.min_energy` `Stages.min_latency` `Stages.min_edp` `Stages.min_energy_best` `Stages.min_rejects` |
| C35 | Sum stage adds every layer exactly once | cost_model.py `CumulativeCME`, SumStage | commutative monoid laws on every field, folds over permutations | proved | `Cme.sum_stage_totals` `Cme.sum_stage_energy_latency` `Cme.sum_stage_order` `Cme.sum_stage_ok` |
| C36 | Multiprocessing gather returns all results for every completion schedule | MultiProcessingGatherStage as a transition system | invariant over every schedule, measure for termination | partial | `Stages.gather_all_partial` `Stages.gather_progress` `Stages.gather_terminates` `Stages.gather_small_false` `Stages.gather_failure_false` |
| C37 | Simulated annealing keeps a legal order and the best state | salsa engine and state with arbitrary random draws | invariant over iterations | proved | `Salsa.salsa_orders` `Salsa.salsa_best_accepted` `Salsa.salsa_best` `Salsa.salsa_count` `Salsa.salsa_ok` `Salsa.salsa_covers` `Salsa.salsa_no_loop_false` |
| C38 | Memory hierarchy levels are numbered per operand in insertion order | memory_hierarchy.py, memory_level.py | induction over the history of `add_memory` | proved | `Hierarchy.level_numbering` `Hierarchy.number_of_levels` `Hierarchy.number_of_levels_false` |
| C39 | Levels of an operand are listed inner to outer | memory_hierarchy.py, memory_level.py | induction over the history of `add_memory` | partial | `Hierarchy.levels_order_partial` `Hierarchy.aligned_of_two` `Hierarchy.aligned_of_uniform` `Hierarchy.operand_top` `Hierarchy.levels_order_false` |
| C40 | Memory instance count times served array equals the array | memory_hierarchy.py, memory_level.py | induction over the history of `add_memory` | proved | `Hierarchy.unroll_total` `Hierarchy.unroll_extremes` |
| C41 | Workload graphs are acyclic and processed in dependency order | dnn_workload.py, workload_factory.py, onnx_workload.py | graph induction; topological sort of Kahn modelled and proved | proved | `Workload.dnn_ok_iff` `Workload.dnn_edges` `Workload.dnn_schedule` |
| C42 | Removing dummy nodes preserves data dependencies | dnn_workload.py, workload_factory.py, onnx_workload.py | graph induction; topological sort of Kahn modelled and proved | proved | `Workload.no_dummy_edges` `Workload.no_dummy_topo` |
| C43 | User temporal orderings are recognised as complete exactly when they cover the layer | LayerTemporalOrdering and the stage that uses it | decision logic; composition with C03, C55 | partial | `Ordering.is_complete_partial` `Ordering.is_complete_raises_iff` `Ordering.is_complete_false` |
| C44 | Partial user orderings constrain innermost and outermost loops | LayerTemporalOrdering and the stage that uses it | decision logic; composition with C03, C55 | partial | `Ordering.constraints_iff` `Ordering.constraints_from_file` `Ordering.constraints_file_false` `Ordering.constraints_short_false` |
| C45 | Adder tree size formula | imc_unit.py adder trees | induction on an explicit binary tree | proved | `Imc.tree_size` `Imc.place_value_size` |
| C46 | Active adders never exceed the tree | imc_unit.py adder trees | induction on an explicit binary tree | proved | `Imc.tree_energy_exact` `Imc.active_adders_le` `Imc.tree_energy_mono` |
| C47 | Four-direction data movement arithmetic | data_movement.py | algebra | proved | `Cme.fourway_add` `Cme.fourway_scale` `Cme.fourway_zero` `Cme.fourway_set` `Cme.fourway_ofDict` `Cme.fourway_total` |
| C48 | Operand links are a bijection | layer_attributes.py `MemoryOperandLinks`, mapping_factory.py | decision logic | proved | `Links.links_ok_iff` `Links.links_inverse` |
| C49 | Loop relevancy partitions the layer dimensions | layer_node.py relevancy tables | partition; semantic reading through the touched elements | partial | `LayerNode.relevancy_partition` `LayerNode.irrelevant_iff_partial` `LayerNode.irrelevant_false` `LayerNode.extractRel_spec` |
| C50 | Locality analysis only lowers memory levels | exploit_data_locality_stages.py | running minimum; characterisation per edge; counterexamples | proved | `Locality.record_min` `Locality.record_order` `Locality.prune_exact` `Locality.prune_prefix` `Locality.prune_ops` |
| C51 | Requesting network data from the top memory has effect | exploit_data_locality_stages.py | running minimum; characterisation per edge; counterexamples | partial | `Locality.from_top_never_raises` `Locality.from_top_false` |
| C52 | Mapping selection priority | layer_attributes.py `MemoryOperandLinks`, mapping_factory.py | decision logic | proved | `Links.choose_iff` `Links.choose_total` |
| C53 | Convolution parsing matches tensor geometry | ONNX parsers for convolutions and matrix products | arithmetic of output extents against the ONNX definition; counterexamples | partial | `Onnx.conv_ok` `Onnx.conv_input` `Onnx.conv_axes_iff` `Onnx.conv_input_partial` `Onnx.outExtent_bound` `Onnx.conv_attributes` `Onnx.conv_precision` `Onnx.conv_axis_false` `Onnx.conv_raises_false` `Onnx.conv_auto_pad_false` |
| C54 | Both search engines schedule the same temporal loops | salsa `get_temporal_loops` | refinement of the other engine | proved | `TemporalLoops.salsa_eq_loma` `TemporalLoops.salsa_keyError` |
| C55 | User-fixed loop sizes keep the iteration counts | `reduce_static_fps` | product invariant for prime powers; counterexamples | partial | `Lpf.static_composite_false` `Lpf.static_repeated_false` `Lpf.static_limit_false` `Lpf.static_preserves_partial` |
| C56 | Every yielded temporal mapping covers the layer (end to end) | `LomaEngine.run` over the models of generator, allocator and loop splitting | characterisation of yields; composition of C01-C13 | proved | `Engine.engine_covers` `Engine.engine_tries_all` |
| C57 | Top reuse loops are measured from the outermost loop | temporal_mapping.py merge of loops of size one and stationary loops | fixed point iteration with the sum of level indices as measure | proved | `TemporalMapping.top_loops` |
| C58 | Yielded spatial mappings are independent of each other | spatial_mapping_generation.py | bounds by induction; sortedness; counterexamples for C24 and C58 (shared objects modelled by references) | partial | `SpatialGen.generate_one_partial` `SpatialGen.generate_shared_false` |
| C59 | The diagonal mapping option extends mappings | `add_input_pr_spatial_loop`, the rest of the function is an arbitrary continuation | for every input the result is the argument or an exception | partial | `Diagonal.diagonal_never_extends` `Diagonal.diagonal_crash_false` |
| C60 | Converted spatial mapping leaves a whole number of temporal iterations | spatial_mapping_conversion.py `convert_user_spatial_mapping` | rational arithmetic, induction over array dimensions | partial | `Conversion.convert_divides_partial` `Conversion.conversion_temporal_false` |
| C61 | Every transferred bit is paid for by counted memory accesses | cost_model.py energy | sums over levels and directions; bounds of ceilings | partial | `Energy.access_bounds` `Energy.table_access_bounds` `Energy.access_covers_partial` `Energy.access_no_port` `Energy.access_nonneg` `Energy.access_free_false` |
| C62 | The utilization of a shared memory is the sum over the operands in it | cost_model.py utilization and double buffering | sums over groups; bounds | proved | `Buffer.shared_utilization` `Buffer.shared_bounds` |
| C63 | Double buffering never overcommits a memory | cost_model.py utilization and double buffering | sums over groups; bounds | proved | `Buffer.double_buffer_fits` `Buffer.double_buffer_half` |
| C64 | The on-loading time covers the transfers of every operand | cost_model.py loading, off-loading, overall latency | order reasoning over all ports and links; counterexamples | partial | `Latency.onloading_covers_partial` `Latency.onloading_nonneg` `Latency.offloading_nonneg` `Latency.offloading_exact` `Latency.onloading_half_false` `Latency.onloading_single_false` |
| C65 | The annealing stage returns the best of its workers for every interleaving | salsa stage with its worker processes as a transition system | invariant over every schedule | partial | `Salsa.stage_best` `Salsa.stage_progress` `Salsa.stage_terminates` `Salsa.stage_failure_false` |
| C66 | The annealer can reach every loop order | salsa engine and state with arbitrary random draws | invariant over iterations | partial | `Salsa.salsa_reaches` `Salsa.salsa_latency_false` |
| C67 | The innermost and outermost memories of every operand are reported as such | memory_hierarchy.py, memory_level.py | induction over the history of `add_memory` | partial | `Hierarchy.inner_memories_partial` `Hierarchy.inner_memories_false` `Hierarchy.outer_memories_false` |
| C68 | The sharing list describes a partition of the shared operand levels | memory_hierarchy.py, memory_level.py | induction over the history of `add_memory` | proved | `Hierarchy.sharing_list` |
| C69 | The ONNX workload has exactly the data dependencies of the model | onnx_model_parser.py, onnx_operator_parser.py graph part | characterisation of edges; counterexamples | partial | `Workload.onnx_ok_iff` `Workload.onnx_edges` `Workload.onnx_edges_sound` `Workload.onnx_edges_partial` `Workload.onnx_edges_false` `Workload.onnx_cycle_false` |
| C70 | The mappings generated for a user ordering are those of exactly that ordering | LayerTemporalOrdering and the stage that uses it | decision logic; composition with C03, C55 | partial | `Ordering.complete_order` `Ordering.position_order_partial` `Ordering.sized_order_false` |
| C71 | The rows of a diagonal mapping are the input coordinates it needs | imc_unit.py mapped rows and energies | products of the mapped dimensions; monotonicity | partial | `Imc.rows_partial` `Imc.rows_single_false` `Imc.rows_batch_false` `Imc.rows_order_false` `Imc.rows_exceed_false` |
| C72 | Energy of a layer on an in-memory array is at most peak energy times activations | imc_unit.py mapped rows and energies | products of the mapped dimensions; monotonicity | proved | `Imc.layer_le_peak` |
| C73 | Adder trees are charged for the inputs that carry data | imc_unit.py mapped rows and energies | products of the mapped dimensions; monotonicity | partial | `Imc.rows_plain` `Imc.adder_inputs_false` |
| C74 | Equality of arrays does not depend on what was evaluated on them | imc_array.py, cost_model_imc.py | sums; positivity; counterexamples | partial | `Imc.eq_fresh` `Imc.eq_history_false` |
| C75 | The memory area breakdown adds up to the memory area | imc_array.py, cost_model_imc.py | sums; positivity; counterexamples | partial | `Imc.area_total` `Imc.area_breakdown_partial` `Imc.area_breakdown_false` |
| C76 | An in-memory array is accepted exactly for power-of-two adder trees and has non-negative area and delay | imc_array.py, cost_model_imc.py | sums; positivity; counterexamples | partial | `Imc.area_ok_iff` `Imc.area_nonneg` `Imc.clock_nonneg_partial` `Imc.clock_negative_false` |
| C77 | Accepted accelerator files can be built | accelerator_validator.py, accelerator_factory.py, memory_level.py ports | exact condition for construction; counterexamples | partial | `Ports.build_ok_iff` `Ports.accepted_build_false` |
| C78 | Each data movement uses the port declared for it | accelerator_validator.py, accelerator_factory.py, memory_level.py ports | exact condition for construction; counterexamples | partial | `Ports.last_declared` `Ports.ports_partial` `Ports.accepted_ports` `Ports.conflict_false` `Ports.duplicate_name_false` `Ports.unserved_false` |
| C79 | Invalid in-memory array files are reported, not crashed on | accelerator_validator.py, accelerator_factory.py, memory_level.py ports | exact condition for construction; counterexamples | partial | `Ports.imc_check_total_iff` `Ports.imc_check_sound` `Ports.check_raises_false` `Ports.half_bit_false` |
| C80 | Layers agree on where the data between them is | exploit_data_locality_stages.py | running minimum; characterisation per edge; counterexamples | proved | `Locality.edges_agree` `Locality.levels_determined` |
| C81 | Data kept on chip fits | exploit_data_locality_stages.py | running minimum; characterisation per edge; counterexamples | partial | `Locality.out_lowest` `Locality.weight_fits_partial` `Locality.weight_level` `Locality.weight_level_false` |
| C82 | Locality analysis handles every network | exploit_data_locality_stages.py | running minimum; characterisation per edge; counterexamples | partial | `Locality.search_single` `Locality.input_stored_partial` `Locality.search_raises_false` `Locality.branch_level_false` |
| C83 | Layer equations are understood as written | equations of layers as texts | lexer lemmas by induction on the text | partial | `Equation.equation_operands` `Equation.equation_dims` `Equation.equation_foreign` `Equation.accepted_partial` `Equation.underscore_false` `Equation.blank_false` `Equation.repeated_false` |
| C84 | Accepted workload layers can be built | workload_validator.py, workload_factory.py, layer_node.py construction | exact condition for acceptance; composition with C17 | partial | `LayerBuild.validate_total_iff` `LayerBuild.validate_sound` `LayerBuild.relation_read` `LayerBuild.build_ok_partial` `LayerBuild.operand_elements` `LayerBuild.related_elements` `LayerBuild.padded_size` `LayerBuild.accepted_build_false` `LayerBuild.validate_raises_false` |
| C85 | Parsed matrix products have the operations and tensors of the ONNX node | ONNX parsers for convolutions and matrix products | arithmetic of output extents against the ONNX definition; counterexamples | partial | `Onnx.gemm_ok_partial` `Onnx.gemm_transposed` `Onnx.gemm_plain` `Onnx.gemm_precision` `Onnx.unknown_input_false` `Onnx.gemm_weights_false` `Onnx.gemm_dynamic_false` |
| C86 | Sources and precisions of parsed nodes are those of the ONNX node | ONNX parsers for convolutions and matrix products | arithmetic of output extents against the ONNX definition; counterexamples | partial | `Onnx.sources_partial` `Onnx.precisions_spec` `Onnx.shape_first` `Onnx.source_swapped_false` `Onnx.source_raises_false` |
| C87 | Data sizes per memory level are the elements the loops below access | mapping.py tables and data sizes, on top of Decouple, SpatialInternal, TemporalMapping | reported size = cardinality of the set of accessed elements (C17, C18) | partial | `MapInfo.data_elements_partial` `MapInfo.data_all_units_partial` `MapInfo.data_all_units_false` |
| C88 | Access counts of input operands are those of the loop nest | mapping.py `calc_data_access` | counts expressed by tiles and iterations; chain by monotone tiles | partial | `MapInfo.input_traffic_false` `MapInfo.input_traffic_partial` `MapInfo.input_chain_partial` `MapInfo.input_stationary_partial` `MapInfo.input_total` |
| C89 | Every output element is finalised exactly once | mapping.py `calc_data_access` | counts expressed by tiles and iterations; chain by monotone tiles | partial | `MapInfo.output_traffic_false` `MapInfo.output_traffic_partial` `MapInfo.output_psum_partial` `MapInfo.output_total` |
| C90 | Transfers per period add up to the access counts and bandwidths to the data | mapping.py `calc_req_mem_bw_and_data_transfer_rate` | algebra over the counts; counterexamples | partial | `MapInfo.fill_transfer_partial` `MapInfo.read_transfer_partial` `MapInfo.write_transfer_partial` `MapInfo.bandwidth_partial` `MapInfo.instant_window` `MapInfo.transfer_false` `MapInfo.narrow_false` `MapInfo.bandwidth_false` |
| C91 | No traffic between the outermost memory and the outside | mapping.py `disable_data_traffic_external` | update of the last pattern | proved | `MapInfo.external_disabled` |
| C92 | Loading and off-loading cycles of every port | cost_model.py `calc_loading_single_port` and its two parts | contents of the table after all ports, composition with C31 | proved | `Latency.loading_table` |
| C93 | Bandwidth borrowed for loading is accounted for | cost_model.py `get_inst_bandwidth`, `get_total_inst_bandwidth` and the tables of borrowed cycles | folds over ports and operands; reductions tied to the table of C92; counterexamples | partial | `Latency.inst_bandwidth` `Latency.borrow_table_partial` `Latency.borrow_lost_false` `Latency.direction_false` |
| C94 | The time allowed for a transfer is the time in which the data are not needed again | real and allowed transfer cycles on top of the data movement patterns of MapInfo | the window is the period divided by the trailing reuse loops, which are a factor of it; both ends of a link read entry i of the same tables | proved | `Transfer.real_cycles` `Transfer.allowed_input` `Transfer.allowed_output` `Transfer.allowed_stationary` `Transfer.input_link` `Transfer.output_link` |
| C95 | Sharing of ports between the operands of one mapping never fails | the port activities built from the patterns of all operands, and the union of Window | every active period is a prefix of the common loop nest, so the periods form a divisor chain; loop_nest_consistent and window_union finish | proved | `Transfer.period_of_nest` `Transfer.port_sharing` `Transfer.merged_nest` |
| C96 | The printed loop nest is the mapping that was evaluated | mapping/utils.py `get_temporal_loops`, `get_spatial_loops`; print_mapping.py | the loops removed so far are a prefix of every operand's nest, so the first level holding the loop is the level of its next loop; merge_down_preserves and the allocator invariant give the hypothesis | proved | `Print.loops_listed` `Print.rows_printed` `Print.allocated_printed` `Print.empty_nest_raises` |
| C97 | Every result that is passed on is saved | runs as lists of file events: save.py, `VisualizationStage` | content of a file = text of the last result of that name, by induction over the results; counterexamples | partial | `Save.saved_last` `Save.saved_where` `Save.saved_all` `Save.saved_all_false` `Save.pickle_last` `Save.pickle_all_false` `Save.pickle_bare_name_false` `Save.pickle_none` |
| C98 | A stopped run leaves the results it has passed on | the same events cut after any number of steps; `SkipIfDumpExistsStage` | induction over the results for every cut; histories of runs are folds; no file name equals the folder | partial | `Save.crash_saved` `Save.crash_saved_false` `Save.crash_orders` `Save.orders_all` `Save.skip_never_false` |
| C99 | A run returns the best mappings found, summed over the layers | the stages of api.py between parsing and returning, as generators (values and final exception) | first best of the first bests is first best of all (nested_first); the sum of least elements is the least sum; counterexample for EDP | partial | `Pipeline.layer_best` `Pipeline.api_answer` `Pipeline.api_energy_least` `Pipeline.api_latency_least` `Pipeline.layer_beats_orders` `Pipeline.nested_first` `Pipeline.minStage_refines` `Pipeline.api_edp_false` |
| C100 | A run returns whenever every layer has a mapping | the same generators | a generator ends without exception iff all inner ones do; unfolding gives the exact condition | partial | `Pipeline.api_ok_iff` `Pipeline.api_one_bad_false` `Pipeline.api_imc_empty_crash` |
| C101 | Options of a run reach every stage that uses them | constructors and calls of the stages, as parameter lists; python binding of keywords | lookup in the dictionary a stage hands on; induction over the list of stages; agreement outside of a set of keywords is an invariant | proved | `Keywords.api_keywords` `Keywords.parameter_value` `Keywords.runs_iff` `Keywords.unused_keywords` `Keywords.insert_stage` `Keywords.api_insert` `Keywords.engine_and_cost` |
| C102 | Options do not get lost or collide | the same, the keywords of api.py and __main__.py, the default value of dump_folder | a dropped keyword stays away by induction; witnesses for all values | partial | `Keywords.dropped_keyword` `Keywords.command_line_crash` `Keywords.command_line_renamed_crash` `Keywords.command_line_repaired` `Keywords.keep_others_false` `Keywords.salsa_criterion_false` `Keywords.mapping_type_false` `Keywords.default_folder_false` |
| C103 | Hardware search evaluates every configuration with its own hardware and mapping | HardwareOptimizerStage: configurations, updates of the shared description, remapping of the layer, comparison of results; the remaining stages are a function of description and mapping | the shared description always agrees with the original one up to the overwritten fields (invariant); loop succeeds iff each configuration alone does; first minimum by induction | proved | `HwOpt.configs_spec` `HwOpt.returns_best` `HwOpt.no_better` `HwOpt.returns_iff` `HwOpt.refused` `HwOpt.size_float` |
| C104 | Hardware search leaves the workload alone and accepts every layer that suits one of its arrays | the same | state after the loop is that of the last configuration; concrete runs evaluated by the kernel | partial | `HwOpt.mapping_left` `HwOpt.workload_kept_partial` `HwOpt.needs_sixteen` `HwOpt.mapping_left_false` `HwOpt.needs_sixteen_false` `HwOpt.mixed_mapping_false` `HwOpt.dimension_number_false` `HwOpt.empty_unrolling_false` |
| C105 | Equality of hardware and of mappings means equal data | __eq__ and has_same_performance of ports, instances, levels, hierarchies, accelerators and spatial mappings, on hierarchies built by the model of add_memory | counting the levels of every operand excludes additional memories; the comparison then is a pairwise one, whose parts are equivalences | proved | `HwEq.hierarchy_eq` `HwEq.hierarchy_same` `HwEq.accelerator_eq_equiv` `HwEq.eq_same` `HwEq.mapping_eq` |
| C106 | Accelerators with the same performance give the same estimates | the same with the port allocation of memory levels | the allocation only depends on names, widths and the allocation table; concrete hierarchies evaluated by the kernel | partial | `HwEq.same_performance_partial` `HwEq.same_performance_false` `HwEq.equality_empty_false` |
| C107 | Objects used as keys are found again | hash functions (sha512 as a function without collisions), the port counter, lookup in python dictionaries | induction over the creation of ports; concrete pairs | partial | `HwEq.accelerator_hash` `HwEq.port_ids_distinct` `HwEq.port_table` `HwEq.port_ids_false` `HwEq.port_table_false` `HwEq.port_hash_false` `HwEq.level_hash_false` `HwEq.mapping_hash_false` |
| C108 | Extracted memory costs are those of the requested memory | CactiParser.get_item with the pool file as a list of records and CACTI as a parameter | invariant over histories: every record of the pool says what CACTI says about every memory it describes | proved | `Cacti.answers_true` `Cacti.answers_true_empty` `Cacti.register_file` `Cacti.old_records_unused` |
| C109 | Whether costs can be extracted does not depend on history | the same | in a pool with complete records the two tests are characterised; a new record has a new name, so that loading the file only adds at the end | partial | `Cacti.succeeds_iff` `Cacti.answer_stays` `Cacti.order_false` `Cacti.unknown_type_false` `Cacti.odd_size_false` |
| C110 | Runs at the same time do not disturb extracted costs | the steps of get_item and run_cacti on the shared directory and pool, any number of processes, kill at any point | invariant over the reachable states; schedules evaluated by the kernel for the counterexamples; `undisturbed` relates the steps to the sequential function | partial | `Cacti.concurrent_partial` `Cacti.undisturbed` `Cacti.descriptions_concurrent` `Cacti.concurrent_false` `Cacti.concurrent_fails_false` |
| C111 | Interrupted extractions do no harm | histories with interruptions, the record cut after any number of lines | the technology is the last line, so that a cut record matches no request; a record without size makes the search for any new memory fail | partial | `Cacti.crash_answers` `Cacti.crash_cached` `Cacti.crash_retry_partial` `Cacti.crash_blocks` `Cacti.crash_false` |
| C112 | Extracted costs follow the memory description | the choice of the width and the request made by MemoryFactory | characterisation of the first port of a type; concrete descriptions | partial | `Cacti.request_iff` `Cacti.request_refused` `Cacti.ports_ignored_false` |
| C113 | Costs of in-memory-computing cell arrays extracted with CACTI | get_cacti_cost with the output file as a header and rows of cells, the cells that CACTI writes, the working directory and the output file as the state between calls | induction over rows and cells for the table; every line of CACTI has a text cell below a name; a call that fails leaves the process in a directory where the relative path does not exist | partial | `CactiImc.answers_iff` `CactiImc.rows_kept` `CactiImc.macro_rows` `CactiImc.macro_answers` `CactiImc.directory_kept` `CactiImc.directory_lost` `CactiImc.after_failure` `CactiImc.extraction_crash` `CactiImc.stale_false` |
| C114 | Rounded divisions do not change cycle counts and sizes | true division of integers as correct rounding to 53 binary digits, followed by ceil or floor | no integer lies between the quotient and its rounded value: the gap to the next number is smaller than twice the distance 1/b to the integer | proved | `Float.ceil_exact` `Float.floor_exact` `Float.exact_quotient` `Float.ceil_large_false` |
| C115 | Rounding does not change the number of memory accesses | _calc_memory_access with each operation rounded | numbers n/2^k with n below 2^53 are not rounded; relative error 2^-53 per operation; kernel evaluation for the counterexample | partial | `Float.accesses_exact_partial` `Float.accesses_close` `Float.accesses_false` |
| C116 | Hints select the dimensions that are tried along each array dimension | SpatialMappingHint, create_spatial_mapping_hint, construction and run of the spatial mapping generator as changes of the layer object | what one construction does to each array dimension, then induction over the history; a run only depends on the hints of the array dimensions (congruence of the generator); universal crash theorem after the first launch | proved | `Hints.created_hints` `Hints.hints_effective` `Hints.hints_usable` `Hints.hints_tried` |
| C117 | A parsed workload can be evaluated more than once | SpatialMappingHint, create_spatial_mapping_hint, construction and run of the spatial mapping generator as changes of the layer object | what one construction does to each array dimension, then induction over the history; a run only depends on the hints of the array dimensions (congruence of the generator); universal crash theorem after the first launch | partial | `Hints.evaluate_after_failures_partial` `Hints.evaluate_again_crash` `Hints.evaluate_again_false` |
| C118 | Saved files say what the result says | json_repr_handler over a type of nested Python values (leaves, objects with representations, dictionaries, lists, tuples, sets), json.dump to a JSON tree, the representations of results, layers, accelerators, arrays and mappings | structural induction over nested values; one step into the file is one step into the object, then induction over the place; texts of loops are parsed back from the right | proved | `Json.saved_at` `Json.complete_ok` `Json.complete_figures` `Json.complete_util` `Json.last_entry_saved` `Json.simple_figures` `Json.files_agree` `Json.imc_figures` `Json.good_layer` `Json.good_accelerator` `Json.good_array` `Json.good_mapping` `Json.mapping_recoverable` `Json.overall_savable` |
| C119 | The figures in the saved files of a run add up | the representations of C118 on the sums of C28 and C35 | figures at fixed places are additive functions of the totals and tables, so that the sum theorem of the stage carries over to the files | partial | `Json.energy_adds_up` `Json.overall_is_sum` `Json.overall_simple` `Json.empty_total_crash` `Json.mul_breakdown_false` |
| C120 | Missing entries of input files are reported | the three schemas as data, completion with defaults (cerberus for accelerators, upgraded_validator for lists) and acceptance, over a type of nested YAML values | induction over the place in the file: what the schema expects at a place is what is checked there after completion; counterexamples computed in the kernel | partial | `Files.required_reported` `Files.required_places` `Files.missing_layer_entries_false` `Files.missing_mapping_name_false` `Files.missing_layer_entries_partial` |
| C121 | Accepted accelerator files can be built | the checks after the schema, and AcceleratorFactory/MemoryFactory on the accepted data, ending in the port and hierarchy models | accepted values can be read (one lemma per form of rule); allocations and unrollings that match the regular expressions are characterised and taken apart; the rest by the theorems of Ports | partial | `Files.built_iff_partial` `Files.accepted_read` `Files.checks_agree` `Files.energy_missing_false` `Files.newline_false` `Files.foreign_operand_false` `Files.no_read_port_false` |
| C122 | Completing a file keeps what is written | completion as in C120 | mutual induction over schemas; a field-wise description of completed mappings | proved | `Files.written_kept` `Files.entry_kept` `Files.complete_twice` `Files.defaults_added` |
| C123 | Accelerators are built as written | as C121, with MemoryInstance cost extraction as a parameter | inversion of every reader: the value comes from the written entry or its default; induction over the memories | proved | `Files.built_as_written` `Files.hierarchy_as_written` `Files.dataflows_as_written` |
| C124 | Mapping files mean what is written | MappingValidator, MappingFactory, text forms of unrollings | inversion of readers; taking apart `name, number` for every name and number (digits round trip) | partial | `Files.mapping_ok_iff` `Files.mapping_as_written` `Files.attributes_iff` `Files.attributes_as_written` `Files.unrollings_partial` `Files.repeated_dimension_false` `Files.double_link_false` |
| C125 | Layers are read as written | WorkloadValidator with the check of the padding, the fields read by LayerNodeFactory | inversion of readers; total on accepted entries | proved | `Files.layers_ok_iff` `Files.layers_read` `Files.layers_as_written` |
| C126 | Plotted energies and latencies add up | get_energy_array, get_latency_array, positions, stacking and texts of the bar plot; drawing calls are recorded as values | the table of energies is characterised as a sum over entries by induction over both loops; double sums are exchanged; stacking by induction; digits of the label | partial | `Plot.plot_ok_iff` `Plot.bars_energy` `Plot.plot_total_partial` `Plot.latency_bar` `Plot.bars_apart` `Plot.shorten_spec` `Plot.label_id` `Plot.plot_total_false` `Plot.plot_mixed_crash` `Plot.plot_sums_crash` |
| C127 | Drawn memory levels do not hide each other | positions of the nodes for given topological generations | positions in a row are an injective function of the index, rows differ in the second coordinate | proved | `Plot.levels_drawn` |
| C128 | CACTI is asked for the requested memory | the table of options, the constant lines, the three modes of cacti_auto, change_default_value, the test of call_cacti, and of the C++ program the order of the tests on the beginning of a line | a beginning decides about a line for every value if it is a prefix of the option's text or incomparable with it; this is evaluated on the tables of characters, the rest is induction over options | partial | `CactiText.single_spec` `CactiText.reader_line` `CactiText.read_back` `CactiText.asked_spec` `CactiText.sweep_one` `CactiText.change_spec` `CactiText.single_default` `CactiText.never_refused` `CactiText.unknown_option_false` `CactiText.block_in_bits_false` `CactiText.sweep_two_false` `CactiText.outside_false` |
| C129 | Memory records come from CACTI's lines | reading of the output file and building of the records | the columns are characterised by induction over the header and the lines, the records by induction over the lines | partial | `CactiText.table_spec` `CactiText.results_spec` `CactiText.results_ok_iff` `CactiText.whole_sizes` `CactiText.short_line_false` `CactiText.second_type_false` |
| C130 | An ONNX model and its workload compute the same | the loop over the nodes of a model with the choice of the parser, names and placeholders; layers are those of Onnx, the graph that of Workload | induction over the nodes: the loop is the loop of the graph plus one parsed node each; a parsed layer has at most two sources, so the graph never fails on its own | proved | `OnnxModel.parse_ok_iff` `OnnxModel.node_stands` `OnnxModel.model_parsed` |
| C131 | Conditional branches become part of the model | unroll_branches and parse_dynamic_onnx_model on nested graphs; merging graphs is a parameter | mutual recursion over graphs and nodes; an inductive relation says which nodes the result has | partial | `OnnxModel.dynamic_plain` `OnnxModel.dynamic_ok_iff` `OnnxModel.dynamic_flat_partial` `OnnxModel.hidden_tensor_crash` `OnnxModel.second_if_false` |
| C132 | Activations and weights are told apart | get_act_layer_op, get_weight_layer_op and identify_layer_operand_representation on views of built layers | case analysis over the constants; for layers of models the operands and their dimensions are computed from the equation and the relevancy is that of C49 | partial | `Roles.roles_told` `Roles.identify_shared` `Roles.conv_roles` `Roles.gemm_roles_partial` `Roles.gemm_roles_false` `Roles.product_identified` `Roles.identify_false` |
| C133 | Mappings are evaluated on suitable hardware | the choice of the accelerator in run and lines 652-683 of modify_innermost_input_mem_size; the rest is an arbitrary continuation | the bound names are listed; the tested one is not among them | partial | `Roles.evaluated_given` `Roles.evaluated_ok_iff` `Roles.never_enlarged_false` `Roles.single_input_crash` |
| C134 | A layer built again from its attributes is the same layer | LayerNode.__init__ apart from the factory, and extract_node_attr | case analysis over the sizes of shared dimensions | proved | `Roles.build_eq` `Roles.rebuilt` |
| C135 | Every mapped layer is evaluated | CostModelEvaluation.__init__ and run, composed of the models of mapping, energy, double buffering, windows and latency | every part succeeds on tables of the right shape; the shapes follow from the mapping | partial | `Evaluate.evaluated_partial` `Evaluate.missing_operand_crash` `Evaluate.cancelled_crash` |
| C136 | More bandwidth is never slower | two evaluations that differ in bandwidths | movements get easier (shorter real cycles, same periods); windows, port activity and the combined stall are monotone | partial | `Evaluate.bandwidth_partial` `Evaluate.bandwidth_false` |
| C137 | A larger memory is never slower | two evaluations that differ in sizes | utilization of unshared memories falls, so flags only get set; windows of double-buffered movements are wider | partial | `Evaluate.size_partial` `Evaluate.size_false` |
| C138 | Reported latencies are ordered and positive | the reported latencies of an evaluation | loading of ports with at most one movement that happens once is not negative (C30, C31) | partial | `Evaluate.ordered_partial` `Evaluate.ordered_false` `Evaluate.latency_negative_false` |
| C139 | The energy of an evaluation is bounded by its multiplications and does not grow with bandwidth | the energy of the whole evaluation (Evaluate) | the tables of a mapping are products and quotients of positive loop sizes; accesses are antitone in the width of a port | proved | `Evaluate.energy_bounds` |
| C140 | Prices of accesses influence nothing but the energy | two evaluations that differ in prices | every table but the energies is computed without them; energies are linear in the prices | proved | `Evaluate.prices` `Evaluate.prices_scale` |
| C141 | The latency of an evaluation lies between its busiest port and the sum of computation and busiest port | stall and latency of the whole evaluation (Evaluate, Transfer, Window) | the windows of one port are consistent with the length of the computation; its stall lies between the cycles needed less the computation, and the cycles needed; the stall of an evaluation is the largest | proved | `Evaluate.roofline` `Evaluate.traffic_fits` |
| C142 | The accesses and energies of an evaluation are those of its loops | accesses and energies of the whole evaluation (Evaluate, MapInfo, Energy) | the tables of an operand are expressed by the loops (MapInfo), pushed through the word counts and prices | partial | `Evaluate.input_accesses_partial` `Evaluate.output_accesses_partial` `Evaluate.psum_reads_false` |
| C143 | The reported utilization of a memory is the part of it that the data of the tiles in it takes | utilization of the whole evaluation (Evaluate, MapInfo, Buffer) | tile sizes from MapInfo; the memories of an accelerator hold different places, so that the groups are disjoint | partial | `Evaluate.input_utilization_partial` `Evaluate.output_utilization_partial` `Evaluate.shared_utilization` `LayerNode.pr_size_exact_iff` |
| C144 | Double buffering fits and is used wherever it fits | effective utilization and flags of the whole evaluation (Evaluate, Buffer) | invariant of the traversal of all places, with the contents of every memory; contents only grow | proved | `Evaluate.double_buffers_fit` `Evaluate.double_buffers_half` `Evaluate.double_buffers_full` `Buffer.double_buffer_alone` `Buffer.double_buffer_full` |
| C145 | Every mapping that the search finds is evaluated, and every loop order that fits is found | the two stages after the spatial mapping (Search), from the engine, allocator, temporal mapping and evaluation | a mapping that the allocator returns meets the conditions of an evaluation (mapped); the allocator raises no other exception (mapOrder_error); the enumeration is that of C56 | partial | `Search.search_partial` `Search.search_cycles` `Search.mapOrder_error` `Search.mapped` `Search.search_crash` |
| C146 | No memory is overfull in a mapping that the search finds | sizes in the allocator and in the cost model (Search.Held, Alloc, MapInfo, Buffer) | both are tensor sizes of the loops inside a level; loops that are merged into it are irrelevant; the sum over a memory is bounded by the allocator (C11) | partial | `Search.found_fits` `Search.found_partial` `Search.found_buffers` `Search.final_overfull_false` `Search.fraction_overfull_false` |
| C147 | Files that fit together are processed from the accelerator file to the evaluated mappings | accelerator file, user mapping, conversion, search and evaluation as one function (Whole) | the parts are composed: numbering of levels (C38), ports (C78), topological order (C39), conversion (C26), placement of loops (C27), and the search (C145); the conditions of each are derived from those of the files | partial | `Whole.accelerator_ok` `Whole.task_ok` `Whole.run_partial` `Whole.write_only_crash` |
| C148 | No run reports more work than the array can do | the same | the product of the spatial loops of an operand is the product over the array dimensions, each of which is bounded by the array; with search_cycles the temporal loops cover the rest | proved | `Whole.run_utilization` `Conversion.convert_kept` |
| C149 | No memory is overfull in an evaluation that a run yields | the same | unrollings that divide are kept (convert_kept), so that the spatial loops are whole and C146 applies | partial | `Whole.run_fits` |
| C150 | A layer always gets a spatial mapping | generate_spatial_mappings with bandwidth and capacity limits and mixed hints (SpatialGen) | the limits are at least one if one element is delivered and held, so that the mapping that unrolls one hinted dimension once is always among the candidates; an invariant on the shared candidate objects keeps all unrollings whole and at least one | partial | `SpatialGen.generate_total` `SpatialGen.generate_narrow_crash` `SpatialGen.generate_zero_false` |
| C151 | A whole call on fitting files ends with the best mapping of every layer | the API call on an accelerator file and a list of layers, composed of Hierarchy, Ports, Hints, SpatialGen, Conversion, Search, Evaluate and Pipeline (Net) | the inputs of the generation are derived from the file (innermost memories, C67; bandwidths, C78; hints, C92); generated mappings meet the conditions of a run (C150, C24), so that C147 describes every run; the stages are C99 and C100, with a lemma on where an exception comes from; exactly when there is an answer (free_answer_iff): without limit and ordering the jobs of a search are the mappings of exactly the permutations of the prime factors of the loops left, whose evaluation is defined by C152 when the movements of ports are separate | partial | `Net.generated` `Net.network_partial` `Net.network_answer` `Anneal.free_answer_iff` |
| C152 | No answer of a call is better than what the array can do | the same | sum of the bounds of C148 and of C139 over the layers | partial | `Net.network_bounds` `Whole.run_energy` `Whole.run_paid` |
| C153 | A call evaluates exactly what the three files say | the API call on the contents of the three files: Files (schema, reading, building), LayerBuild, Links, Workload (graph and order), then Net | AccSays, LayerFits and FilesSay state what the files say; from them the accelerator and the layers are derived field by field (C121, C123, C84, C90, C124), the order is C41, the rest C151 and C152 | partial | `Call.workload_written` `Call.accelerator_written` `Call.call_partial` `Call.call_bounds` `Call.criterion_refused` `Free.file_answer_iff` |
| C154 | A call on an ONNX model evaluates exactly the model's layers | the API call on an ONNX model: Onnx (parsers of the operators), OnnxModel (choice of the parser), Call.nodeOf (entry of the mapping file), Workload (graph and order), then Net | ModelIs states what the model says; for every node the record that the parser writes is computed (C53) and shown to be a file entry in the sense of C153, whose lemmas give the layer; the order is C69, the rest C151 and C152 | partial | `OnnxCall.workload_model` `OnnxCall.nothing_left_out` `OnnxCall.call_partial` `OnnxCall.call_bounds` `OnnxCall.criterion_refused` `Free.onnx_answer_iff` |
| C155 | Layers do not influence each other | Net.network (the API call on layers) | the best evaluation of a layer is the first minimum of its candidates, which depend on this layer only; it is unique, so the lists of best evaluations agree | proved | `Compare.layers_alone` `Compare.layers_together` `Compare.layers_order` |
| C156 | The criterion is honoured | Net.network | the candidates of a layer are the same for all criteria; first minima, summed over the layers | partial | `Compare.criterion_answer` `Compare.criterion_best` `Compare.Ex.edp_network_false` |
| C157 | Calls are reproducible | Net.network with the traversal orders of sets as parameters | a complete mapping that fits is what the generator returns, whatever the order; the rest of the call has no sets | partial | `Compare.complete_orders_partial` `Compare.Ex.set_order_false` |
| C158 | Asking for more spatial mappings is never worse | Net.network | when nothing has to be limited to the memory, the generated mappings are a prefix of one list; the best over more candidates is no worse | partial | `Compare.more_mappings_partial` `Compare.Ex.more_mappings_false` `Compare.Ex.more_mappings_crash` |
| C159 | A higher limit on the number of loops is never worse | Net.network, Lpf.getPrimeFactors | every prime factor is at least two, the temporal loops are at most the sizes of the layer, so merging of factors never starts | partial | `Compare.large_limit_partial` `Compare.Ex.larger_limit_false` |
| C160 | Better hardware is never worse | Net.network on pairs of files | prices reach neither the spatial mappings nor the allocation; the candidates correspond one to one, with the same accesses, and the energy is monotone in the prices | partial | `Compare.prices_latency` `Compare.prices_energy` `Compare.Ex.larger_memory_false` `Compare.Ex.larger_bandwidth_false` |
| C161 | The unit of energy does not matter | Net.network on pairs of files | candidates correspond one to one with scaled energies, which keeps all comparisons, so the same candidate is first | proved | `Compare.prices_unit` |
| C162 | The temporal ordering of the mapping file is obeyed | the ordering in Search, Whole, Net, Call and OnnxCall; Ordering.generate instead of Engine.run | the list of orders is filtered by the constraints (C70), which are at fixed positions; a complete ordering replaces the list; the allocator keeps the order of the loops over the memories (C16) | partial | `Whole.run_obeys` `Whole.run_complete` `Whole.Ex.sized_ordering_false` `Whole.Ex.repeated_ordering_crash` `Whole.Ex.nothing_ordered_crash` `Whole.Ex.small_memory_crash` `Whole.Ex.single_ordering_crash` |
| C163 | An ordering of the user never improves the answer | Net.network on pairs of networks | the loops of a layer do not depend on an ordering without numbers, so that the orders with it are a sublist of those without (module Anneal.Ordered: none of the additional ones divides by zero when the movements of ports are separate; Free.Ordered: the mapping file without orderings gives the layers without orderings); at least one loop is left when the layer has more operations than the array has units; then as C158 | partial | `Compare.ordering_partial` `Anneal.ordering_best` `Free.file_ordering_best` `Free.onnx_ordering_best` |
| C164 | Calls with the annealing engine answer with real mappings and are never better than an exhaustive search | Anneal (SalsaStage with one worker inside of the stages of Net), with the annealing of Salsa (C44) and the evaluation of Whole | invariant of the annealing: every state is a permutation of the prime factors of the loops left (C44), hence a complete ordering of the user in the exhaustive engine (C162), whose evaluation is bounded by C152; the exhaustive engine generates every permutation when there is no limit (C8), then as C158 | partial | `Anneal.annealed_answer` `Anneal.annealed_bounds` `Anneal.exhaustive_partial` `Anneal.exhaustive_best` `Anneal.Ex.latency_false` `Anneal.Ex.ordering_false` `Anneal.Ex.limit_false` `Anneal.Ex.unrolled_crash` `Anneal.annealed_outcome` `Anneal.annealed_works` `Anneal.unrolled_refused` |
| C165 | Calls in which data stay in lower memories evaluate every layer on exactly the memories up to the recorded levels | Reuse (SearchInterLayerDataLocalityStage and ExploitInterLayerDataLocalityStage around the stages of Net), with the search of Locality (C50, C80-C82) | the stages below see one accelerator per layer, so their results are those of calls for single layers (C155); kept memories of an operand are a prefix (C50), so the number of memories below a kept one is unchanged for the operands it keeps, which carries the order of levels and the declared movements over; recorded levels store inputs and outputs (C81), so every operand keeps a memory, with layers without constants if the list of memories goes from the array outwards (Fits); then the bounds of C152 on every accelerator | partial | `Reuse.layers_alone` `Reuse.layers_together` `Reuse.kept_exact` `Reuse.handed_over` `Reuse.kept_room` `Reuse.kept_room_all` `Reuse.pruned_file` `Reuse.call_bounds` `Reuse.call_outcome` `Reuse.Ex.duplicates_crash` `Reuse.Ex.never_loaded_false` `Reuse.Ex.two_outputs_crash` `Reuse.Ex.weights_lost_crash` |
| C166 | What a call for an in-memory-computing array returns | ImcCall (the call with in_memory_compute: the stages of Reuse with CostModelEvaluationForIMC), with the array of Imc (C45, C46, C71-C76) | a cost model that adds a number to an evaluation of another one leaves candidates and errors as they are, so the answer is the first best of the evaluations with the energy of the array; the unrollings of an obeyed mapping give activations between the operations over the cells and the operations, which the exact energies of the array turn into bounds on the energy | partial | `ImcCall.imc_answer` `ImcCall.imc_outcome` `ImcCall.imc_bounds` `ImcCall.imc_peak` `ImcCall.imc_area` `ImcCall.Ex.area_first_false` `ImcCall.Ex.precharge_twice_false` `ImcCall.Ex.across_crash` |
| C167 | Calls with the input files that come with the tool | Shipped: the YAML files of zigzag/inputs as values (Docs), read with the model of the parsers (Files, Call), and five forms of layers with any sizes | decidable versions of the conditions on accelerators, mapping entries and forms are evaluated by the kernel on the files; a layer of a form that passes fits any accelerator that passes (fits), so the theorems on calls (C153) apply to every workload of such layers | partial | `Shipped.accelerators_ok` `Shipped.pairs_ok` `Shipped.forms_ok` `Shipped.shipped` `Shipped.Ex.doubled_ports_false` `Shipped.Ex.foreign_mapping_crash` |
| C168 | Calls on ONNX models with the accelerator and mapping files that come with the tool | Shipped/Onnx: ONNX models (OnnxCall, C154) on the accelerators and mapping files of C167; two models of the tool as values (OnnxDocs) | a convolution or product with known precisions fits any accelerator that has passed the checks of C167 (onnx_fits), whatever its sizes are, so the theorems of C154 apply; the kernel evaluates the checks on the two models | partial | `Shipped.shipped_onnx` `Shipped.onnx_fits` |
| C169 | Calls on files in which data stay in lower memories | LocalCall: the stages of Reuse (C165) around the files of Call (C149-C151): layers of the workload file become nodes with identifiers, constant operands and edges; roles of operands by Roles | an operand that names the layer itself is constant; the others are edges of the graph, which is acyclic because sources come before (SourcesKnown); a usual layer has two operands, one of them with a memory for inputs, so the network fits Reuse.Fits, and the theorems of C165 apply; the checks on the accelerators of the tool are evaluated by the kernel | partial | `LocalCall.local_bounds` `LocalCall.local_outcome_partial` `LocalCall.shipped_local` `LocalCall.shipped_fit` `LocalCall.local_room` |
| C170 | Calls on files with in-memory-computing arrays | ImcFiles: create_imc_array on the validated file, get_area/get_tclk of Imc for the constructed unit, then the stages of ImcCall (C163) with the nodes, mappings and skipped layers that the files give | the description is read field by field; the constructor succeeds exactly if the array passes the checks of Imc; layers that are not skipped are nodes of ImcCall, whose bounds apply; the checks on the two accelerators of the tool are evaluated by the kernel, for every area of converters | partial | `ImcFiles.array_made` `ImcFiles.imc_file` `ImcFiles.imc_file_bounds` `ImcFiles.imc_file_outcome_partial` `ImcFiles.files_ok` `ImcFiles.shipped_imc` `Followed.imc_file_outcome` `Followed.shipped_imc_outcome` |
| C171 | The mapping file is followed | Followed: no new model; the generator of SpatialGen and Hints (C20-C25), the files of Call, LocalCall and ImcFiles | every step of check_and_reduce keeps or lowers the unrollings of the user (relation Under, by induction over each loop); a candidate adds choices among the hints for the open array dimensions, and limiting to the capacity only lowers; hints are those of the user if one of them is a dimension of the layer; the answer is made of evaluations of generated mappings (C154) | proved | `Followed.tried_follow` `Followed.call_follows` `Followed.local_follows` `Followed.shipped_follows` `Followed.onnx_follows` |
| C172 | A mapping for a dimension that the array does not have is refused | Foreign: no new model; check_and_reduce of SpatialMapping, the stages of Pipeline, the call of Net and Call | the loop over the array dimensions of the mapping raises KeyError at the first that is not declared, and nothing else before it (induction); the workload stage over pre ++ layer :: post ends with the exception of pre or else of the layer; the files are those of Call with the array dimensions left open; with data in lower memories the accelerator of a layer has the same array, whatever memories are left | proved | `Foreign.layer_refused` `Foreign.network_refused` `Foreign.call_refused` `Foreign.maps_ok` `Foreign.shipped_refused` `Foreign.mismatched` `Foreign.model_refused` `Foreign.shipped_onnx_refused` `Foreign.never_generated` `Foreign.local_network_refused` `Foreign.imc_network_refused` `Foreign.local_refused` `Foreign.imc_refused` `Foreign.imc_maps_ok` `Foreign.imc_mismatched` `Foreign.shipped_local_refused` `Foreign.shipped_imc_refused` |
| C173 | Calls on files with the annealing engine | AnnealFiles: the call with the annealing engine on the contents of a workload file or an ONNX model; the stages of Anneal (C164, with the engine of Salsa), the files of Call and OnnxCall | the files give nodes that satisfy what the claims on Anneal need; which nodes have mappings that follow the file is Followed (C171); orderings: the engine never reads the field, so nodes with equal other fields get equal evaluations, and the mapping file without orderings gives such nodes (induction over entries and layers); exceptions: induction over the iterations, an exception comes from an order that is tried or from having nothing to order | partial | `AnnealFiles.criterion_refused` `AnnealFiles.file_answer` `AnnealFiles.onnx_answer` `AnnealFiles.file_bounds` `AnnealFiles.onnx_bounds` `AnnealFiles.exhaustive_partial` `AnnealFiles.file_refused` `AnnealFiles.limit_ignored` `AnnealFiles.ordering_ignored` `AnnealFiles.file_ordering_ignored` `AnnealFiles.onnx_ordering_ignored` `AnnealFiles.shipped_annealed` `AnnealFiles.shipped_onnx_annealed` `AnnealFiles.file_outcome` `AnnealFiles.onnx_outcome` `AnnealFiles.shipped_annealed_outcome` `AnnealFiles.file_works` `AnnealFiles.onnx_works` `AnnealFiles.file_exhaustive_best` `AnnealFiles.onnx_exhaustive_best` |

## Parts that are partial: what is missing

* **C17** the property is false when gaps appear between touched positions: exact condition proved, with a counterexample
* **C22** the documented claim is false (counterexample proved); proved for a factor of two and for mappings that are at least as diverse
* **C24** the scaling of the factor list is proved in full; applying it through a dictionary keyed by factor value fails for equal factors, counterexample proved
* **C30** ordering proved for non-negative stalls and loading times, and from the ports on whenever no port distributes spare cycles over several one-time transfers; false in general (latency_ordered_false)
* **C31** the minimum is not respected when the values have to be lowered to different minimums (balance_minimum_false)
* **C36** false for one to nine jobs (ZeroDivisionError after the first answer) and when a job raises (never finishes); proved for every schedule with at least ten jobs
* **C39** proved for aligned hierarchies, which include those with at most two levels and those whose memories are at one level for all their operands; false in general (levels_order_false)
* **C43** the check raises for a listed dimension with factor product one (is_complete_false); proved otherwise
* **C44** exact meaning proved for the constraints; orderings from a mapping file lose their wildcard first (constraints_file_false)
* **C49** partition proved in full; the semantic reading of irrelevance is false for an operand that uses only some names of a partially relevant relation, counterexample proved
* **C51** false for the code: the request never raises a level, for every network
* **C53** operations, outputs and weights proved for all valid convolutions; geometry exactly when both axes have the same attributes
* **C55** the claim is false of the code in three ways (negations proved); proved for prime-power sizes
* **C58** false when several mappings are requested (counterexample proved); proved for one requested mapping
* **C59** false: proved that the code returns the mapping unchanged or raises for every input
* **C60** false in general (12 unrolled 4 and 2 times leaves 1.5 iterations); proved when no array dimension after the first largest unrolls the dimension
* **C61** covers every bit when minimal and maximal port bandwidth agree; otherwise transfers below the minimal width are free (access_free_false)
* **C64** proved for two inputs with at most one half-shared link each; false otherwise
* **C65** proved when no worker raises; a worker that raises makes the stage wait forever (stage_failure_false)
* **C66** the annealer minimises the latency without loading, the stage compares the latency with loading (salsa_latency_false)
* **C67** false in general: the innermost memory of an operand is left out if it is an outer memory of another operand, and outermost memories likewise; proved for hierarchies where this does not happen
* **C69** edges are sound always and complete for nodes with at most two inputs; dependencies of other nodes are dropped (onnx_edges_false) and an omitted optional input can close a cycle (onnx_cycle_false)
* **C70** complete and position-only orderings proved; orderings with factors can change the iteration count (sized_order_false)
* **C71** proved for two or more row dimensions enumerated in the order of the mapping and fully paired dimensions; each other case has a counterexample
* **C73** holds without diagonal mapping, false with (adder_inputs_false)
* **C74** holds for arrays on which nothing was evaluated, false afterwards for every array (eq_history_false)
* **C75** totals proved; breakdown only for different names, false otherwise
* **C76** acceptance and area proved; delay proved for two or more rows, negative for one row
* **C77** exact condition for building proved; validation does not imply it (accepted_build_false)
* **C78** holds for different port names and unconflicting allocations; counterexamples otherwise
* **C79** exact region without exception proved; raises outside of it
* **C81** outputs proved; weights only for networks without additions, false with (weight_level_false)
* **C82** success implies a single input and a single output layer; raises otherwise
* **C83** holds for all equations with alphanumeric names and unbroken signs; counterexamples for other accepted equations
* **C84** holds for consistent descriptions; accepted inconsistent descriptions raise
* **C85** false for input shapes that are not known, for weights with own batch dimensions and for two-dimensional products with an unknown first size; proved otherwise
* **C86** precisions proved; sources for nodes whose weights are produced only if the activations are
* **C87** whole-number loops; per unit for tiles whose sizes the code computes exactly; the total for operands without partially relevant dimensions, with a counterexample otherwise
* **C88** proved for whole-number loops and tiles whose sizes the code computes exactly; false for tiles with gaps (input_traffic_false)
* **C89** proved for whole-number loops, partial sum flags for outputs without partially relevant dimensions; false for fractional unrollings (output_traffic_false)
* **C90** false with partially relevant dimensions, with a port narrower than the data of one cycle, and for the bandwidth because it is rounded down; proved otherwise
* **C93** borrowed cycles for ports whose one-time transfers belong to different operands; counterexamples otherwise and for the reported direction
* **C97** for different file names and one yielded list; counterexamples otherwise
* **C98** results of earlier runs are not protected and reruns are not skipped
* **C99** proved for energy and latency; false for the product of the totals (api_edp_false)
* **C100** exact condition proved (api_ok_iff); the stated condition is not enough (api_one_bad_false)
* **C102** false in several ways; dropped_keyword says exactly when a keyword is lost, command_line_repaired what is missing on the command line
* **C104** false; the exact state left behind and the exact condition on the sizes are proved
* **C106** false as stated; holds if port names and allocations agree
* **C107** false for ports, memories and spatial mappings; proved for accelerators and for tables of ports created from files
* **C109** false as stated; exact condition for success and permanence of answers proved
* **C110** false as stated; proved for requests that differ in bytes or width, for all schedules and crashes
* **C111** answers are never wrong and cached memories stay; repeating is false after one to nine lines of the record
* **C112** width as stated; numbers of ports are ignored
* **C113** false as stated: no file of CACTI can be read; exact condition for an answer and its value proved
* **C115** false as stated; exact for power-of-two ratios, off by at most one in general
* **C117** proved while no mapping has been launched; false afterwards: the mapping stored in the layer keeps its array sizes and every further run fails
* **C119** proved for layers and totals of at least one layer; the total of no layers cannot be saved completely and a multiple of an in-memory-computing result is saved with parts that do not add up
* **C120** proved for accelerator files; false for workload and mapping files, where required entries are completed with empty values before the check (an operator, an equation and the precisions are still reported)
* **C121** false as stated in four ways; proved: exactly when an accepted file can be built
* **C124** false when one loop dimension is named twice on one array dimension or one memory operand is linked twice; proved otherwise
* **C126** false if two levels use equal memory instances (their energy is drawn and counted twice); results of a deeper accelerator than the first result's raise; proved otherwise
* **C128** false for a sweep over two options (each configuration lacks one of them); unknown option names are ignored; the block size in bytes is the bus width in bits; the check of the place of the configuration never fails; the rest is proved
* **C129** false for the type of all lines but the first, and for files with a short line; proved otherwise
* **C131** false: AttributeError unless the tensor read by the branch is an output of the model, and branches of a second If are left out; the exact condition of success and the nodes of the result are proved
* **C132** false for products of two computed tensors (roles swapped) and for the search for diagonal mappings in products with one column or one reduction step; proved for all convolutions and products with at most one computed input
* **C133** the given accelerator is always used (proved); the memory is never enlarged, and layers with a single constant input raise
* **C135** false for layers that lack an operand some port serves (KeyError) and when negative loading cancels the computation (ZeroDivisionError); proved that these are the only exceptions
* **C136** proved for stall, latency without loading, utilization and double buffering; false for the latency with loading
* **C137** proved for memories that hold one operand; false for shared memories
* **C138** proved if no port has two movements that happen once; false otherwise, even a negative latency is reported
* **C142** proved for operands without partially relevant dimensions and spatial mappings without truncation (see MapInfo.transfer_false and MapInfo.output_traffic_false for the others); false for partial sums that are read back (psum_reads_false)
* **C143** exact exactly if the sizes of partially relevant dimensions are computed exactly (LayerNode.pr_size_exact_iff), for spatial mappings without truncation; sums over shared memories are proved without these conditions
* **C145** that no evaluation divides by zero needs that no two movements of a port happen exactly once (search_crash); everything else is proved without this condition
* **C146** proved for spatial mappings with whole factors, final outputs of at most as many bits as partial sums, and outputs without partially relevant dimensions; otherwise false (final_overfull_false, fraction_overfull_false), with fractions up to half an element per operand (found_partial)
* **C147** that no evaluation divides by zero needs that no two movements of a port happen exactly once (Search.search_crash); a port for reading is needed in memories whose costs are extracted automatically, which the validator does not check (write_only_crash)
* **C149** outputs that are indexed by a sum of dimensions are left out; without the other conditions false (C146: Search.fraction_overfull_false, Search.final_overfull_false)
* **C150** without the conditions on the innermost memories false: a port narrower than an element stops the program (generate_narrow_crash), and a memory smaller than an element gives unrollings of zero which the conversion rejects (generate_zero_false)
* **C151** that no run stops with an exception is not guaranteed: a generated mapping may have no loop order that fits (Pipeline.api_one_bad_false) and an evaluation may divide by zero (Search.search_crash); without limit on loops and orderings of the user, and if no two movements of a port happen exactly once, a call has an answer exactly if every mapping has an order that fits (free_answer_iff)
* **C152** the bound on the latency needs that no two movements of a port happen exactly once (Evaluate.ordered_false)
* **C153** as C151 and C152: a generated mapping may have no loop order that fits (Pipeline.api_one_bad_false) and an evaluation may divide by zero (Search.search_crash); the bound on the latency needs that no two movements of a port happen exactly once (Evaluate.ordered_false); arrays for in-memory computing, loop orders given by the user and mixed spatial mappings are outside; exactly when there is an answer, under the conditions of C151, is file_answer_iff
* **C154** as C153; the kernel of a convolution is taken with its height along the width of the image (Onnx finding of C53), which changes the result unless both axes agree but not the number of multiplications; nodes of control flow (If) and pooling, and tensors without stored shape, are outside; exactly when there is an answer, under the conditions of C151, is onnx_answer_iff
* **C156** false for EDP of several layers (edp_network_false): the product is minimised for every layer, not for the network; energy and latency for all networks and EDP for one layer are proved
* **C157** false in general (set_order_false); proved for complete spatial mappings that fit
* **C158** false in general (more_mappings_false, more_mappings_crash); proved for innermost memories that hold an element for every unit they serve
* **C159** false in general (larger_limit_false); proved that limits from the sum of the logarithms of the sizes on have no effect
* **C160** proved for prices; false for larger memories (larger_memory_false) and wider ports (larger_bandwidth_false)
* **C162** proved for orderings without numbers of iterations and for complete ones; false for others (sized_ordering_false), and orderings that can be satisfied are refused (repeated_ordering_crash, nothing_ordered_crash)
* **C163** for orderings without numbers of iterations and layers with more operations than the array has units; false otherwise (Whole.Ex.nothing_ordered_crash is the converse: an ordering removes the only answer); a division by zero in an additional evaluation is not excluded (Search.search_crash) unless no two movements of a port happen exactly once (ordering_best, without limit on loops; file_ordering_best and onnx_ordering_best for calls on files)
* **C164** proved: the answers are evaluations of orders of all loops, the bounds, the exceptions and when they are raised (annealed_outcome), when there is an answer whatever is drawn (annealed_works), and no better than the exhaustive search without limit and orderings (exhaustive_partial up to divisions by zero, exhaustive_best under a condition that excludes them); false: the criterion (latency_false), the ordering (ordering_false) and the limit (limit_false) of the user are not obeyed, and a layer without temporal loops has no answer (unrolled_crash)
* **C165** proved: the answer as sum over single layers (layers_alone, layers_together), the memories kept (kept_exact), that they form a proper file (pruned_file, for files listed in the order of the levels) and, for networks below a memory for everything, hand-over, bounds and when there is an answer (if all layers have constant weights, or the memories are listed from the array outwards, the weights of layers with constants first), and room for the data (kept_room for networks with constant weights, kept_room_all for layers of any kind); false: a call that answers without these stages may fail with them (duplicates_crash, two_outputs_crash, weights_lost_crash), and data of the network are not moved from and to the main memory (never_loaded_false); the room counted for a layer without constants leaves out the weights of the others (C81)
* **C166** proved: the answer (imc_answer), when there is one (imc_outcome), bounds (imc_bounds), imc_peak (if no dimension that the weights do not depend on is unrolled along the wordlines), and that the area is between that of the array and of the accelerator (imc_area); false: the area is that of the accelerator (area_first_false), every weight used is precharged (precharge_twice_false), the array adds no way to fail (across_crash)
* **C167** proved for eight accelerator files and the mapping files that fit them (accelerators_ok, pairs_ok, forms_ok, shipped); the ResNet-18 and matrix product files of the tool are cases; missing: entries that list numbers of iterations (one in tpu_like.yaml); false: generic_array_cacti.yaml declares movements of the results for two ports (doubled_ports_false), and a mapping file for another array ends in a KeyError (foreign_mapping_crash)
* **C168** proved for eight accelerator files and the mapping files that fit them; AlexNet and ResNet-18 of the tool are cases; missing: products that use more than two computed tensors or have more than two leading dimensions, entries that list numbers of iterations, and the latency bound without its condition
* **C169** proved: what the search sees of the files, hand-over, room for the data (local_room, under a condition on the sizes that C17 explains), energy and latency bound and when there is an answer, for any accelerator file listed from the array outwards; shipped_local for eight accelerator files of the tool; ResNet-18 of the tool is a case; missing: ONNX models, layers whose only constant is the input, and the latency bound without its condition
* **C170** proved: what the file says is what the array has; bounds, clock and area of answers; skipped layers; the two arrays of the tool with every fitting mapping file and workload of the usual forms, ResNet-18 is a case; the outcome of calls for mapping files that only unroll or hint dimensions of the weights along the wordlines, as the one of the tool does; missing: the outcome for other mapping files (it is known to be a KeyError in a case, C166), and ONNX models
* **C173** proved about answers and exceptions, for every sequence of random numbers with which shuffling permutes; an exception in a process of the engine stands for a call that waits for ever (C65); a division by zero is traced to its causes (Anneal.Zero), without a condition on the files that excludes them; missing: the latency bound without its condition, the comparison with the exhaustive engine without either the case of a division by zero (exhaustive_partial) or the condition that no two movements of a port happen exactly once (file_exhaustive_best, onnx_exhaustive_best), in-memory-computing arrays and data in lower memories

## Findings: properties the code does not have

Each is a theorem about a concrete input, checked by the kernel.

* `Anneal.latency_false`: C164: with the annealing engine a call for the least latency minimises energy inside of a spatial mapping. After one iteration the answer has latency 34, after another one it has latency 37, because that order has less energy.
* `Anneal.ordering_false`: C164: the annealing engine does not obey the temporal ordering of the user. Only orders with the second dimension innermost are allowed, and these have energy 860 and latency 64; the answer has energy 272 and latency 20.
* `Anneal.limit_false`: C164: the limit on the number of loops (`lpf_limit`) has no effect on the annealing engine. With at most two loops the least energy is 714, the answer of the engine for this limit is 664.
* `Anneal.unrolled_crash`: C164: a layer without temporal loops has an answer with the exhaustive engine; the annealing engine draws from an empty range. This happens in a worker process, whose result the caller waits for, so that the call does not even end.
* `Balance.balance_minimum_false`: C31 is false in general: the second step lowers the first value again, below its minimum and even below zero.
* `Cacti.order_false`: C109 is false in general: whether a memory can be costed depends on the requests made before, in this or in an earlier run. After a DRAM, an SRAM of the same size, width and ports is refused for ever, because the check for a cached record (cacti_parser.py lines 53-61) does not look at the type but the search for the costs (lines 200-209) does. The other way round the DRAM is refused.
* `Cacti.unknown_type_false`: C109 is false in general: a request for a memory type that is not known (the description may contain any text) is simulated as main memory, recorded as `dram` and refused, and from then on the SRAM of that size is refused too.
* `Cacti.odd_size_false`: C109 is false in general for sizes that are no whole number of bytes (the check of descriptions excludes them, a direct call does not): the request is simulated again every time, never answered, and here it replaces the record of the SRAM with 1024 bits by one of a DRAM, so that the SRAM is refused afterwards.
* `Cacti.concurrent_false`: C110 is false in general: two runs at the same time share the directory `self_gen`. Here an SRAM and a DRAM of the same size and width are extracted together, the process of the SRAM simulates the configuration of the DRAM, answers with the costs of the DRAM, and the wrong record stays in the pool: later requests for the SRAM are answered wrongly for ever.
* `Cacti.concurrent_fails_false`: C110 is false in general: even two runs that ask for the same memory can make each other fail, since each of them empties the directory. Alone the request is answered.
* `Cacti.crash_false`: C111 is false in general: an interruption in the middle of the record of an SRAM makes a DRAM of another size fail for ever.
* `Cacti.ports_ignored_false`: C112 is false: the costs do not depend on the ports of the description. A memory with one read-write port and one with a read port and three write ports, one of them sixteen times as wide, get the same request: one read port, one write port (accelerator_factory.py lines 169-181 does not hand on the numbers of ports). CACTI itself reports different costs for them.
* `CactiImc.extraction_crash`: The extraction works with no file that CACTI writes. Whatever numbers CACTI computes, whether it accepts a configuration or not, whichever files it wrote in earlier runs and however many calls are made: no call ever answers, because CACTI ends each line with a comma and writes `N/A` in the columns of other kinds of memories, and every cell is converted to a number.
* `CactiImc.stale_false`: An answer for an old array: the output file is never removed. When CACTI refuses an array (here: fewer than 64 bytes) the numbers of the last accepted array are answered instead of an error.
* `CactiText.unknown_option_false`: C128: a name that is no option is silently ignored: asking for the size under the name `size` yields the configuration of the default size.
* `CactiText.block_in_bits_false`: C128: the size of a block, which CACTI takes in bytes, is for every request the number of bits of the bus: the block that is asked for is eight times as wide as the bus.
* `CactiText.sweep_two_false`: C128: a sweep over two options is no sweep over pairs of values, and not even a sweep over each: every configuration that is written lacks the line of one of the two options altogether.
* `CactiText.outside_false`: C128: the test whether the configuration lies inside the folder of CACTI never fails: a configuration elsewhere is accepted.
* `CactiText.short_line_false`: C129: a line with too few fields shifts the later values of the missing columns: the first of two lines lacks its area, the record of the first line is written with the area of the second, and then an error is raised.
* `CactiText.second_type_false`: C129: of several lines for an SRAM only the first is recorded as an SRAM, the others as DRAM.
* `Cme.add_assoc_success_false`: Whether a sum succeeds depends on the bracketing: accelerators are related when one name is a prefix of the other, which is not transitive. `ab + (ac + a)` succeeds, `(ab + ac) + a` raises `ValueError`.
* `Compare.edp_network_false`: C156: optimizing the product of energy and latency of every layer does not optimize the product of the totals. For these three layers the call with `EDP` answers energy 224 and latency 48 (product 10752), the call with `energy` answers energy 218 and latency 49 (product 10682).
* `Compare.set_order_false`: C157: the answer of a call depends on the order in which python traverses a set. The layer has no hints for the array, so its hints become a set of dimensions; in one order the answer is energy 272 and latency 20, in another one energy 274 and latency 19.
* `Compare.more_mappings_false`: C158: asking for two spatial mappings instead of one may give a worse answer. Limiting the second mapping to the size of the memory also changes the first one. Energy 67 and latency 6 with one mapping, energy 70 and latency 10 with two.
* `Compare.more_mappings_crash`: C158: a call that answers with one spatial mapping may fail with two of them.
* `Compare.larger_limit_false`: C159: a larger limit on the number of loops may give a worse answer. Latency 20 with at most two loops, latency 22 with at most three.
* `Compare.larger_memory_false`: C160: a larger memory may give a worse answer. With outputs in 16 bits the best latency is 20, with outputs in 32 bits it is 22.
* `Compare.larger_bandwidth_false`: C160: a larger bandwidth may give a worse answer. With ports of 8 bits the best energy is 568 and the best latency is 26, with ports of 16 bits the best energy is 736 and the best latency is 34: the larger bandwidth allows larger unrollings, and the mapping with the largest unrolling is chosen.
* `Conversion.conversion_temporal_false`: The remark in the code ("fractional number so that the temporal remainder is an integer", lines 76-81) does not hold in general: when a later array dimension unrolls the same layer dimension too, the remainder is not whole. Here 12 is unrolled 4 times and 2 times, both are kept, and 12 / 8 temporal iterations remain.
* `Decouple.decouple_shared_false`: C18: a loop that contributes to two data dimensions breaks the claim: the level product grows from 4 to 16 (dimensions 0: IX = OX + FX, 3: IY = OX + FY).
* `Diagonal.diagonal_crash_false`: C59 (negation of the documented purpose): the function raises `KeyError` because the dictionary `{IX: .., IY: ..}` is unpacked into its keys.
* `Energy.access_free_false`: C61 is false for a port whose smallest access is narrower than the port: data is moved without any access being counted, hence without energy.
* `Equation.underscore_false`: C83 is false for dimension names with an underscore: `O[b_1]+=W[b_1]*I[b_1]` is accepted and has the dimensions `B` and `1`.
* `Equation.blank_false`: C83 is false for a blank inside `+=`: `O[b] + = W[b] * I[b]` is accepted and has an operand `=`.
* `Equation.repeated_false`: C83 is false for repeated names: `O[i]=A[i]*A[j]` is accepted, but the dimension `J` belongs to no operand.
* `Evaluate.bandwidth_false`: C136 does not hold for the whole latency: with a wider write port of a memory that all operands share, an evaluation reports 36 cycles instead of 32, because the loading of both inputs is taken to overlap less.
* `Evaluate.ordered_false`: C138 does not hold in general: the latency with the loading of the inputs (29 cycles) is below the latency without it (33 cycles), since the loading of two inputs through one port is reported as a negative number of cycles.
* `Evaluate.latency_negative_false`: C138: the reported latency may even be negative: a product of a 3 x 8 and an 8 x 3 matrix on an accelerator with six levels, which takes 72 cycles of computation, is reported to take -6 cycles altogether.
* `Evaluate.cancelled_crash`: C135: with 6 instead of 8 the negative loading cancels the computation exactly, and the evaluation raises `ZeroDivisionError`.
* `Evaluate.size_false`: C137 does not hold for a memory that is shared: with 80 instead of 64 bits an evaluation reports 4 stall cycles instead of none and 29 cycles instead of 25. The first operand of the list is double buffered in the additional room, and the second, which was double buffered before, no longer is.
* `Evaluate.missing_operand_crash`: C135: a port may carry several operands, but a layer that lacks one of them (such as a layer with one input operand) is not evaluated: the stall computation passes over such an operand, the loading computation looks it up and raises `KeyError`.
* `Evaluate.psum_reads_false`: C142 does not hold for partial sums that are read back: a register of which each access holds one result gets 16 results, of which 4 are the first of an output element; 12 are read back, as the data movement of the mapping says, but the evaluation counts, and charges the energy of, 16 reads.
* `Files.repeated_dimension_false`: C124 is false: when a loop dimension is named twice on one array dimension, the file is accepted and the first unrolling is dropped without a message (of `K, 4` and `K, 8` only `K, 8` is left, neither both nor their product).
* `Files.double_link_false`: C124 is false: a file that links two layer operands to the same memory operand is accepted, and building the attributes raises.
* `Files.missing_layer_entries_false`: C120 is false for workloads: `id`, `loop_dims` and `loop_sizes` are marked as required, but a layer without any of them is accepted; it gets the number 0 and no loops. (`normalize_list` completes required entries with an empty value of their type before the file is checked.)
* `Files.missing_mapping_name_false`: C120 is false for mappings: an entry without a name is accepted; its name is the empty text.
* `Files.energy_missing_false`: C121 is false: energy and area of a multiplier are optional in the schema, but without them building an array that is not in-memory raises `KeyError`.
* `Files.newline_false`: C121 is false: an allocation with a newline at its end is accepted (`$` matches before it), but the direction `fh\n` is unknown and raises `ValueError`.
* `Files.foreign_operand_false`: C121 is false: an allocation for an operand that is not stored in the memory is accepted, and raises `KeyError`.
* `Files.no_read_port_false`: C121 is false: with extraction of costs, a memory that only has ports for writing is accepted, and raises `ValueError`.
* `Float.ceil_large_false`: From 2^53 + 1 on `ceil(a / b)` can be wrong.
* `Float.ceil_large_by_three_false`: A divisor does not help: the ceiling of a large quotient by three is one too small.
* `Float.nb_permutations_false`: With 23 different loop factors the announced number is too large.
* `Float.accesses_false`: The accesses of a memory are not counted exactly: seven transfers of one 8 bit word in each of three memories with 24 bit ports are seven accesses, six are counted, because the quotient 8 / 24 is rounded and the product truncated.
* `Hierarchy.number_of_levels_false`: A memory that lists an operand twice is counted as two levels of that operand: `Nodup` above is needed.
* `Hierarchy.levels_order_false`: C39 is false in general: here the memory at level 2 of `I1` is listed before the one at level 1.
* `Hierarchy.inner_memories_false`: C67 is false in general: the only memory of the outputs is not reported because it also holds the second level of another operand.
* `Hierarchy.outer_memories_false`: C67, outermost memories: the outermost memory of an operand can be missing, and a memory that is not the outermost one of any operand can be reported.
* `Hints.evaluate_again_crash`: C117 is false: once a mapping has been launched for a layer, every further run on that layer object fails, on every accelerator and with every option; with an `AssertionError` ("OA Dimensions were already initialized") whenever the accelerator suits the layer.
* `Hints.evaluate_again_false`: C117 is false: the first run finds the mapping, the second run on the same layer fails.
* `HwEq.same_performance_false`: Two accelerators that differ in which operand uses which port compare equal and claim the same performance although the first operand is read at 64 bits per cycle in one and at 512 in the other: ports are compared one by one by width and kind, which operand is allocated to them is not.
* `HwEq.equality_empty_false`: A memory that stores no operand (accepted by the validator, accelerator_validator.py lines 52-56) breaks equality: the hierarchy with one memory is equal to both hierarchies with an additional empty memory of different size, which are not equal to each other, so equality is not transitive, and memories go unnoticed.
* `HwEq.port_ids_false`: Asking for an identifier sets the counter back: ports created later get identifiers that are already in use.
* `HwEq.port_table_false`: Ports with the same identifier and the same width are taken for the same key although they are different ports: the value stored for the second one is lost.
* `HwEq.port_hash_false`: Equal ports can have different hashes: a set or dictionary with one does not contain the other.
* `HwEq.level_hash_false`: The same for memories: equal memories of two accelerators have different hashes as soon as their places in the two hierarchies differ, for every hash function without collisions.
* `HwEq.mapping_hash_false`: Equal spatial mappings can have different hashes: an unrolling of two layer dimensions on one array dimension, written down in the two possible orders, for all hash functions without collisions.
* `HwOpt.mapping_left_false`: After a search the workload carries the mapping of the last configuration that was tried, neither the one the user gave nor the one of the best result: here the best result belongs to `8 × 8 × 8` units, as the mapping before the run, while the layer is left mapped to `16 × 16 × 16` units.
* `HwOpt.needs_sixteen_false`: A layer whose sizes are divisible by 8 but not by 16 stops the search with `ValueError`, and the results found until then are lost, although the arrays of size 8 suit it: `8 × 8 × 8`, the first configuration, is evaluated without problems.
* `HwOpt.mixed_mapping_false`: If several layer dimensions are unrolled on one array dimension, only the first is kept, and it takes all of the array dimension, also if its size is smaller than the product that was mapped: here `D1` was 2 × 8, and becomes 8 resp. 16 in the first dimension.
* `HwOpt.dimension_number_false`: Only the first digit of the number of an array dimension is looked at: the unrolling of `D12` follows the size of `D1`, and `D4` raises `IndexError`.
* `HwOpt.empty_unrolling_false`: An array dimension without an unrolling stops the search with `RuntimeError`.
* `Imc.clock_negative_false`: C76 is false for macros with one row: the delay of the adder tree is negative.
* `Imc.rows_single_false`: C71 fails with one dimension on the bitlines: the calculation raises.
* `Imc.rows_batch_false`: C71 fails for layers with a batch dimension: the calculation raises.
* `Imc.rows_order_false`: C71 fails when the set of dimensions is traversed in another order than the mapping: sizes are exchanged between dimensions.
* `Imc.rows_exceed_false`: The rows of a diagonal mapping can exceed the rows of the macro: four rows, C and FX unrolled by two on them, OX unrolled by four on the wordlines.
* `Imc.adder_inputs_false`: C73 is false for diagonal mappings: four adder inputs carry data, the adder trees are charged for six.
* `Imc.eq_history_false`: C74 is false once a layer has been evaluated: the array differs from an identical one.
* `Imc.area_breakdown_false`: C75 is false for memories with the same name: the breakdown does not add up.
* `ImcCall.area_first_false`: C166: the area that a call returns is not that of the accelerator. For the same accelerator and the same two layers in another order it is 13.0004 or 6.0004: only memories that the first layer needs are counted.
* `ImcCall.precharge_twice_false`: C166: precharging is billed for fewer weights than a layer has. A layer with four weights in four groups of two cells, each used in four cycles, is billed the precharging of one: that the same weight stays in use is taken off twice, by the reads and by the interval.
* `ImcCall.across_crash`: C166: without `Straight` the array may fail a call that answers otherwise. A dimension of a matrix product on which the weights do not depend is unrolled along the wordlines: no other dimension is paired with it and a `KeyError` is raised.
* `Json.empty_total_crash`: Saving the total of no layers: the simple file has zeros, but the complete file cannot be written (`AttributeError`), because a sum has no utilization before the first addition.
* `Json.mul_breakdown_false`: A multiple of an in-memory-computing result is saved with a wrong breakdown of the computation cycles: the cycles are multiplied, the stalls are not, so the parts no longer add up (for every result with stalls whose parts add up, and every factor but one).
* `Keywords.command_line_crash`: C102: the command line `python -m zigzag` never works: whatever the arguments are, the first stage raises a `TypeError`, because the keywords are called `onnx_model_path`, `mapping_path` and `accelerator_path` and not `workload`, `mapping` and `accelerator`.
* `Keywords.command_line_renamed_crash`: C102: the command line would not work with the right names either: the generator of temporal mappings asks for `temporal_mapping_type`, which is not given.
* `Keywords.keep_others_false`: C102: `reduce_minimal_keep_others` is meant to reach all reducing stages. In the pipeline of the API, for all options and values, only the outer reducing stage gets it: a stage takes the keyword without handing it on, so the inner reducing stages always drop the others.
* `Keywords.salsa_criterion_false`: C102: the annealing engine takes the criterion `salsa_opt_criterion`, which `get_hardware_performance_zigzag` does not give: with `temporal_mapping_search_engine="salsa"` and any `opt` the annealing minimises the energy.
* `Keywords.mapping_type_false`: C102: a keyword `mapping_type` that a user adds for an own stage makes every pipeline with a generator of temporal mappings raise a `TypeError`, unless a stage above takes it: the generator passes the name a second time.
* `Keywords.default_folder_false`: C102: the default output folder is named after the time of the call. It is computed when the package is loaded: two calls without `dump_folder`, at any times, write to the same files, and the results the first call saved for a layer are replaced by those of a layer with the same name of the second call, whatever they are.
* `Latency.borrow_lost_false`: C93 is false for a port that serves two one-time transfers of the same operand: the table of borrowed cycles is indexed by the operand, the second transfer overwrites the first, and the total that the port lends is smaller than what the loading table saves.
* `Latency.direction_false`: C93 is false by direction: a weight memory whose only port is filled once from above borrows bandwidth for writing, but the bandwidth is reported as reading towards the level below, and nothing is reported for writing.
* `Latency.latency_ordered_false`: C30 is false in general: the latency including on-loading is smaller than the latency without it, because the balanced reduction makes loading cycles negative.
* `Latency.onloading_half_false`: C64 is false with two half-shared links: the time of the first one is lost.
* `Latency.onloading_single_false`: C64 is false for a layer with one input operand on ports that both operands may use: nothing is counted.
* `LayerBuild.accepted_build_false`: C84 is false: accepted layers whose construction raises: input operands not called `I` and `W` (the schema allows no other precisions), a coefficient that is no number, fewer loop sizes than loop dimensions, a loop of size zero.
* `LayerBuild.validate_raises_false`: C84: the check itself raises for padding without a list of dimensions.
* `LayerNode.pr_size_false`: C17: the claim for all arguments is false: one output column and a kernel of three with dilation two touch three input columns, the code says five.
* `LayerNode.irrelevant_false`: C49: without the restriction the claim is false: with `IX = OX + FX` and `IY = OY + FY`, an operand indexed by `IX` only has `OY` neither relevant nor irrelevant but counted as partially relevant (dimensions 0: IX, 1: OX, 2: FX, 3: IY, 4: OY, 5: FY).
* `Locality.weight_level_false`: C81 is false for the weights: because of the addition the weights are placed in a memory that cannot hold them, and the first layer keeps no other memory for them.
* `Locality.search_raises_false`: C82 is false: the search raises for networks with two outputs and for networks with two inputs.
* `Locality.branch_level_false`: At branches the recorded input level can be a memory that does not store inputs.
* `Locality.from_top_false`: C51 is false: input and output of the sample network stay on chip with the request as without.
* `Lpf.static_composite_false`: C55, negative part (i): with a user-fixed loop of size 6 on K (K = 6), the loops scheduled for K iterate 18 times: `reduce_static_fps` (engine.py:242-260) adds the static size once per distinct prime factor.
* `Lpf.static_repeated_false`: C55, negative part (ii): two user-fixed loops of size 4 on K (K = 16) leave only 8 iterations.
* `Lpf.static_limit_false`: C55, negative part (iii): a user-fixed loop of size 2 on K = 6 together with a limit of one loop schedules 18 iterations, although without the limit the result is correct.
* `MapInfo.transfer_false`: C90: for an operand with a partially relevant dimension the data sent downwards per period, over all periods, need not be the counted reads: OX is unrolled above the level and FX runs inside, so neighbouring units share input columns; the count of reads knows that, the amount per period (data of one unit times the relevant unrolling) does not.
* `MapInfo.narrow_false`: C90: with "same data is no access" and a narrow innermost port, the reads are counted for every cycle while the periods of the transfer remain those of the stationary data: the two disagree.
* `MapInfo.bandwidth_false`: C90: the reported required bandwidth is rounded down and need not suffice for the data of a period (64 bits in 6 cycles).
* `MapInfo.data_all_units_false`: C87: for an operand with a partially relevant dimension the size reported for a level with all its units counts the elements shared by neighbouring units several times, and at the outermost level it can exceed the operand.
* `MapInfo.input_traffic_false`: C88: the accesses of an input operand need not be those of the loop nest: a tile of one output column and a kernel of three with dilation two has three input columns, which are fetched for each of four output columns; the code counts twenty writes instead of twelve (the gaps between the columns are fetched as well, see `LayerNode.pr_size_false`).
* `MapInfo.output_traffic_false`: C89: with a fractional unrolling (seven terms on two units are an unrolling of 7/4) the writes are rounded and the partial sums read back are rounded down: the middle memory is written four times and read back once although there are two output elements, so an element too many is finalised.
* `Onnx.conv_axis_false`: C53 is false: all 24 elements of the input are read, but the layer has 16; in its iterations it reads rows 0 to 5 of the 4 rows.
* `Onnx.conv_raises_false`: C53 is false for convolutions without the optional `kernel_shape` and for convolutions along one axis: parsing raises.
* `Onnx.conv_auto_pad_false`: C53 is false for automatic padding, which is ignored: the layer of a convolution that keeps the size 8 of its input has no padding, and reads beyond the input.
* `Onnx.unknown_input_false`: C85 is false for nodes whose input shape is unknown: the way to infer it from the weights is never taken with success.
* `Onnx.gemm_weights_false`: C85 is false for weights whose batch dimensions differ from what the number of produced inputs suggests: with constant weights `[8, 16, 32]` the layer has `16 · 32` weights instead of `8 · 16 · 32`, with produced weights `[16, 32]` it has `8 · 16 · 32` instead of `16 · 32`.
* `Onnx.gemm_dynamic_false`: C85 is false for two-dimensional products with an unknown first size: the layer cannot be built, while an unknown batch size counts as 1 elsewhere.
* `Onnx.source_swapped_false`: C86 is false if only the weights are produced: their producer becomes the source of the input, and the weights count as constant.
* `Onnx.source_raises_false`: C86 is false if a third input is produced as well: parsing raises.
* `OnnxModel.hidden_tensor_crash`: C131 is false of the code for the usual model with a branch: the tensor read by the branch is a hidden tensor of the model and no output, and making it an output uses `graph.results`, a field that graphs do not have (onnx/utils.py line 56): `AttributeError`, however graphs are merged.
* `OnnxModel.second_if_false`: C131 is false of the code for models with two `If` operators: the check that there is only one (onnx/utils.py lines 41-42) is never reached because the loop ends at the first, and the branches of the second are left out without a message.
* `Ordering.is_complete_false`: C43 is false in general: an ordering that covers the layer and also lists a dimension with factor one makes the check raise.
* `Ordering.constraints_short_false`: C44 fails for orderings that list more loops than the layer has: the check raises.
* `Ordering.constraints_file_false`: C44 is false for orderings from a mapping file: "anything, then K outermost" rejects the order with K outermost and accepts one with K innermost.
* `Ordering.sized_order_false`: C70 is false for orderings with factors: a layer with K = 6 and C = 2 and the ordering "K 6, then C" gives an order with 18 iterations of K.
* `Pipeline.api_edp_false`: C99: with the criterion "EDP" the product of the returned totals is not the least: the stage minimises the product of every layer. Here the call returns energy 11 and latency 11 (product 121), the other mappings of the same layers have energy 7 and latency 7.
* `Pipeline.api_one_bad_false`: C100: one generated spatial mapping without temporal mapping makes the whole call fail, although other mappings of every layer are fine: here the first of two spatial mappings could be evaluated.
* `Pipeline.api_imc_empty_crash`: C100: with `in_memory_compute`, a workload of which every layer is skipped (all pooling and additions) raises instead of returning a total of zero.
* `Plot.plot_total_false`: C126: if two memory levels use equal memory instances, each of their bars shows the energy of both, and the total written above the bars counts it twice: 39 instead of 28.
* `Plot.plot_mixed_crash`: C126: the memories are those of the first result's accelerator: a result of a deeper accelerator raises `IndexError`, although each of the results can be plotted alone; in the other order it is plotted.
* `Plot.plot_sums_crash`: C126: a list of sums over layers only (or an empty list) cannot be plotted.
* `Ports.accepted_build_false`: C77 is false: the validator accepts a port for an operand that the memory does not store, creating the accelerator raises.
* `Ports.conflict_false`: C78 is false for conflicting declarations: the file is accepted and the first port is removed.
* `Ports.duplicate_name_false`: C78 is false for equal port names: the movement declared for the second port is served by the first.
* `Ports.unserved_false`: An accepted memory can leave a movement of a stored operand without any port.
* `Ports.check_raises_false`: C79 is false: a file without input precisions, which line 282 means to report, makes the check itself raise; so does a missing bit serial precision and a missing memory for the cells (which line 242 reports).
* `Ports.half_bit_false`: C79 is false also as an acceptance criterion: a slice of half a bit is accepted.
* `Reuse.duplicates_crash`: C165: a call that answers without the stages for locality may fail with them. The room in the memories of the units is counted as a whole, but both units need a copy of the inputs; the main memory is removed and no loop order fits any more.
* `Reuse.never_loaded_false`: C165: data that the network reads and writes are never moved from or to the main memory. A shared memory with room for everything is left alone for the layer, and the answer has energy 36: that of 8 multiplications and 32 accesses for them.
* `Reuse.two_outputs_crash`: C165: networks with two outputs have no answer with the stages for locality: the call raises a RuntimeError.
* `Reuse.weights_lost_crash`: C165: an addition behind a layer can take away the memories for the weights of that layer. The weights are put into the memory for inputs and outputs, because the addition keeps one of its inputs in it; without the addition, and without the stages for locality, the call has an answer.
* `Roles.gemm_roles_false`: C132 is false for products of two computed tensors (attention): without constants the second input counts as the activation, and the equation of products names `I` first (convolutions name `W` first), so that every such layer has `W` as activation and `I` as weights.
* `Roles.identify_false`: C132 is false for the search for diagonal mappings: in a product with one output column `I` is taken for the weights, in an outer product the output.
* `Roles.never_enlarged_false`: C133 is false of the intention of the code: the innermost input memory serves one dimension along which output columns are unrolled, and is to be enlarged by that unrolling, but the test whether its dimension is known asks for a name that is bound only afterwards (spatial_mapping_generation.py lines 682-685), so that the memory is never enlarged and mappings are rejected as too large for it.
* `Roles.single_input_crash`: C133 is false for layers whose only input is constant: with diagonal mappings enabled, `IndexError` before any evaluation.
* `Salsa.salsa_no_loop_false`: A layer that is unrolled completely in space has no temporal loop: the search raises `ValueError` in its first iteration (the exhaustive engine handles the same layer, `Lpf.prime_factors_empty`).
* `Salsa.stage_failure_false`: C65, negative part: when one worker raises (an order that does not fit in memory is enough, `MemoryTooSmallException` is not caught), the stage waits forever: it never has all the answers.
* `Salsa.salsa_latency_false`: The latency criterion is inconsistent: the engine minimises the latency without loading, the stage compares the latency with it, so the search may return a mapping whose total latency is larger than that of another mapping it accepted.
* `Save.saved_all_false`: C97: the claim fails for layers whose names differ only in a slash and an underscore (ONNX node names have slashes): `a/b` and `a_b` are saved to the same file and the first result is lost.
* `Save.crash_saved_false`: C98: results of an earlier run are not safe: a run with the same folder that stops while it saves a layer leaves neither the old nor the new result.
* `Save.skip_never_false`: C98: skipping never happens for a dump folder: whatever runs (complete or stopped anywhere) went before, the folder is not a file, so every run evaluates everything again and writes over the earlier results.
* `Save.pickle_all_false`: C97: so below a stage that yields once with all results (as the sum stage does) nothing is lost, but of several yielded results only the list of the last is saved.
* `Save.pickle_bare_name_false`: C97: a pickle file without directory in its name makes the run raise at the very end, for all results: nothing is saved and the results of the whole run are lost.
* `Search.final_overfull_false`: C146: false without the condition on the precisions. The allocator reserves room for partial sums in a memory in which the last sum is completed, and the cost model counts final outputs there: with final outputs of 32 bits and partial sums of 16 bits, a register of 16 bits is 200 % full.
* `Search.fraction_overfull_false`: C146: false without the condition on the spatial loops. The allocator reserves room for 7/2 weights of 8 bits, and the cost model counts four of them: a memory of 36 bits is 111 % full.
* `Search.search_crash`: C145: false without the condition on the ports. All loop orders of a product of a 3 x 6 and a 6 x 3 matrix fit, but the evaluation of the first one divides by zero, which ends the search before any mapping is evaluated.
* `Shipped.doubled_ports_false`: C167: in one of the accelerator files that come with the tool (generic_array_cacti.yaml) the large memory declares all movements of the results for two ports each; the file is accepted, and the first two ports do not serve the results.
* `Shipped.foreign_mapping_crash`: C167: a mapping file for an array with more dimensions is accepted together with this accelerator and workload, which both come with the tool; the call ends with a `KeyError` for the dimension that the array does not have.
* `SpatialGen.limit_capacity_false`: C24 is false in general: with two equal factors the code maps the old factor back to itself, and the capacity stays exceeded.
* `SpatialGen.limit_capacity_crash`: A memory that cannot hold one element, nothing relevant unrolled along it: the code fails with `ValueError`.
* `SpatialGen.generate_shared_false`: C58 is false: candidates share the objects of the array dimensions, so limiting the second candidate changes the first one, and both results are the same mapping.
* `SpatialGen.generate_narrow_crash`: C150 needs that the innermost memories deliver an element per cycle: otherwise the bound of the dimension is zero and nothing is generated for the hint (`AssertionError`, "No valid SpatialMappings found"), although the layer can be executed without unrolling.
* `SpatialGen.generate_zero_false`: C150 is false when an innermost memory does not deliver an element per cycle: the user mapping is "reduced" to an unrolling of zero, accepted as valid and yielded.
* `SpatialMapping.indicator_false`: C22 is false as documented: a mapping with utilization 10 ranks below one with utilization 9.
* `Stages.gather_small_false`: With one to nine jobs the stage never finishes: it raises `ZeroDivisionError` in `count % (count_to_get // 10)` right after yielding the results of the first answer, in every interleaving.
* `Stages.gather_failure_false`: If a job raises, the stage never finishes: its answer is never put in the queue, and the main process waits for it.
* `Whole.write_only_crash`: C147: a file that the validator accepts but for which no accelerator is built: costs are to be extracted automatically for a memory that is only written, and the extraction needs the width of a port for reading.
* `Whole.sized_ordering_false`: C162 is false for orderings with numbers of iterations that do not list all loops: the layer has 2 × 6 × 2 operations, the ordering asks for all six iterations of a dimension and then for another dimension; the only mappings that are evaluated have 18 iterations of the first dimension, so that 72 cycles and an energy of 706 are reported for 24 operations.
* `Whole.repeated_ordering_crash`: C162: an ordering that can be satisfied but is refused. With 16 = 4 · 4 iterations of a dimension, the ordering "4 of this dimension, 4 of this dimension, then another dimension" ends with `NoValidLoopOrderingFoundException`: the factors are taken apart for one loop of four iterations only. The same loops are evaluated if all of them are listed.
* `Whole.nothing_ordered_crash`: C162: an ordering makes a call end with an exception although there is nothing to order: all iterations of the layer are unrolled over the array, and the run without an ordering has a mapping.
* `Whole.small_memory_crash`: C162: the exception for memories that are too small depends on the ordering: a complete ordering ends with the exception of the allocator, any other ordering with the message that there is no valid loop ordering.
* `Whole.single_ordering_crash`: C162: a loop of one iteration in an ordering ends the call.
* `Window.window_union_error_false`: C32 needs periods that fit together: otherwise the evaluation stops with a `ValueError`.
* `Workload.onnx_edges_false`: C69 is false for a concatenation of three tensors: the dependency on the third one is dropped, the workload has no path from the convolution that computes it (node 4) to the one after the concatenation (node 6), and node 6 is processed before node 4.
* `Workload.onnx_cycle_false`: C69 is false for omitted tensors: the node is taken for its own predecessor, and processing the workload fails.
