{"id": "C01", "title": "Loop-order enumeration is sound", "statement": "Every sequence yielded by the unconstrained loop-order generator is a rearrangement (same elements, same multiplicities) of the list of loop factors it was given; the first yield is the non-increasing arrangement; an empty list raises IndexError instead of yielding anything.", "quantifier": "all finite lists over any totally ordered element type, every yield of the generator", "why_tests_cant": "The generator mutates a linked list through three aliased pointers; a test sees finitely many multisets while the shape invariant must hold at every step for every multiset.", "anchors": ["zigzag/opt/loma/multipermute.py: init, visit, permutations"]}
{"id": "C02", "title": "Loop-order enumeration is complete, duplicate free and terminates", "statement": "For every non-empty list the generator stops after finitely many steps and yields every distinct arrangement of the multiset exactly once.", "quantifier": "all non-empty finite lists over any totally ordered element type", "why_tests_cant": "Completeness is a statement over all multisets of all sizes; counting yields for a few multisets proves nothing about the others.", "anchors": ["zigzag/opt/loma/multipermute.py: permutations"]}
{"id": "C03", "title": "Constrained enumeration equals filtered enumeration", "statement": "The constrained generator yields exactly the arrangements of the unconstrained generator that satisfy all constraints, in the same relative order, with the same multiplicities; with no constraints both agree.", "quantifier": "all multisets and all lists of constraints (arbitrary predicates on arrangements)", "why_tests_cant": "Two separately written generators with duplicated bodies; equality must hold for every constraint list.", "anchors": ["zigzag/opt/loma/multipermute.py: constrainded_permutations, permutations"]}
{"id": "C04", "title": "Spatial times temporal loops cover every layer dimension", "statement": "For every layer dimension, the product of its spatial unrolling factors times the temporal loop size chosen by the loop-order engine is at least the layer dimension size, and when every successive division is exact it is equal to it.", "quantifier": "all layer dimension sizes, all lists of (dimension, positive factor) spatial loops, including repeated dimensions and non-dividing factors", "why_tests_cant": "Repeated dimensions, deletion when the quotient is one and ceil-rounding interact; the number of combinations is unbounded.", "anchors": ["zigzag/opt/loma/engine.py: LomaEngine.get_temporal_loops"]}
{"id": "C05", "title": "Temporal loops contain no trivial dimension and waste less than one extra iteration per spatial loop", "statement": "Every returned temporal loop size is larger than one, belongs to a dimension of the layer, and removing one iteration from the result of a single spatial loop would no longer cover the dimension.", "quantifier": "all layer dimension sizes and all spatial loops", "why_tests_cant": "Minimality is universally quantified over sizes and factors.", "anchors": ["zigzag/opt/loma/engine.py: LomaEngine.get_temporal_loops"]}
{"id": "C06", "title": "Prime factorisation of temporal loops preserves each dimension", "statement": "The list of loop prime factors handed to the enumerator multiplies, per layer dimension, to exactly the temporal loop size of that dimension; every factor is prime; if there is no temporal loop at all a single loop of size one on the first layer dimension is scheduled.", "quantifier": "all temporal loop size tables", "why_tests_cant": "Needs a number-theoretic argument over all integers.", "anchors": ["zigzag/opt/loma/engine.py: LomaEngine.get_prime_factors"]}
{"id": "C07", "title": "Limiting the number of loop factors preserves iteration counts and reaches the limit", "statement": "Without ordering constraints, limiting terminates, leaves the product of the factors of every layer dimension unchanged, never increases the number of factors, and ends with a number of factors equal to the limit whenever it started above it (the limit being at least the number of temporal loop dimensions).", "quantifier": "all factor tables with positive multiplicities, all limits", "why_tests_cant": "A data dependent while loop that merges factors, re-inserts in sorted position and deletes empty multiplicities; the invariant is inductive.", "anchors": ["zigzag/opt/loma/engine.py: LomaEngine.limit_lpfs, find_smallest_non_static_pf, update_min_lpf_factor"]}
{"id": "C08", "title": "Reported number of loop orders equals the number of orders enumerated", "statement": "The announced number of permutations is the multinomial coefficient of the factor multiplicities, i.e. the number of distinct orders of the loop factors, each successive division is exact, and rounding of the quotients to floating point numbers changes nothing for up to 22 loop factors.", "quantifier": "all multiplicity tables", "why_tests_cant": "Exactness of each intermediate division is a divisibility fact over all integers.", "anchors": ["zigzag/opt/loma/engine.py: LomaEngine.compute_nb_permutations"]}
{"id": "C09", "title": "The engine skips only orders that do not fit and fails exactly when none fits", "statement": "The engine yields, in enumeration order, the mapping of exactly those orders whose allocation does not raise a too-small error, and it raises the no-valid-ordering error if and only if it yielded nothing.", "quantifier": "all enumerations and all outcomes of the allocator", "why_tests_cant": "Outcome sequences are unbounded; the claim ranges over all of them.", "anchors": ["zigzag/opt/loma/engine.py: LomaEngine.run"]}
{"id": "C10", "title": "Memory allocation keeps the loop order of every operand", "statement": "When allocation of a loop order succeeds, concatenating the loops assigned to the successive memory levels of any operand gives back exactly the given loop order, with one (possibly empty) list per memory level of that operand.", "quantifier": "all loop orders, hierarchies, capacities, operands", "why_tests_cant": "Loop invariant over an arbitrary number of memory nodes and operands.", "anchors": ["zigzag/opt/loma/memory_allocator.py: MemoryAllocator.run, allocate_node"]}
{"id": "C11", "title": "Allocated data fits in memory", "statement": "Whenever a memory node is allocated without error, the sum over the operands it stores of the data size (at the precision used) of the loops allocated up to and including that node does not exceed the node's capacity.", "quantifier": "all nodes, operands, capacities, size functions", "why_tests_cant": "Capacity must hold for every node of every hierarchy.", "anchors": ["zigzag/opt/loma/memory_allocator.py: MemoryAllocator.find_best_loop_combination, calc_size_slices"]}
{"id": "C12", "title": "The chosen loop combination is access-optimal", "statement": "Among all combinations of prefix lengths that fit the node and are allowed by the mapping type, the chosen one minimises the total number of accesses to the level above, and among ties it is the last in enumeration order (largest prefixes of the first operands).", "quantifier": "all size tables, access tables, capacities, any number of operands", "why_tests_cant": "The mixed radix enumeration has to visit every combination exactly once for any number of operands and prefixes.", "anchors": ["zigzag/opt/loma/memory_allocator.py: MemoryAllocator.find_best_loop_combination"]}
{"id": "C13", "title": "Even mapping keeps shared memories aligned", "statement": "With the even mapping type, after a memory is allocated any two operands stored in it that received at least one loop there end at the same position of the loop order, and an operand that received none already ends at or beyond that position; nothing else is excluded.", "quantifier": "all operands, loop orders, previously allocated prefixes", "why_tests_cant": "Characterisation (both directions) over all index combinations.", "anchors": ["zigzag/opt/loma/memory_allocator.py: MemoryAllocator.is_valid_idx_combination_for_even_mapping_type"]}
{"id": "C14", "title": "Stationary-loop merge-down preserves the loop nest", "statement": "Merging innermost irrelevant loops to lower levels terminates, keeps for every operand the number of levels and the overall loop sequence from innermost to outermost, and hence the total number of iterations.", "quantifier": "all temporal mappings and relevancy tables", "why_tests_cant": "Fix-point iteration of unbounded length with list removal by value.", "anchors": ["zigzag/mapping/temporal_mapping.py: TemporalMapping.innermost_stationary_loop_merge_down"]}
{"id": "C15", "title": "Merge-down reaches a stationary mapping", "statement": "In the resulting mapping no level above the lowest starts with a loop irrelevant to the operand, loops only move to lower levels, and the reported MAC-level stationary cycle count is the product of the maximal irrelevant prefix of the lowest level.", "quantifier": "all temporal mappings and relevancy tables", "why_tests_cant": "A post-condition of an unbounded fix-point loop.", "anchors": ["zigzag/mapping/temporal_mapping.py: TemporalMapping.innermost_stationary_loop_merge_down"]}
{"id": "C16", "title": "Cycles per memory level are consistent", "statement": "The number of cycles covered up to a level is the product of all loop sizes at and below it, is non-decreasing and divides the next one, and a mapping built by the allocator passes the check that all operands have the same total cycle count.", "quantifier": "all mappings produced by allocation", "why_tests_cant": "Depends on the order-preservation invariant for all hierarchies.", "anchors": ["zigzag/mapping/temporal_mapping.py: TemporalMapping.calc_cycle_cabl_level"]}
{"id": "C17", "title": "Partially relevant dimension size is the number of distinct indices", "statement": "The computed size of a partially relevant dimension c = sa*a + sb*b equals the number of distinct values of c over 0<=a<A, 0<=b<B.", "quantifier": "all positive sa, sb, A, B", "why_tests_cant": "Equality of a closed formula and a cardinality for all parameters; the formula is wrong outside a region that tests do not reach.", "anchors": ["zigzag/workload/layer_node.py: LayerNode.calc_pr_dimension_size"]}
{"id": "C18", "title": "Partially relevant loops are split without changing iteration counts", "statement": "Replacing partially relevant loops by a (relevant, irrelevant) pair preserves, for each operand and each level, the product of all loop sizes, and the product of the relevant parts up to any level equals the partially relevant data size up to that level.", "quantifier": "all spatial mappings per memory level, all layers (at most one partially relevant data dimension per loop)", "why_tests_cant": "Telescoping products over an unbounded number of levels and loops, with index bookkeeping during insertion.", "anchors": ["zigzag/mapping/mapping_assist_funcs.py: decouple_pr_loop, replace_pr_loop_in_mapping"]}
{"id": "C19", "title": "Unit counts factor in unique and duplicate parts", "statement": "At every architecture level of every operand the total number of units equals units with unique data times units holding the same data, counts never increase towards higher levels when all factors are >= 1, and the broadcast factor of a level times the duplicate count of the next level gives the duplicate count of the level.", "quantifier": "all spatial mappings", "why_tests_cant": "Universal over levels, loops and factors.", "anchors": ["zigzag/mapping/spatial_mapping_internal.py: SpatialMappingInternal.calc_unroll_size, calc_unit_count, calc_data_serve_scope"]}
{"id": "C20", "title": "Reducing a user spatial mapping makes it valid", "statement": "After a user spatial mapping is checked and reduced it satisfies the validity predicate (bounded by the maximal unrollings, array dimension sizes and layer dimension sizes), and unrollings are only lowered or removed.", "quantifier": "all user mappings, maximal unrollings, array and layer sizes; every choice of the 'arbitrary' dimensions removed", "why_tests_cant": "Nondeterministic set iteration order; must hold for every choice.", "anchors": ["zigzag/mapping/spatial_mapping.py: SpatialMapping.check_and_reduce, is_valid"]}
{"id": "C21", "title": "Validity check decides exactly the documented conditions", "statement": "The validity predicate returns true iff the documented conditions 4 to 8 hold, given that conditions 1 to 3 are asserted.", "quantifier": "all mappings and bounds", "why_tests_cant": "Decision logic over arbitrary tables.", "anchors": ["zigzag/mapping/spatial_mapping.py: SpatialMapping.is_valid"]}
{"id": "C22", "title": "Performance indicator ranks utilization first", "statement": "Mappings with a higher hardware utilization always have a higher performance indicator regardless of diversity (documented claim).", "quantifier": "all pairs of valid spatial mappings", "why_tests_cant": "A claim over all pairs of mappings; false in corner cases.", "anchors": ["zigzag/mapping/spatial_mapping.py: SpatialMapping.get_performance_indicator"]}
{"id": "C23", "title": "Maximal unrollings respect memory bandwidth", "statement": "After bandwidth limiting, the unrolling of any layer dimension that is relevant to an operand read from an innermost memory that serves units along the array dimension never exceeds bandwidth divided by precision, unrollings are only lowered, and other dimensions are untouched.", "quantifier": "all unrolling tables, memories, precisions", "why_tests_cant": "Quantified over memory hierarchies and tables.", "anchors": ["zigzag/stages/mapping/spatial_mapping_generation.py: limit_unrolling_to_mem_bandwidth"]}
{"id": "C24", "title": "Capacity limiting respects memory capacity", "statement": "Scaling unrolling factors to a capacity returns factors that are pointwise not larger than the originals and whose product does not exceed the bound.", "quantifier": "all factor lists and bounds", "why_tests_cant": "A while loop over arbitrary lists followed by a value-keyed dictionary.", "anchors": ["zigzag/stages/mapping/spatial_mapping_generation.py: limit_unrolling_to_mem_capacity, adjust_unrolling_factors"]}
{"id": "C25", "title": "Generated spatial mappings are valid, ranked and bounded in number", "statement": "The generator yields only mappings satisfying the validity predicate, at most the requested number, in non-increasing performance order, and no discarded valid candidate outranks a yielded one.", "quantifier": "all hints, bounds, layer sizes and requested numbers", "why_tests_cant": "Cartesian products of unbounded size.", "anchors": ["zigzag/stages/mapping/spatial_mapping_generation.py: generate_spatial_mappings"]}
{"id": "C26", "title": "Spatial mapping conversion covers layer dimensions exactly", "statement": "When a user unrolling does not divide a layer dimension, the adjusted factor times earlier unrollings times the temporal remainder equals the layer dimension size exactly, never exceeds the user factor, and its integer version is at least one.", "quantifier": "all layer sizes, unrollings with product at most the layer size", "why_tests_cant": "Arithmetic over all sizes.", "anchors": ["zigzag/stages/mapping/spatial_mapping_conversion.py: generate_limited_user_spatial_mapping"]}
{"id": "C27", "title": "Per-level spatial mapping conserves unrolling", "statement": "Distributing a spatial mapping over the memory levels of an operand uses every unrolled loop exactly once, so for each operand and each layer dimension the product over levels equals the product over array dimensions and the MAC-level unit count is the same for all operands.", "quantifier": "all spatial mappings and memory hierarchies whose top memory is served along all dimensions", "why_tests_cant": "Conservation over arbitrary hierarchies.", "anchors": ["zigzag/stages/mapping/spatial_mapping_conversion.py: generate_mapping_per_mem_lvl"]}
{"id": "C28", "title": "Adding cost results is a commutative monoid action on the totals", "statement": "Adding two cost evaluations adds energies, latencies, area-free accumulated fields and word accesses element-wise; addition of totals is associative and commutative; multiplying by n equals adding n copies.", "quantifier": "all cost evaluations, all n", "why_tests_cant": "Algebraic laws over all values and nested tables.", "anchors": ["zigzag/cost_model/cost_model.py: CumulativeCME.__add__, CumulativeCME.__mul__", "zigzag/mapping/data_movement.py: FourWayDataMoving, AccessEnergy, MemoryAccesses"]}
{"id": "C29", "title": "Total energy is the sum of its breakdown", "statement": "Total energy equals MAC energy plus memory energy and memory energy equals the sum over operands and levels of the four-direction energies.", "quantifier": "all mappings and hierarchies", "why_tests_cant": "Sum re-association over unbounded tables.", "anchors": ["zigzag/cost_model/cost_model.py: CostModelEvaluation.calc_memory_energy_cost, calc_energy"]}
{"id": "C30", "title": "Latency figures are ordered", "statement": "Ideal cycles <= ideal temporal cycles <= latency without on/off loading <= total latency, and utilizations lie between zero and one accordingly.", "quantifier": "all mappings, bandwidths, memories", "why_tests_cant": "Inequality across the complete latency model.", "anchors": ["zigzag/cost_model/cost_model.py: CostModelEvaluation.calc_overall_latency"]}
{"id": "C31", "title": "Balanced reduction conserves the requested amount and respects minimums", "statement": "Distributing a reduction over values lowers the total by exactly the given amount and keeps every value at least at its minimum.", "quantifier": "all value lists, minimums and amounts", "why_tests_cant": "Sorting-based redistribution loop over arbitrary lists.", "anchors": ["zigzag/cost_model/cost_model.py: CostModelEvaluation.reduce_balanced"]}
{"id": "C32", "title": "Memory updating windows union is bounded", "statement": "The union length of periodic memory-updating windows is at most the total number of cycles and at least the longest single window total; it is invariant under reordering of ports' operations.", "quantifier": "all periodic windows", "why_tests_cant": "Recursive inclusion of unbounded lists.", "anchors": ["zigzag/cost_model/cost_model.py: CostModelEvaluation.calc_mem_updating_window_union"]}
{"id": "C33", "title": "Combined port stalls are non-negative and dominate", "statement": "The combined stall of the operations sharing a port is non-negative and at least as large as required by total port traffic.", "quantifier": "all port activities", "why_tests_cant": "Arbitrary numbers of operations sharing a port.", "anchors": ["zigzag/cost_model/cost_model.py: CostModelEvaluation.combine_data_transfer_rate_per_physical_port", "zigzag/cost_model/port_activity.py"]}
{"id": "C34", "title": "Optimising stages return the first best result", "statement": "The minimal energy, latency and EDP stages yield exactly one result which minimises the lexicographic criterion among all results of the sub-stages, the earliest among equals, keep all other results when asked, and raise if there is no result.", "quantifier": "all sequences of sub-results", "why_tests_cant": "Fold over arbitrary sequences with tie-breaking.", "anchors": ["zigzag/stages/results/reduce_stages.py: MinimalEnergyStage, MinimalLatencyStage, MinimalEDPStage"]}
{"id": "C35", "title": "Sum stage adds every layer exactly once", "statement": "The sum stage yields one result whose totals are the sums of the totals of all sub-results, independent of their order.", "quantifier": "all sequences of sub-results", "why_tests_cant": "Arbitrary sequences.", "anchors": ["zigzag/stages/results/reduce_stages.py: SumStage"]}
{"id": "C36", "title": "Multiprocessing gather returns all results for every completion schedule", "statement": "For every number of submitted jobs and every completion order, the gather stage yields every result of every job exactly once.", "quantifier": "all job counts and completion schedules", "why_tests_cant": "Scheduling nondeterminism; and the progress message divides by a tenth of the job count.", "anchors": ["zigzag/stages/run_opt_stages.py: MultiProcessingGatherStage.run"]}
{"id": "C37", "title": "Simulated annealing keeps a legal order and the best state", "statement": "Whatever random numbers are drawn, every state visited by the annealer is a permutation of the temporal loop factors and the returned state has the lowest objective among all accepted states including the initial one.", "quantifier": "all random draws, iteration counts, objective functions", "why_tests_cant": "Quantifies over all random sequences.", "anchors": ["zigzag/opt/salsa/engine.py: SalsaEngine.run_simulated_annealing_opt", "zigzag/opt/salsa/state.py: SalsaState.swap"]}
{"id": "C38", "title": "Memory hierarchy levels are numbered per operand in insertion order", "statement": "After any sequence of add_memory calls in which no call lists an operand twice, the level number recorded for an operand in a memory equals the number of earlier memories storing that operand, and the number of levels equals the number of memories storing it.", "quantifier": "all sequences of add_memory calls", "why_tests_cant": "History property.", "anchors": ["zigzag/hardware/architecture/memory_hierarchy.py: MemoryHierarchy.add_memory"]}
{"id": "C39", "title": "Levels of an operand are listed inner to outer", "statement": "get_memory_levels(op) lists the memories storing op in increasing level order.", "quantifier": "all hierarchies built bottom-up by add_memory", "why_tests_cant": "Depends on a graph topological sort for all graphs; false for some shapes.", "anchors": ["zigzag/hardware/architecture/memory_hierarchy.py: MemoryHierarchy.get_memory_levels, get_operator_top_level, add_memory"]}
{"id": "C40", "title": "Memory instance count times served array equals the array", "statement": "The number of instances of a memory times the product of the sizes of the array dimensions it serves equals the total number of operational units.", "quantifier": "all arrays and served dimensions", "why_tests_cant": "Universal over dimension tables.", "anchors": ["zigzag/hardware/architecture/memory_level.py: MemoryLevel.unroll_count"]}
{"id": "C41", "title": "Workload graphs are acyclic and processed in dependency order", "statement": "Parsing a layer list succeeds only if every producer referenced by a layer occurs in the list before it or at itself; every accepted graph is acyclic and list order is a topological order.", "quantifier": "all layer lists", "why_tests_cant": "Graph property of arbitrary size.", "anchors": ["zigzag/workload/dnn_workload.py: DNNWorkload.__init__"]}
{"id": "C42", "title": "Removing dummy nodes preserves data dependencies", "statement": "In the workload without dummy nodes there is an edge from u to v iff the original workload has a path from u to v whose interior nodes are all dummy nodes.", "quantifier": "all workload graphs", "why_tests_cant": "Paths of unbounded length and iteration order of node removal.", "anchors": ["zigzag/workload/onnx_workload.py: ONNXWorkload.get_copy_no_dummy", "zigzag/workload/dnn_workload.py: DNNWorkload.get_copy_no_dummy"]}
{"id": "C43", "title": "User temporal orderings are recognised as complete exactly when they cover the layer", "statement": "A user temporal ordering is complete iff for every temporal loop dimension the product of the given factors equals the required temporal size, and the check does not fail.", "quantifier": "all orderings and layers", "why_tests_cant": "Quantified over orderings; deletion during iteration fails for trivial factors.", "anchors": ["zigzag/workload/layer_attributes.py: LayerTemporalOrdering.is_complete"]}
{"id": "C44", "title": "Partial user orderings constrain innermost and outermost loops", "statement": "Constraints from a partial ordering accept an order of loops iff the entries before the wildcard are its innermost loops and the entries after the wildcard are its outermost loops, in the given order.", "quantifier": "all orderings and loop orders", "why_tests_cant": "Quantified over all orders; positions from both ends.", "anchors": ["zigzag/workload/layer_attributes.py: LayerTemporalOrdering.get_constraints", "zigzag/opt/loma/multipermute.py: StaticPositionsConstraint, StaticPositionsAndSizesConstraint"]}
{"id": "C45", "title": "Adder tree size formula", "statement": "The closed form used for the number of one-bit adders in an accumulation tree with 2^d inputs of precision p equals the sum over tree stages of adders times width.", "quantifier": "all depths and precisions", "why_tests_cant": "Identity over all naturals.", "anchors": ["zigzag/hardware/architecture/imc_unit.py: get_regular_adder_trees_energy", "zigzag/hardware/architecture/imc_array.py"]}
{"id": "C46", "title": "Active adders never exceed the tree", "statement": "For any number of mapped inputs the fully plus half activated adders do not exceed the adders of the tree, all adders are active when all inputs are mapped, and the computation terminates.", "quantifier": "all depths, precisions, mapped input counts", "why_tests_cant": "Binary decomposition loop over all naturals.", "anchors": ["zigzag/hardware/architecture/imc_unit.py: get_regular_adder_trees_energy"]}
{"id": "C47", "title": "Four-direction data movement arithmetic", "statement": "Adding data movement records adds each direction, scaling multiplies each direction, totals are additive and linear.", "quantifier": "all records and scalars", "why_tests_cant": "Algebraic law.", "anchors": ["zigzag/mapping/data_movement.py"]}
{"id": "C48", "title": "Operand links are a bijection", "statement": "Links between layer operands and memory operands are inverse to each other: looking up the memory operand of the layer operand of any linked memory operand returns it, and duplicate links are rejected.", "quantifier": "all link tables", "why_tests_cant": "Universal over tables.", "anchors": ["zigzag/workload/layer_attributes.py: MemoryOperandLinks"]}
{"id": "C49", "title": "Loop relevancy partitions the layer dimensions", "statement": "For every operand, each non-trivial layer dimension is classified as exactly one of relevant, irrelevant or partially relevant.", "quantifier": "all equations, dimension sizes, dimension relations", "why_tests_cant": "Decision over arbitrary equations.", "anchors": ["zigzag/workload/layer_node.py: LoopRelevancyInfo.extract_relevancy_info"]}
{"id": "C50", "title": "Locality analysis only lowers memory levels", "statement": "During locality exploitation the memory level recorded for an operand of a layer is the minimum of the levels assigned to it, independent of the assignment order, and the pruned accelerator of a layer contains exactly the memories at or below the recorded level.", "quantifier": "all sequences of assignments, all hierarchies", "why_tests_cant": "History property.", "anchors": ["zigzag/stages/exploit_data_locality_stages.py: update_io_mem_level, generate_accelerator_with_removing_unused_memory"]}
{"id": "C51", "title": "Requesting network data from the top memory has effect", "statement": "With workload_data_always_from_top_mem set, the first layer's input and last layer's output are assigned to the top memory level.", "quantifier": "all workloads and hierarchies", "why_tests_cant": "Configuration effect for all inputs; silently a no-op.", "anchors": ["zigzag/stages/exploit_data_locality_stages.py: update_mem_level_for_loading_data"]}
{"id": "C52", "title": "Mapping selection priority", "statement": "The mapping of a layer is the one declared for its name, else for its operator type, else the default.", "quantifier": "all mapping files and layers", "why_tests_cant": "Decision logic.", "anchors": ["zigzag/parser/mapping_factory.py: get_mapping / MappingFactory"]}
{"id": "C53", "title": "Convolution parsing matches tensor geometry", "statement": "For a parsed convolution the loop sizes and dimension relations describe the ONNX tensors: the input extents implied by output extents, kernel, stride, dilation and padding match the input tensor per axis.", "quantifier": "all convolution attributes", "why_tests_cant": "Axis swaps are invisible with square kernels used in tests.", "anchors": ["zigzag/parser/onnx/conv_parser.py: ConvParser.get_layer_node_user_format"]}
{"id": "C54", "title": "Both search engines schedule the same temporal loops", "statement": "For one layer and one spatial mapping, wherever the simulated-annealing search engine computes temporal loop sizes successfully, the exhaustive engine computes the same sizes; the annealing engine raises KeyError exactly when a spatially unrolled dimension is not a dimension of the layer, which the exhaustive engine accepts.", "quantifier": "all layer dimension tables and spatial unrollings", "why_tests_cant": "Two separately written functions; agreement must hold for all inputs, including the rejected ones.", "anchors": ["zigzag/opt/salsa/engine.py: SalsaEngine.get_temporal_loops", "zigzag/opt/loma/engine.py: LomaEngine.get_temporal_loops"]}
{"id": "C55", "title": "User-fixed loop sizes keep the iteration counts", "statement": "When a user fixes the size of some loops in the temporal ordering, the loop factors handed to the enumeration still multiply up to the temporal size of each dimension.", "quantifier": "all layer sizes, all user orderings with sizes, all limits", "why_tests_cant": "Arithmetic over all factorisations; wrong results appear only for composite sizes, repeated sizes or together with a limit.", "anchors": ["zigzag/opt/loma/engine.py: LomaEngine.reduce_static_fps, limit_lpfs"]}
{"id": "C56", "title": "Every yielded temporal mapping covers the layer (end to end)", "statement": "For every layer, spatial unrolling, loop-factor limit and memory hierarchy, every temporal mapping yielded by the search engine gives all operands the same loops in the same order, and for every layer dimension the product of those loops and of the spatial unrolling is at least the layer dimension size; every distinct loop order is tried exactly once and the engine terminates.", "quantifier": "all layers, spatial mappings, limits, hierarchies", "why_tests_cant": "Composition of five components; a test can only run one layer on one architecture.", "anchors": ["zigzag/opt/loma/engine.py: LomaEngine.run", "zigzag/opt/loma/memory_allocator.py: MemoryAllocator.run", "zigzag/opt/loma/multipermute.py: permutations"]}
{"id": "C57", "title": "Top reuse loops are measured from the outermost loop", "statement": "For every operand and memory level, the reported size of the top irrelevant (relevant) loops is the product of the longest run of irrelevant (relevant) loops counted from the outermost loop of that level, and one if there is none.", "quantifier": "all temporal mappings, operands and levels", "why_tests_cant": "The value depends on the order and relevance of an unbounded list of loops.", "anchors": ["zigzag/mapping/temporal_mapping.py: TemporalMapping.calc_top_r_and_ir_loop"]}
{"id": "C58", "title": "Yielded spatial mappings are independent of each other", "statement": "Every spatial mapping yielded by the generator is the capacity-limited version of its own candidate, independent of how many mappings were requested.", "quantifier": "all layers, memories, hints and requested numbers", "why_tests_cant": "Depends on object sharing between candidates; visible only when several mappings are requested and capacity limiting is active.", "anchors": ["zigzag/stages/mapping/spatial_mapping_generation.py: generate_spatial_mappings, limit_unrolling_to_mem_capacity"]}
{"id": "C59", "title": "The diagonal mapping option extends mappings", "statement": "With diagonal weight mapping enabled, a mapping with room on the activation array dimension is extended with activation dimensions, and otherwise returned unchanged; it never raises.", "quantifier": "all layers, memories, hints and mappings", "why_tests_cant": "The crash depends on the combination of layer, memories and hints; the claim ranges over all of them.", "anchors": ["zigzag/stages/mapping/spatial_mapping_generation.py: add_input_pr_spatial_loop"]}
{"id": "C60", "title": "Converted spatial mapping leaves a whole number of temporal iterations", "statement": "After conversion of a valid user mapping, every layer dimension is its spatial unrolling over the whole array times a whole number of temporal iterations (the code comment promises a fractional unrolling 'so that the temporal remainder is an integer').", "quantifier": "all valid user mappings, layers and arrays", "why_tests_cant": "Depends on the order and sizes of unrollings over all array dimensions; tests use mappings with one array dimension per layer dimension.", "anchors": ["zigzag/stages/mapping/spatial_mapping_conversion.py: convert_user_spatial_mapping, check_if_oa_dim_mapping_is_first_max"]}
{"id": "C61", "title": "Every transferred bit is paid for by counted memory accesses", "statement": "For every data movement between memory levels, the number of counted memory accesses times the port bandwidth is at least the number of bits moved, and no movement of data is counted as free.", "quantifier": "all data amounts, precisions, periods, unit counts and port bandwidths", "why_tests_cant": "Rounding behaviour for every combination of amount, precision and minimal/maximal bandwidth.", "anchors": ["zigzag/cost_model/cost_model.py: CostModelEvaluation.calc_memory_word_access, calc_memory_energy_cost"]}
{"id": "C62", "title": "The utilization of a shared memory is the sum over the operands in it", "statement": "For every memory shared by several operands, the reported shared utilization is the sum of the individual utilizations of its operands, equal for all of them, and a memory that is not shared reports its own.", "quantifier": "all hierarchies, sharings and utilizations", "why_tests_cant": "Sums over arbitrary partitions of operand levels.", "anchors": ["zigzag/cost_model/cost_model.py: CostModelEvaluation.calc_memory_utilization"]}
{"id": "C63", "title": "Double buffering never overcommits a memory", "statement": "The operands declared double buffered in a memory together with all other operands in it never need more than the capacity of the memory, and an operand using at most half of an unshared memory is double buffered.", "quantifier": "all hierarchies, sharings and utilizations", "why_tests_cant": "Depends on the processing order of operands sharing a memory.", "anchors": ["zigzag/cost_model/cost_model.py: CostModelEvaluation.calc_double_buffer_flag"]}
{"id": "C64", "title": "The on-loading time covers the transfers of every operand", "statement": "The on-loading time is at least the sum over levels of the slowest side of every transfer of each input operand and at most the sum over both operands. The off-loading time is the sum over the links of the output of the slower side.", "quantifier": "all numbers of levels, port sharings and transfer times", "why_tests_cant": "Depends on the pattern of shared ports over an unbounded number of levels; false for two half-shared links and for layers with a single input.", "anchors": ["zigzag/cost_model/cost_model.py: CostModelEvaluation.calc_onloading_combined"]}
{"id": "C65", "title": "The annealing stage returns the best of its workers for every interleaving", "statement": "Whatever the order in which the worker processes finish and put their results in the queue, the stage yields one result, which is the result of one of the workers, and no worker found a better one; the stage always finishes, also when a worker fails.", "quantifier": "all numbers of workers, results and interleavings of the processes", "why_tests_cant": "Interleavings of processes cannot be enumerated by tests; false when a worker raises: the stage then waits forever.", "anchors": ["zigzag/stages/mapping/salsa.py: SalsaStage.run", "zigzag/opt/salsa/engine.py: SalsaEngine.run, run_simulated_annealing_opt"]}
{"id": "C66", "title": "The annealer can reach every loop order", "statement": "For every order of the temporal loop factors there are random draws with which the annealer accepts that order, and the measure the annealer minimises is the one the stage compares results by.", "quantifier": "all layers, orders of loops and draws", "why_tests_cant": "Existence of a path in a factorial search space; the second half is false for the latency objective.", "anchors": ["zigzag/opt/salsa/engine.py: SalsaEngine.run_simulated_annealing_opt", "zigzag/opt/salsa/state.py: SalsaState.swap", "zigzag/stages/mapping/salsa.py: SalsaStage.compare_stage_with_best"]}
{"id": "C67", "title": "The innermost and outermost memories of every operand are reported as such", "statement": "get_inner_memories contains the innermost memory of every operand and get_outer_memories contains exactly the outermost ones.", "quantifier": "all sequences of added memories", "why_tests_cant": "Depends on the edges of a graph built incrementally; false for memories at different levels for different operands.", "anchors": ["zigzag/hardware/architecture/memory_hierarchy.py: MemoryHierarchy.get_inner_memories, get_outer_memories, add_memory"]}
{"id": "C68", "title": "The sharing list describes a partition of the shared operand levels", "statement": "The sharing list of an accelerator contains the level table of every memory storing several operands and nothing else, and no (operand, level) pair is in two entries.", "quantifier": "all sequences of added memories in which no memory lists an operand twice", "why_tests_cant": "Needs the numbering of levels over arbitrary hierarchies.", "anchors": ["zigzag/hardware/architecture/accelerator.py: Accelerator.__generate_mem_sharing_list, mem_sharing_list"]}
{"id": "C69", "title": "The ONNX workload has exactly the data dependencies of the model", "statement": "Parsing an ONNX model gives a workload graph whose edges are exactly the producer/consumer pairs of the model; the graph is acyclic and the stages process every layer after the layers that produce its inputs.", "quantifier": "all ONNX graphs (lists of nodes with named inputs and outputs, of any length) and all operator types", "why_tests_cant": "A test covers a handful of ONNX files; edges come from name lookups over arbitrary graphs and from operator specific input handling.", "anchors": ["zigzag/parser/onnx/onnx_model_parser.py: ONNXModelParser.parse_workload_from_onnx_model_and_mapping", "zigzag/parser/onnx/onnx_operator_parser.py: get_node_predecessors", "zigzag/workload/onnx_workload.py: ONNXWorkload.add", "zigzag/stages/workload_iterator.py"]}
{"id": "C70", "title": "The mappings generated for a user ordering are those of exactly that ordering", "statement": "If the user supplies a complete temporal ordering, exactly one mapping of exactly that loop order is generated (or the too-small error is raised); if the user supplies a partial ordering, exactly the fitting mappings of the loop orders that satisfy the constraints are generated.", "quantifier": "all layers, all memory hierarchies, all loop orders and all user orderings of any length", "why_tests_cant": "A test covers a few orderings; the claim is about every ordering and every loop permutation.", "anchors": ["zigzag/stages/mapping/temporal_mapping_generator_stage.py: TemporalMappingGeneratorStage.generate_mappings", "zigzag/opt/loma/engine.py: LomaEngine.run, og_generator", "zigzag/opt/loma/multipermute.py"]}
{"id": "C71", "title": "The rows of a diagonal mapping are the input coordinates it needs", "statement": "When output dimensions are unrolled over the columns of an in-memory array and filter dimensions over its rows (a diagonal mapping), the number of rows counted is the product over the row dimensions of the number of different input coordinates used, independently of the order in which dimensions are enumerated, and never more than the rows of the array.", "quantifier": "all layers and all unrollings over the two array dimensions", "why_tests_cant": "Combinatorial count over arbitrary unrollings; the enumeration order of a set cannot be controlled by tests. False for one row dimension (crash), for layers with a batch dimension (crash) and for other enumeration orders.", "anchors": ["zigzag/hardware/architecture/imc_unit.py: ImcUnit.calculate_mapped_rows_when_diagonal_mapping_found, get_mapped_oa_dim"]}
{"id": "C72", "title": "Energy of a layer on an in-memory array is at most peak energy times activations", "statement": "Every component of the energy of a layer on an in-memory array is non-negative and at most the peak energy per cycle of that component times the number of cycles the array is active.", "quantifier": "all array configurations and all mapped sizes within the array", "why_tests_cant": "Holds over all configurations and utilizations; peak and layer energy are computed by different formulas.", "anchors": ["zigzag/hardware/architecture/imc_array.py: ImcArray.get_energy_for_a_layer, get_peak_energy_single_cycle"]}
{"id": "C73", "title": "Adder trees are charged for the inputs that carry data", "statement": "The energy of the adder trees of an in-memory array is that of a tree in which as many inputs are active as products are accumulated per column.", "quantifier": "all mappings on all digital in-memory arrays", "why_tests_cant": "The two row counts only differ for diagonal mappings, with sizes from the whole range. False there: the number of rows is used.", "anchors": ["zigzag/hardware/architecture/imc_array.py: ImcArray.get_energy_for_a_layer", "zigzag/hardware/architecture/imc_unit.py: ImcUnit.get_mapped_oa_dim, get_regular_adder_trees_energy"]}
{"id": "C74", "title": "Equality of arrays does not depend on what was evaluated on them", "statement": "Two in-memory arrays created with the same arguments are equal, whatever layers have been evaluated on one of them.", "quantifier": "all arrays and all histories of evaluated layers", "why_tests_cant": "A statement about all histories. False: evaluating a layer changes a field that equality compares.", "anchors": ["zigzag/hardware/architecture/imc_array.py: ImcArray.__eq__, get_energy_for_a_layer"]}
{"id": "C75", "title": "The memory area breakdown adds up to the memory area", "statement": "The reported memory area is the sum of the areas of all memories, the total area is that plus the area of the array, and the entries of the breakdown by name add up to the memory area.", "quantifier": "all lists of memories, names and areas", "why_tests_cant": "Depends on coinciding names in lists of any length. False for two memories with the same name.", "anchors": ["zigzag/cost_model/cost_model_imc.py: CostModelEvaluationForIMC.collect_area_data"]}
{"id": "C76", "title": "An in-memory array is accepted exactly for power-of-two adder trees and has non-negative area and delay", "statement": "Creating an in-memory array succeeds exactly when its adder trees have a power of two inputs, and then every entry of its area and delay breakdown is non-negative.", "quantifier": "all array dimensions, precisions and technology numbers", "why_tests_cant": "Quantifies over all sizes and precisions. The delay is negative for an array with one row.", "anchors": ["zigzag/hardware/architecture/imc_array.py: ImcArray.get_area, get_tclk"]}
{"id": "C77", "title": "Accepted accelerator files can be built", "statement": "Every memory description that passes validation can be turned into a memory level of the accelerator.", "quantifier": "all memory descriptions (names, operands, ports and port allocations)", "why_tests_cant": "Validation and construction are separate programs; agreement must hold for every file. False: construction raises for an accepted file.", "anchors": ["zigzag/parser/accelerator_validator.py: AcceleratorValidator.validate_single_memory", "zigzag/parser/accelerator_factory.py: MemoryFactory.create_port_allocation, create_memory_level", "zigzag/hardware/architecture/memory_level.py: MemoryLevel"]}
{"id": "C78", "title": "Each data movement uses the port declared for it", "statement": "In a built memory every data movement of every operand is assigned the port whose description lists it, and every operand has a port for every movement it needs.", "quantifier": "all accepted memory descriptions", "why_tests_cant": "Ranges over all port lists; conflicting or repeated entries and repeated port names are not in the shipped files. False for those.", "anchors": ["zigzag/parser/accelerator_factory.py: MemoryFactory.create_port_allocation", "zigzag/hardware/architecture/memory_level.py: MemoryLevel.__allocate_ports"]}
{"id": "C79", "title": "Invalid in-memory array files are reported, not crashed on", "statement": "Validating the description of an in-memory array gives accepted or rejected for every description that satisfies the schema, and accepted descriptions have whole precisions and cell counts.", "quantifier": "all array descriptions satisfying the schema", "why_tests_cant": "All combinations of optional and null fields and fractional numbers. False: some raise, and half a bit is accepted.", "anchors": ["zigzag/parser/accelerator_validator.py: AcceleratorValidator.validate_operational_array_imc, validate_cells_imc"]}
{"id": "C80", "title": "Layers agree on where the data between them is", "statement": "After locality analysis, every layer reads its input from the memory level to which each of its predecessors writes its output, and every level is determined.", "quantifier": "all layer graphs (any number of layers, branches and joins) and all memory hierarchies for which the analysis succeeds", "why_tests_cant": "A graph property over unboundedly many networks.", "anchors": ["zigzag/stages/exploit_data_locality_stages.py: SearchInterLayerDataLocalityStage"]}
{"id": "C81", "title": "Data kept on chip fits", "statement": "The memory level chosen for the output of a layer outside of branches is the lowest memory that stores the output and the next input and has room for the data of the layer and stored weights; a level below the top chosen for the weights has room for all weights of the network.", "quantifier": "all layer graphs and memory hierarchies", "why_tests_cant": "Capacity arguments over all networks. The weight half is false if the network contains a layer without constants.", "anchors": ["zigzag/stages/exploit_data_locality_stages.py: SearchInterLayerDataLocalityStage.update_mem_level_for_weights"]}
{"id": "C82", "title": "Locality analysis handles every network", "statement": "Locality analysis succeeds for every acyclic network, and the recorded input level of a layer is a memory that stores its input operand.", "quantifier": "all acyclic layer graphs and memory hierarchies", "why_tests_cant": "Over all graphs. False: networks with several inputs or outputs make it raise, and after a branch the level may belong to a memory that does not store inputs.", "anchors": ["zigzag/stages/exploit_data_locality_stages.py: SearchInterLayerDataLocalityStage"]}
{"id": "C83", "title": "Layer equations are understood as written", "statement": "For every layer equation the list of operands is the list of operand names in the order written, and the dimensions relevant to an operand are exactly the ones written in its brackets, in upper case.", "quantifier": "all equations accepted by the workload checks, with any number of dimensions and any blanks", "why_tests_cant": "Ranges over all texts of a grammar. False for accepted equations with underscores in dimension names, a blank inside the accumulation sign, or an operand used twice.", "anchors": ["zigzag/parser/workload_factory.py: LayerNodeFactory.create_equation", "zigzag/workload/layer_attributes.py: LayerEquation", "zigzag/parser/workload_validator.py: WorkloadValidator.EQUATION_REGEX"]}
{"id": "C84", "title": "Accepted workload layers can be built", "statement": "Every layer description accepted by the workload checks is turned into a layer; its number of operations is the product of the loop sizes and an operand over loop dimensions has as many elements as the product of the sizes of its dimensions.", "quantifier": "all layer descriptions satisfying the schema", "why_tests_cant": "Ranges over all combinations of equations, relations, sizes, padding and precisions. The first half is false: accepted descriptions can raise while the layer is built.", "anchors": ["zigzag/parser/workload_validator.py: WorkloadValidator.validate_single_layer", "zigzag/parser/workload_factory.py: LayerNodeFactory", "zigzag/workload/layer_node.py: LayerNode.__init__"]}
{"id": "C85", "title": "Parsed matrix products have the operations and tensors of the ONNX node", "statement": "For every Gemm or MatMul node the parsed layer has as many operations as the product of the tensors needs, and its operands have the elements of the input, weight and output tensors.", "quantifier": "all shapes with up to two batch dimensions, known or unknown, transposed or not, constant or produced weights", "why_tests_cant": "Ranges over all shapes. False for weights whose batch dimensions differ from those of the input in an unexpected way, for unknown sizes in two-dimensional products and unknown input shapes.", "anchors": ["zigzag/parser/onnx/gemm_parser.py: GemmParser", "zigzag/parser/onnx/matmul_parser.py: MatMulParser", "zigzag/parser/onnx/utils.py: get_node_input_output_dimension_shapes"]}
{"id": "C86", "title": "Sources and precisions of parsed nodes are those of the ONNX node", "statement": "In a layer parsed from an ONNX node every operand has the producer of the corresponding tensor as source, or is constant if there is none, and the precisions of the custom attributes, with the documented defaults.", "quantifier": "all nodes, producers and attributes", "why_tests_cant": "Ranges over all graphs and attribute lists. False if only the second input is produced by a node, or more than two inputs are.", "anchors": ["zigzag/parser/onnx/onnx_operator_parser.py: ONNXOperatorParser.get_operand_source_user_format, get_weight_precision, get_activation_precision, get_intermediate_output_precision", "zigzag/parser/onnx/utils.py: get_attribute_ints_with_name, get_onnx_tensor_type"]}
{"id": "C87", "title": "Data sizes per memory level are the elements the loops below access", "statement": "For every mapping, the number of elements reported for one memory unit of an operand is the number of different elements of the operand that the loops up to that memory access, and the number reported for all units is the number of different elements they hold together.", "quantifier": "all layers, all spatial and temporal mappings that cover the layer, all memory levels", "why_tests_cant": "Ranges over all loop nests and index relations. The total is false with neighbouring units that share elements of a partially relevant dimension.", "anchors": ["zigzag/mapping/mapping.py: Mapping.calc_data_size, gen_r_ir_loop_list, combine_spatial_temporal_mapping_dict"]}
{"id": "C88", "title": "Access counts of input operands are those of the loop nest", "statement": "For every mapping, an input memory is read towards the level below once per element of the tile below and per iteration outside it, and written from above likewise; every element is read at every level, every word written is read, and what a memory delivers never exceeds what the units below receive. Repeated accesses to stationary data are removed only at the innermost memory and only if its port is wide enough. No valid mapping raises an exception.", "quantifier": "all layers, mappings, memory levels, port widths", "why_tests_cant": "Ranges over all loop nests; the inequalities need a counting argument on index sets.", "anchors": ["zigzag/mapping/mapping.py: Mapping.calc_data_access"]}
{"id": "C89", "title": "Every output element is finalised exactly once", "statement": "For every mapping and every memory level of the output, the writes from below exceed the partial sums read back by exactly the number of output elements; the partial sums a level receives from above are those the upper level reads out; partial sums are read back, with their own precision, exactly if a loop outside the level runs over a dimension the output does not have.", "quantifier": "all layers, mappings, memory levels", "why_tests_cant": "Ranges over all loop nests; tests fix a few mappings.", "anchors": ["zigzag/mapping/mapping.py: Mapping.calc_data_access, get_psum_flags, gen_data_precision_dict"]}
{"id": "C90", "title": "Transfers per period add up to the access counts and bandwidths to the data", "statement": "For every mapping the amount moved per period times the number of periods and units is the total number of accesses in that direction, the average bandwidth over a period moves the data of the period and the instantaneous bandwidth over its window moves the same data.", "quantifier": "all layers, mappings, memory levels and directions", "why_tests_cant": "Ranges over all loop nests. False for reads of partially relevant operands shared by neighbouring units, for narrow innermost ports with stationary data, and because the bandwidth is rounded down.", "anchors": ["zigzag/mapping/mapping.py: Mapping.calc_req_mem_bw_and_data_transfer_rate"]}
{"id": "C91", "title": "No traffic between the outermost memory and the outside", "statement": "After construction of the mapping information, the outermost memory of every operand exchanges no data with the outside in any attribute, and all other attributes are unchanged.", "quantifier": "all lists of data movement patterns", "why_tests_cant": "Ranges over all hierarchies and attribute values.", "anchors": ["zigzag/mapping/mapping.py: Mapping.disable_data_traffic_external", "zigzag/mapping/data_movement.py: DataMovePattern.update_single_dir_data"]}
{"id": "C92", "title": "Loading and off-loading cycles of every port", "statement": "After evaluation, the table of loading and off-loading cycles has an entry exactly for every transfer that happens and does not move partial sums. A transfer that repeats is recorded with the cycles of one period. The transfers of a port that happen once are shortened, together, by at most the cycles in which the port is idle during the computation, and, if no transfer is shorter than the data of the lowest level needs, none is lengthened and exactly those cycles are used where the transfers can be shortened that much. The entry tells whether the port serves both inputs.", "quantifier": "all sets of ports with different transfers, all transfer counts, cycles and bandwidths", "why_tests_cant": "Ranges over all port assignments and transfer patterns; tests look at the latency of a few mappings.", "anchors": ["zigzag/cost_model/cost_model.py: CostModelEvaluation.calc_loading_single_port, calc_loading_single_port_period_count_1, calc_loading_single_port_period_count_greater_than_1"]}
{"id": "C93", "title": "Bandwidth borrowed for loading is accounted for", "statement": "The instantaneous bandwidth reported for a memory level is the sum over its operands; in every direction it covers what the computation needs, and in addition the bandwidth that one-time transfers borrow during the computation, in the direction of these transfers. What a port lends in total is what the loading table saves, at most its idle cycles.", "quantifier": "all memory levels, ports, transfer patterns and scaling factors", "why_tests_cant": "Ranges over all port assignments. False for ports with two one-time transfers of one operand, and by direction.", "anchors": ["zigzag/cost_model/cost_model.py: CostModelEvaluation.get_inst_bandwidth, get_total_inst_bandwidth, calc_loading_single_port_period_count_1"]}
{"id": "C94", "title": "The time allowed for a transfer is the time in which the data are not needed again", "statement": "With double buffering a transfer may take a whole period, which is the number of iterations of all loops below the level. Without it, the transfer may take the iterations of those loops up to the outermost loop that changes the data. Both memories at the ends of a link report the same period, number of periods, precision and allowed time. The real time is the least number of cycles in which the port can move the bits of one period.", "quantifier": "all layers, mappings, memory levels, operands, directions, bandwidths and buffering flags", "why_tests_cant": "The agreement of the two ends of a link must hold for every loop nest and every number of levels; the two ends are computed from different table entries.", "anchors": ["zigzag/cost_model/cost_model.py: CostModelEvaluation.calculate_real_data_transfer_cycles, calculate_allowed_transfer_cycles", "zigzag/mapping/mapping.py: Mapping.calc_req_mem_bw_and_data_transfer_rate"]}
{"id": "C95", "title": "Sharing of ports between the operands of one mapping never fails", "statement": "Whatever movements of whatever operands of one mapping share a memory port, and whatever bandwidths and buffering, the union of their updating windows is computed without exception and counts the cycles of the computation in which at least one of them may use the port.", "quantifier": "all layers, mappings, assignments of ports, bandwidths and buffering flags", "why_tests_cant": "The computation raises when a period does not divide the largest one; that no mapping leads there is a statement about all loop nests.", "anchors": ["zigzag/cost_model/cost_model.py: CostModelEvaluation.combine_data_transfer_rate_per_physical_port, __calc_mem_updating_window_union", "zigzag/mapping/temporal_mapping.py: TemporalMapping.innermost_stationary_loop_merge_down"]}
{"id": "C96", "title": "The printed loop nest is the mapping that was evaluated", "statement": "For a mapping in which all operands have the same loop nest, the loop listing used for printing and saving has one entry per temporal loop, innermost first, with its dimension and size, and names for every operand the memory level at which the mapping stores that loop. The printed table has one row per listed loop, outermost first, followed by the spatial loops. This holds in particular for every mapping the loop allocator returns. A mapping without temporal loops raises instead of being printed.", "quantifier": "all loop nests, numbers of operands and levels, all names", "why_tests_cant": "The listing removes loops from the levels of a copy while scanning; that it never picks a wrong level when loops repeat is a statement about all nests.", "anchors": ["zigzag/mapping/utils.py: get_temporal_loops, get_spatial_loops", "zigzag/visualization/results/print_mapping.py: print_mapping"]}
{"id": "C97", "title": "Every result that is passed on is saved", "statement": "Save stages pass on every result in order and unchanged. After a complete run, every layer result and the total can be read back from its file with exactly the text of that result; the pickle file holds all results of the run.", "quantifier": "all sequences of results, layer names, folders, earlier contents of the folder", "why_tests_cant": "Depends on collisions between arbitrary layer names and on how often the inner stage yields. False when two names differ by a slash and an underscore, when a stage yields several lists, and for a pickle name without directory.", "anchors": ["zigzag/stages/results/save.py: CompleteSaveStage, SimpleSaveStage, PickleSaveStage"]}
{"id": "C98", "title": "A stopped run leaves the results it has passed on", "statement": "Wherever a run is interrupted, the files of all results passed on so far are complete, at most the file of the next result is incomplete, and all other files are untouched; the file with loop orders only grows. A rerun of a finished run is skipped.", "quantifier": "all crash points, all sequences of results, all histories of complete and interrupted runs", "why_tests_cant": "Ranges over every crash point and every history of runs. Results of earlier runs can be lost, and reruns are never skipped, because the check looks for a file with the name of the folder.", "anchors": ["zigzag/stages/results/save.py: CompleteSaveStage.run, save_to_json", "zigzag/stages/results/visualization.py: VisualizationStage.run", "zigzag/stages/run_opt_stages.py: SkipIfDumpExistsStage.run"]}
{"id": "C99", "title": "A run returns the best mappings found, summed over the layers", "statement": "A call of get_hardware_performance_zigzag that returns reports one result per layer that is not skipped, in order. Each is the first best, for the chosen criterion, of all mappings evaluated for that layer over all generated spatial mappings. Energy and latency are the sums of these results. With the criterion energy (latency) the returned total is the least over all choices of one evaluated mapping per layer; with EDP the product of the totals is the least.", "quantifier": "all workloads, generated spatial and temporal mappings, costs, criteria", "why_tests_cant": "Nested minimisation with ties over arbitrary result streams; a test sees single streams. False for EDP: the product is minimised per layer.", "anchors": ["zigzag/api.py: get_hardware_performance_zigzag", "zigzag/stages/results/reduce_stages.py: MinimalEnergyStage, MinimalLatencyStage, MinimalEDPStage, SumStage", "zigzag/stages/workload_iterator.py: WorkloadStage", "zigzag/stages/main.py: MainStage"]}
{"id": "C100", "title": "A run returns whenever every layer has a mapping", "statement": "A call of get_hardware_performance_zigzag returns if the criterion is known and every layer that is not skipped has a mapping that can be evaluated.", "quantifier": "all workloads, all outcomes (including exceptions) of mapping search and evaluation", "why_tests_cant": "Ranges over every place in the nested search where an exception may come up. False: one spatial mapping without a temporal mapping ends the whole run, and the in-memory-compute variant raises for a workload of skipped nodes.", "anchors": ["zigzag/api.py: get_hardware_performance_zigzag", "zigzag/stages/mapping/spatial_mapping_generation.py: SpatialMappingGeneratorStage.run", "zigzag/stages/mapping/temporal_mapping_generator_stage.py: TemporalMappingGeneratorStage.run"]}
{"id": "C101", "title": "Options of a run reach every stage that uses them", "statement": "A call of get_hardware_performance_zigzag constructs all its stages whatever the options are, and every stage that has a parameter for the output folder, the pickle file, the mapping, the number of spatial mappings, mixing, the access model or the kind of temporal mapping gets the value given by the user. In every pipeline: keywords nobody needs change nothing; saving, skipping, summing, reducing and caching stages can be inserted at any place without changing what the others get; the cost model evaluates the accelerator, layer and spatial mapping for which the engine made the temporal mapping.", "quantifier": "all options, all values, all lists of stages, all additional keywords, all places of insertion", "why_tests_cant": "Keywords travel through a chain of constructors chosen by the user; a test fixes one chain. Adding, dropping or renaming one keyword in one stage only shows in stages far below.", "anchors": ["zigzag/api.py: get_hardware_performance_zigzag", "zigzag/stages/stage.py: Stage", "zigzag/stages/main.py: MainStage", "zigzag/stages/results/save.py", "zigzag/stages/mapping/temporal_mapping_generator_stage.py: TemporalMappingGeneratorStage", "zigzag/stages/evaluation/cost_model_evaluation.py: CostModelStage"]}
{"id": "C102", "title": "Options do not get lost or collide", "statement": "Any option that some stage understands can be given to a pipeline and reaches all stages that understand it, also twice; the command line of the package passes what its stages require; the search engine uses the chosen criterion; calls without an output folder write to separate folders.", "quantifier": "all pipelines, options, values and times of calls", "why_tests_cant": "Ranges over chains of stages and over histories of calls. False: reduce_minimal_keep_others, pickle_filename and others are swallowed by the first stage that takes them, mapping_type collides, the command line always raises, salsa ignores opt, the default folder is shared.", "anchors": ["zigzag/__main__.py", "zigzag/api.py: get_hardware_performance_zigzag", "zigzag/stages/results/reduce_stages.py", "zigzag/stages/results/save.py: PickleSaveStage", "zigzag/stages/mapping/salsa.py: SalsaStage"]}
{"id": "C103", "title": "Hardware search evaluates every configuration with its own hardware and mapping", "statement": "When HardwareOptimizerStage yields, all 40 combinations of memory and array sizes have been evaluated by the remaining stages, each with a hardware description in which exactly the size and cost of l1, the bandwidths of its first three ports and the array sizes are those of the combination (nothing is left of the combination tried before), and with the layer unrolled to these array sizes; the result is the first one of smallest latency, then smallest energy, among all results; the description of combination i is in file number i. It yields exactly when the ports are named as expected, the mapped layer dimensions are divisible by 16, and the remaining stages succeed with at least one result.", "quantifier": "all accelerator descriptions, layers, mappings, and behaviours of the remaining stages", "why_tests_cant": "The description is one object shared and changed by all 40 steps of a generator that is interleaved with arbitrary other stages; that nothing leaks from one step to the next is a statement about all histories.", "anchors": ["zigzag/stages/hardware_opt_stages.py: HardwareOptimizerStage"]}
{"id": "C104", "title": "Hardware search leaves the workload alone and accepts every layer that suits one of its arrays", "statement": "After a search the layers of the workload are mapped as before; a layer that can be mapped to some of the arrays is searched on those; mappings with several layer dimensions per array dimension keep them.", "quantifier": "all layers, mappings and behaviours of the remaining stages", "why_tests_cant": "A statement about the state after any run. False: the layer keeps the mapping of the last combination, sizes divisible by 8 but not 16 raise ValueError and lose all results, further layer dimensions are dropped, only the first digit of an array dimension counts.", "anchors": ["zigzag/stages/hardware_opt_stages.py: HardwareOptimizerStage"]}
{"id": "C105", "title": "Equality of hardware and of mappings means equal data", "statement": "Two accelerators whose memories each store at least one operand compare equal exactly when they have the same id, equal arrays and the same number of memories, and the memories, in the order in which they were added, agree in name, size, costs, latency, ports (width and kind), operands, levels and served dimensions; equality is reflexive, symmetric and transitive. Equal accelerators have the same performance in the sense of has_same_performance. Two spatial mappings compare equal exactly when they give every layer dimension the same unrolling on each array dimension, regardless of the order they were written in.", "quantifier": "all accelerators that can be built, all spatial mappings", "why_tests_cant": "The comparison stops at the shorter of two lists of memories; that this never hides a memory needs an argument about how levels are counted. Equivalence laws range over triples of accelerators.", "anchors": ["zigzag/hardware/architecture/memory_hierarchy.py: MemoryHierarchy.__eq__, has_same_performance", "zigzag/hardware/architecture/memory_level.py: MemoryLevel.__eq__", "zigzag/hardware/architecture/memory_instance.py: MemoryInstance.__eq__", "zigzag/hardware/architecture/accelerator.py: Accelerator.__eq__", "zigzag/mapping/spatial_mapping.py: SpatialMapping.__eq__"]}
{"id": "C106", "title": "Accelerators with the same performance give the same estimates", "statement": "If has_same_performance (or ==) says two accelerators are the same, every memory offers every operand the same bandwidth in every direction, so that estimates agree.", "quantifier": "all pairs of accelerators", "why_tests_cant": "Ranges over pairs of accelerators. False: which operand uses which port is not compared, so accelerators with 64 and 512 bits per cycle for the same operand count as equal; memories without operands are not compared at all. True if port names and allocations agree as well.", "anchors": ["zigzag/hardware/architecture/accelerator.py: Accelerator.has_same_performance", "zigzag/hardware/architecture/memory_level.py: MemoryLevel.has_same_performance, __allocate_ports", "zigzag/hardware/architecture/memory_port.py: MemoryPort.__eq__"]}
{"id": "C107", "title": "Objects used as keys are found again", "statement": "Equal objects have equal hashes, and tables with memory ports as keys keep different ports apart, in whatever order and number ports were created.", "quantifier": "all histories of port creation, all pairs of equal objects", "why_tests_cant": "A statement about all pairs and all creation histories (the identifier counter is global). False: equal ports, memories and spatial mappings can have different hashes; asking for a port identifier sets the counter back so that identifiers repeat. True: accelerators, and tables of ports created without asking for identifiers.", "anchors": ["zigzag/hardware/architecture/memory_port.py: MemoryPort", "zigzag/hardware/architecture/memory_level.py: MemoryLevel.__hash__", "zigzag/mapping/spatial_mapping.py: SpatialMapping.__hash__", "zigzag/hardware/architecture/accelerator.py: Accelerator.__hash__", "zigzag/cost_model/cost_model.py: loading_cycles_during_computation"]}
{"id": "C108", "title": "Extracted memory costs are those of the requested memory", "statement": "When costs are extracted automatically, every answer (read energy, write energy, area) is what CACTI reports for exactly the memory type, size, width, ports, banks and technology that were asked for, whatever sequence of requests came before and whether or not the answer comes from the pool of earlier results; a register file counts as an SRAM with 128 times as many bits; records without a technology are never used.", "quantifier": "all histories of requests, all right initial pools, all behaviours of CACTI that report the requested size and width", "why_tests_cant": "The pool file lives across runs, so that the claim is about all histories of requests.", "anchors": ["zigzag/cacti/cacti_parser.py: CactiParser.get_item, item_exists, create_item", "zigzag/cacti/cacti_master/cacti_top.py: run_cacti"]}
{"id": "C109", "title": "Whether costs can be extracted does not depend on history", "statement": "A request for a whole number of bytes of SRAM, DRAM or register file that CACTI accepts is answered, and an answered request gets the same answer for ever without simulating again.", "quantifier": "all histories of requests", "why_tests_cant": "Ranges over all earlier requests, also of earlier runs. False: the check for a cached record ignores the memory type, so that after a DRAM the SRAM of the same shape is refused for ever. True: the exact condition for success, and permanence of answers.", "anchors": ["zigzag/cacti/cacti_parser.py: CactiParser.item_exists, get_item", "zigzag/cacti/cacti_master/cacti_top.py: run_cacti"]}
{"id": "C110", "title": "Runs at the same time do not disturb extracted costs", "statement": "When several processes extract costs at the same time, every answer is what CACTI reports for the memory of that process.", "quantifier": "all numbers of processes, all schedules, all crashes, all initial contents of the shared directory", "why_tests_cant": "All interleavings of all processes. False: the processes share one directory, a process can simulate the configuration of another one and record the wrong costs for ever. True if no two requests agree in bytes and width without being the same, in particular for descriptions whose memories are all of one type.", "anchors": ["zigzag/cacti/cacti_parser.py: CactiParser", "zigzag/cacti/cacti_master/cacti_top.py: run_cacti", "zigzag/cacti/cacti_master/cacti_config_creator.py: CactiConfig.cacti_auto, call_cacti"]}
{"id": "C111", "title": "Interrupted extractions do no harm", "statement": "If a run is interrupted while it extracts costs, after any number of lines of the new record, later answers are right, memories that were in the pool are answered as before, and the interrupted request can simply be repeated.", "quantifier": "all histories with any number of interruptions at any line", "why_tests_cant": "Ranges over all crash points. Answers are never wrong and cached memories stay available; repeating is only possible if nothing or at least the size has been written, otherwise every memory that is not yet in the pool is refused for ever.", "anchors": ["zigzag/cacti/cacti_master/cacti_top.py: run_cacti", "zigzag/cacti/cacti_parser.py: CactiParser.item_exists"]}
{"id": "C112", "title": "Extracted costs follow the memory description", "statement": "Costs are extracted for exactly the memories that have a read or read-write port, with the largest bandwidth of the first read port (or first read-write port) as width, and with the number and kind of ports of the description.", "quantifier": "all memory descriptions", "why_tests_cant": "Ranges over all lists of ports. The part about the number and kind of ports is false: one read and one write port are always assumed.", "anchors": ["zigzag/hardware/architecture/memory_instance.py: MemoryInstance.__init__", "zigzag/parser/accelerator_factory.py: MemoryFactory.create_memory_instance"]}
{"id": "C113", "title": "Costs of in-memory-computing cell arrays extracted with CACTI", "statement": "With automatic cost extraction, the cost of a cell array is what CACTI reports for an array with the same number of rows (simulated with at most 32 bits per row and multiplied by the number of 32 bit arrays side by side, scaled for 28 nm), an array that CACTI refuses is an error, and a failed extraction does not disturb later ones.", "quantifier": "all technologies, memory types, sizes and widths, all files that CACTI writes, all histories of calls", "why_tests_cant": "Ranges over everything CACTI can write and all earlier calls. True: the exact condition under which a call answers, and the answer; the number of rows is kept. False: no file that CACTI writes can be read (each line ends in a comma and has N/A cells), so every call crashes; a refused array gets the numbers of an old one; after a failure the working directory is wrong and every later call fails.", "anchors": ["zigzag/hardware/architecture/get_cacti_cost.py: get_cacti_cost", "zigzag/hardware/architecture/imc_unit.py: get_single_cell_array_cost_from_cacti", "zigzag/cacti/cacti_master/io.cc: output_data_csv"]}
{"id": "C114", "title": "Rounded divisions do not change cycle counts and sizes", "statement": "Where a number of cycles, iterations or channels is computed as the ceiling (or floor) of a quotient of two integers, the result is exact although the quotient is a floating point number.", "quantifier": "all integers below 2^53 and all positive divisors", "why_tests_cant": "Ranges over about 2^53 numerators and all divisors; a rounded quotient next to an integer would be off by one. True below 2^53, false from 2^53 + 1 on.", "anchors": ["zigzag/cost_model/cost_model.py: CostModelEvaluation", "zigzag/opt/loma/engine.py: LomaEngine.get_temporal_loops", "zigzag/stages/mapping/spatial_mapping_conversion.py: SpatialMappingConversionStage", "zigzag/parser/onnx/conv_parser.py: ConvParser"]}
{"id": "C115", "title": "Rounding does not change the number of memory accesses", "statement": "The number of accesses of a memory port is the exact number of words, rounded down once.", "quantifier": "all amounts, precisions, word widths, port widths, periods and numbers of memories", "why_tests_cant": "Ranges over six unbounded integers. False: with 8 bit words on a 24 bit port, 7 transfers in each of 3 memories are counted as 6 accesses. True if the port is a power of two times as wide as its smallest word; in general the number is off by at most one.", "anchors": ["zigzag/cost_model/cost_model.py: CostModelEvaluation._calc_memory_access"]}
{"id": "C116", "title": "Hints select the dimensions that are tried along each array dimension", "statement": "The spatial mapping generator tries along every array dimension of the accelerator exactly the hinted layer dimensions if at least one of them is a dimension of the layer, and all dimensions of the layer otherwise (also if no hints are given); dimensions the layer does not have are never unrolled; none of this depends on the accelerators the layer was mapped to before.", "quantifier": "all layers, mapping files, accelerators, traversal orders of sets and histories of earlier uses of the layer", "why_tests_cant": "The hint object in the layer is changed by every stage that is constructed for it; the claim is about every sequence of accelerators.", "anchors": ["zigzag/mapping/spatial_mapping.py: SpatialMappingHint", "zigzag/parser/mapping_factory.py: create_spatial_mapping_hint", "zigzag/stages/mapping/spatial_mapping_generation.py: SpatialMappingGeneratorStage.__init__"]}
{"id": "C117", "title": "A parsed workload can be evaluated more than once", "statement": "Running the spatial mapping generator on a layer gives the same mappings no matter whether and on which accelerators the layer was evaluated before, and where the earlier runs stopped.", "quantifier": "all layers, accelerators, options, histories of evaluations and points at which they stop", "why_tests_cant": "The result depends on what earlier runs left behind in the layer object; tests evaluate newly parsed workloads.", "anchors": ["zigzag/stages/mapping/spatial_mapping_generation.py: run, generate_spatial_mappings", "zigzag/mapping/spatial_mapping.py: initialize_oa_dims"]}
{"id": "C118", "title": "Saved files say what the result says", "statement": "Every evaluated layer and every total of at least one layer can be saved, with its layer, accelerator and mappings; the JSON file has at every place what the result has there and nothing else; the simple and the complete file agree on energy and latency; the loops of a saved mapping can be recovered.", "quantifier": "all results of the cost model (also for in-memory computing), layers, accelerators, mappings, places in the file", "why_tests_cant": "The conversion is recursive over arbitrary nested objects and merges keys with equal names; a test only looks at the files of some results.", "anchors": ["zigzag/utils.py: json_repr_handler", "zigzag/cost_model/cost_model.py: __jsonrepr__, __simplejsonrepr__", "zigzag/cost_model/cost_model_imc.py: __jsonrepr__, __simplejsonrepr__", "zigzag/stages/results/save.py: save_to_json", "zigzag/mapping/temporal_mapping.py: __jsonrepr__", "zigzag/hardware/architecture/accelerator.py: __jsonrepr__"]}
{"id": "C119", "title": "The figures in the saved files of a run add up", "statement": "In every saved file the parts of latency and energy add up to the totals, and the overall files of a run are the sums of the files of its layers: each energy, each latency part, each entry of the energy breakdowns and of the access counts.", "quantifier": "all runs over any number of layers, operands, levels and directions", "why_tests_cant": "It relates the contents of many files for every workload; a missing operand or level in one layer shows only in particular networks.", "anchors": ["zigzag/cost_model/cost_model.py: __jsonrepr__, __add__, __mul__", "zigzag/stages/results/reduce_stages.py: SumStage", "zigzag/stages/results/save.py: CompleteSaveStage, SimpleSaveStage"]}
{"id": "C120", "title": "Missing entries of input files are reported", "statement": "A file in which an entry marked as required is missing (in an accelerator, one of its memories or ports, a layer of a workload, an entry of a mapping) is refused.", "quantifier": "all accelerator, workload and mapping files", "why_tests_cant": "The entries can be missing at any place of a nested file with any number of memories, ports and layers, and completion with defaults happens before the check.", "anchors": ["zigzag/parser/accelerator_validator.py: AcceleratorValidator", "zigzag/parser/upgraded_validator.py: UpgradedValidator", "zigzag/parser/workload_validator.py: WorkloadValidator", "zigzag/parser/mapping_validator.py: MappingValidator"]}
{"id": "C121", "title": "Accepted accelerator files can be built", "statement": "An accelerator file that passes validation leads to an accelerator, without an exception while it is built.", "quantifier": "all accelerator files with any number of memories, ports and allocations; all outcomes of cost extraction", "why_tests_cant": "Validation and construction are separate pieces of code that must agree on every text and every combination of entries.", "anchors": ["zigzag/parser/accelerator_validator.py: AcceleratorValidator", "zigzag/parser/accelerator_factory.py: AcceleratorFactory, MemoryFactory"]}
{"id": "C122", "title": "Completing a file keeps what is written", "statement": "Defaults are added only where nothing is written: every written value and the length of every list stays, missing entries get their documented default, and completing a completed file changes nothing.", "quantifier": "all accelerator, workload and mapping files, all places in them", "why_tests_cant": "Files are nested arbitrarily deep; a test looks at a few entries.", "anchors": ["zigzag/parser/accelerator_validator.py: AcceleratorValidator.SCHEMA", "zigzag/parser/upgraded_validator.py: UpgradedValidator"]}
{"id": "C123", "title": "Accelerators are built as written", "statement": "The accelerator built from a file has the name, array sizes, multiplier costs, preferred unrollings and, in the order of the file, one memory level per memory with the written size, latency, costs, buffering, operands, ports and served dimensions; extracted costs are those for its own name, type, size and read port.", "quantifier": "all accelerator files that lead to an accelerator", "why_tests_cant": "A mix-up of two fields or two memories shows only when their values differ; it must hold for every file.", "anchors": ["zigzag/parser/accelerator_factory.py: AcceleratorFactory, MemoryFactory", "zigzag/hardware/architecture/memory_instance.py: MemoryInstance"]}
{"id": "C124", "title": "Mapping files mean what is written", "statement": "A mapping file that passes validation is used as written: unrollings, hints, links and orderings of every entry are those of the file, and entries without them get none (links: the standard ones).", "quantifier": "all mapping files with any number of entries and unrollings", "why_tests_cant": "Texts such as `K, 4` are taken apart at runtime; it must hold for every dimension name and number and for repeated names.", "anchors": ["zigzag/parser/mapping_validator.py: MappingValidator", "zigzag/parser/mapping_factory.py: MappingFactory", "zigzag/stages/parser/workload_parser.py: parse_mapping_data"]}
{"id": "C125", "title": "Layers are read as written", "statement": "Every workload file whose completed entries follow the schema and whose padding fits is handed on with, in the order of the file, exactly the written numbers, names, operators, equations, relations, sizes, precisions, sources and paddings.", "quantifier": "all workload files with any number of layers", "why_tests_cant": "A field that is confused with another or dropped for some forms of entries shows only in particular files.", "anchors": ["zigzag/parser/workload_validator.py: WorkloadValidator", "zigzag/parser/workload_factory.py: LayerNodeFactory", "zigzag/stages/parser/workload_parser.py: WorkloadParserStage"]}
{"id": "C126", "title": "Plotted energies and latencies add up", "statement": "The plot of a list of results shows one group of bars per result (sums over layers are left out): the bar of a memory consists of the energies of every operand and direction in that memory, stacked without gaps; the bars and the written total of a result add up to its energy, the latency bar ends at its total latency, bars do not overlap and labels name the layer.", "quantifier": "all lists of results, all accelerators, operands and memory levels, all orders in which the set of operands is listed", "why_tests_cant": "Energies are moved through nested default dictionaries and a four-dimensional array whose order depends on a set; a test compares pictures or nothing.", "anchors": ["zigzag/visualization/results/plot_cme.py: get_energy_array, get_latency_array, bar_plot_cost_model_evaluations_breakdown, shorten_onnx_layer_name"]}
{"id": "C127", "title": "Drawn memory levels do not hide each other", "statement": "The drawing of a memory hierarchy shows every memory level once, at pairwise different places, with the levels of one generation in one row between the first and last column.", "quantifier": "all hierarchies with any number of generations and levels per generation", "why_tests_cant": "Positions come from a division whose result must differ for all widths of rows.", "anchors": ["zigzag/visualization/graph/memory_hierarchy.py: visualize_memory_hierarchy_graph"]}
{"id": "C128", "title": "CACTI is asked for the requested memory", "statement": "The configuration written for CACTI contains for every option exactly one line that CACTI reads for it: the requested value if the option is named, its default otherwise; so CACTI is told the size, bus width, ports, banks, technology and type of the request whatever these texts are, and the rest of the file never depends on the request. Sweeping an option writes one configuration per listed value with defaults elsewhere; changing a default changes that default only.", "quantifier": "all lists of option names and values, all requests with any texts as values, all lists of changed defaults", "why_tests_cant": "CACTI chooses the reader of a line by its beginning, among 91 beginnings and 258 constant lines; a wrong choice for some value is invisible unless that value is run through the binary.", "anchors": ["zigzag/cacti/cacti_master/cacti_config_creator.py: CactiConfig.cacti_auto, change_default_value, write_config, call_cacti", "zigzag/cacti/cacti_master/cacti_top.py: run_cacti", "zigzag/cacti/cacti_master/io.cc: InputParameter::parse_cfg"]}
{"id": "C129", "title": "Memory records come from CACTI's lines", "statement": "For an output file with different column names and no short line, reading succeeds exactly when the needed columns are there and every capacity and width is a number; there is then one record per line, in order, made of the fields of that line only: size, bits, area, read and write energy, width. A line for an SRAM is recorded as an SRAM.", "quantifier": "all output files with any columns, any number of lines and extra fields, and all ways of reading numbers", "why_tests_cant": "Columns are collected over all lines and cut into records afterwards; tests have files of one line only.", "anchors": ["zigzag/cacti/cacti_master/cacti_top.py: run_cacti"]}
{"id": "C130", "title": "An ONNX model and its workload compute the same", "statement": "A model of any number of convolutions, matrix products and other operators is parsed exactly when each of its nodes is; if every node describes a valid operator with at most two computed inputs and has a mapping, it is. The workload then has one node per node of the model, with its number, its name (Op and the number if it has none) and its operator; every convolution and product becomes a layer with the operations and the output size of that operator (for convolutions also the weight size, for products the input size), everything else a placeholder with computed inputs as sources. The multiplications of the workload are those of the model.", "quantifier": "all models with any number of nodes, any shapes, attributes and connections", "why_tests_cant": "Tests parse a few network files; attributes left at their defaults, unnamed nodes and numbers of inputs are mixed arbitrarily in real models.", "anchors": ["zigzag/parser/onnx/onnx_model_parser.py: ONNXModelParser.parse_workload_from_onnx_model_and_mapping, get_parser_class", "zigzag/parser/onnx/default_node_parser.py: DefaultNodeParser.run", "zigzag/parser/onnx/conv_parser.py: ConvParser", "zigzag/parser/onnx/gemm_parser.py: GemmParser", "zigzag/workload/dummy_node.py: DummyNode"]}
{"id": "C131", "title": "Conditional branches become part of the model", "statement": "A model without If is left as it is. A model with If is flattened: its nodes are followed by the nodes of the larger branch of every If, recursively.", "quantifier": "all models with branches nested to any depth, and all ways of merging graphs", "why_tests_cant": "The test models have no If; whether flattening succeeds depends on which tensors the branch reads.", "anchors": ["zigzag/parser/onnx/utils.py: parse_dynamic_onnx_model, unroll_branches, is_dynamic"]}
{"id": "C132", "title": "Activations and weights are told apart", "statement": "In every layer with two inputs the activation and the weights asked for by the energy models, the locality stages and the search for diagonal mappings are its two inputs, never the same one; a single constant input is the weights, and among constants the input with shared dimensions is the activation. For every convolution and every matrix product read from an ONNX model, these are the operands I and W.", "quantifier": "all layers with two inputs, any constants and dimensions; all convolutions and products with any sizes and any producers of their inputs", "why_tests_cant": "The answer depends on the order of the operands in the equation, on which inputs are computed and on which sizes are one.", "anchors": ["zigzag/workload/layer_node.py: LayerNode.get_act_layer_op, get_weight_layer_op", "zigzag/stages/mapping/spatial_mapping_generation.py: SpatialMappingGeneratorStage.identify_layer_operand_representation", "zigzag/parser/onnx/onnx_operator_parser.py: get_operand_source_user_format"]}
{"id": "C133", "title": "Mappings are evaluated on suitable hardware", "statement": "Every generated mapping is evaluated on the given accelerator, except that with diagonal mappings enabled the innermost input memory is enlarged by the output unrollings along the dimension it serves.", "quantifier": "all layers, memories, links, mappings and both settings of the option", "why_tests_cant": "The branch depends on which local variables are bound when it is reached; results without the option never reach it.", "anchors": ["zigzag/stages/mapping/spatial_mapping_generation.py: SpatialMappingGeneratorStage.run, modify_innermost_input_mem_size"]}
{"id": "C134", "title": "A layer built again from its attributes is the same layer", "statement": "The attributes taken out of any layer (extract_node_attr) can be used to build a layer, and that layer has the same attributes, sizes, relevant dimensions, operand sizes and operation count, whether or not the sizes of its shared dimensions were given by the user.", "quantifier": "all layers that can be built", "why_tests_cant": "Sizes of shared dimensions are computed in one case and given in the other; the two ways are different code.", "anchors": ["zigzag/workload/layer_node.py: LayerNode.extract_node_attr, LayerNode.__init__"]}
{"id": "C135", "title": "Every mapped layer is evaluated", "statement": "A cost model evaluation of a layer whose mapping fits the memory levels of the accelerator, and whose data movements are all served by ports, ends without exception, whatever operands the layer has.", "quantifier": "all accelerators, layers, spatial and temporal mappings of any sizes and depths", "why_tests_cant": "An evaluation is a chain of table look-ups, divisions and case distinctions over all levels, ports and operands; one missing entry for one combination raises.", "anchors": ["zigzag/cost_model/cost_model.py: CostModelEvaluation.__init__, run, calc_loading_single_port, calc_overall_latency", "zigzag/mapping/mapping.py: Mapping"]}
{"id": "C136", "title": "More bandwidth is never slower", "statement": "If some ports of an accelerator get more bandwidth and nothing else changes, the evaluation of the same mapping reports no higher latency, the same memory utilization and the same double buffering.", "quantifier": "all accelerators, all new bandwidths of all ports, all layers and mappings", "why_tests_cant": "It compares two runs; the latency is a maximum over ports of combinations of periodic windows, of which tests can sample only few.", "anchors": ["zigzag/cost_model/cost_model.py: CostModelEvaluation.calc_overall_latency, combine_data_transfer_rate_per_physical_port, calc_data_loading_latency"]}
{"id": "C137", "title": "A larger memory is never slower", "statement": "If some memories of an accelerator get larger and nothing else changes, the evaluation of the same mapping reports no higher latency and the same energy, and what was double buffered stays so.", "quantifier": "all accelerators, all new sizes, all layers and mappings", "why_tests_cant": "It compares two runs; sharing of the free room between operands depends on the order of operands and on all sizes.", "anchors": ["zigzag/cost_model/cost_model.py: CostModelEvaluation.calc_double_buffer_flag, calc_overall_latency"]}
{"id": "C138", "title": "Reported latencies are ordered and positive", "statement": "In every evaluation the ideal number of cycles of the temporal loops is at most the latency without loading, which is at most the latency with loading, which is at most the latency with loading and off-loading.", "quantifier": "all accelerators, layers and mappings", "why_tests_cant": "Loading is reduced by cycles borrowed from the computation, distributed by an iterative procedure over the movements of each port.", "anchors": ["zigzag/cost_model/cost_model.py: CostModelEvaluation.calc_overall_latency, reduce_balanced, calc_loading_single_port_period_count_1"]}
{"id": "C139", "title": "The energy of an evaluation is bounded by its multiplications and does not grow with bandwidth", "statement": "If no access has a negative price, every evaluation reports a total energy that is the energy of all multiplications of the layer plus a memory energy that is not negative; with more bandwidth of some ports and otherwise the same accelerator the same mapping never takes more energy.", "quantifier": "all accelerators, all new bandwidths of all ports, all layers and mappings", "why_tests_cant": "Amounts, numbers of periods and units come from rounded products over all levels; that none of them is negative and that rounding does not reverse the order is a statement about all mappings.", "anchors": ["zigzag/cost_model/cost_model.py: CostModelEvaluation.calc_memory_word_access, calc_energy", "zigzag/mapping/mapping.py: Mapping.calc_data_access"]}
{"id": "C140", "title": "Prices of accesses influence nothing but the energy", "statement": "Two evaluations of the same mapping on accelerators that differ only in the energies of accesses and multiplications both fail with the same exception or report the same accesses, utilization, double buffering, stall and latency; if all prices are multiplied by a factor, so are the reported energies.", "quantifier": "all accelerators, layers, mappings, prices and factors", "why_tests_cant": "It compares runs for all prices; a threshold or rounding on energies anywhere would go unnoticed in samples.", "anchors": ["zigzag/cost_model/cost_model.py: CostModelEvaluation.run, calc_energy, calc_memory_energy_cost"]}
{"id": "C141", "title": "The latency of an evaluation lies between its busiest port and the sum of computation and busiest port", "statement": "The latency reported without loading and unloading is at least the number of cycles that any port of any memory needs for all its transfers after the first of each kind (so the bits moved through a port never exceed its bandwidth times the latency), and at most the cycles of the computation plus those of one port.", "quantifier": "all accelerators with whole port widths, all layers and mappings with whole temporal loop sizes, all numbers of memories, ports and levels", "why_tests_cant": "The stall is found from unions of periodic windows of all transfers that share a port; a bound on it for every combination of periods and amounts cannot be sampled.", "anchors": ["zigzag/cost_model/cost_model.py: CostModelEvaluation.calc_overall_latency, combine_data_transfer_rate_per_physical_port", "zigzag/cost_model/port_activity.py: PortActivity"]}
{"id": "C142", "title": "The accesses and energies of an evaluation are those of its loops", "statement": "For every operand and memory level, the reported number of accesses in each direction is the number of elements that the loops move in that direction, in words of the port, times the number of units; the reported energy is the accesses times the price of a read or write.", "quantifier": "all accelerators, layers and mappings, all memory levels and directions", "why_tests_cant": "The counts come from products over levels of loops, precisions, word sizes and unrollings; that they agree with the loops for every mapping cannot be sampled.", "anchors": ["zigzag/cost_model/cost_model.py: CostModelEvaluation.calc_memory_word_access, calc_memory_energy_cost", "zigzag/mapping/mapping.py: Mapping.calc_req_mem_bw_and_data_transfer_amount"]}
{"id": "C143", "title": "The reported utilization of a memory is the part of it that the data of the tiles in it takes", "statement": "For every operand and level, the reported utilization is the number of bits of the elements that the loops inside that level touch (partial sums with their own precision) over the size of the memory; for a memory that several operands share it is the sum over all of them.", "quantifier": "all accelerators, layers and mappings, all memories and ways in which operands share them", "why_tests_cant": "Tiles are products over all inner loops with partially relevant dimensions; every way of sharing memories has to be covered.", "anchors": ["zigzag/cost_model/cost_model.py: CostModelEvaluation.calc_memory_utilization", "zigzag/mapping/mapping.py: Mapping.calc_data_size"]}
{"id": "C144", "title": "Double buffering fits and is used wherever it fits", "statement": "If the data of a mapping fits in every memory, then in every memory it also fits together with a second copy of the data in use of each operand that the evaluation takes to be double buffered there; everything is double buffered in a memory of which at most half is in use, and an operand that is not double buffered has no room for a second copy.", "quantifier": "all accelerators, layers and mappings, all memories and ways in which operands share them", "why_tests_cant": "Flags are decided one after the other, and each changes the room left for later ones; the bound has to hold for all orders and all sharings.", "anchors": ["zigzag/cost_model/cost_model.py: CostModelEvaluation.calc_double_buffer_flag, calc_memory_utilization", "zigzag/mapping/mapping.py: Mapping.calc_effective_data_size"]}
{"id": "C145", "title": "Every mapping that the search finds is evaluated, and every loop order that fits is found", "statement": "For a layer that is mapped to the array, the search for temporal mappings ends; it yields exactly one mapping for every distinct order of the loops with which the data fits in the memories, each of which covers the layer, and ends with an exception if and only if there is none. Every mapping that it yields is evaluated without an exception; all evaluations have the same ideal number of cycles, which is at least the operations of the layer over the units in use, and none is faster.", "quantifier": "all accelerators, layers, spatial mappings, factorizations and limits on the number of loops; all memory hierarchies", "why_tests_cant": "The number of orders is factorial, and allocation, merging of loops and evaluation have to work together for each of them; a test runs a few layers.", "anchors": ["zigzag/stages/mapping/temporal_mapping_generator_stage.py: TemporalMappingGeneratorStage.run, generate_temporal_mappings", "zigzag/opt/loma/engine.py: LomaEngine.run", "zigzag/opt/loma/memory_allocator.py: MemoryAllocator.run", "zigzag/stages/evaluation/cost_model_evaluation.py: CostModelStage.run"]}
{"id": "C146", "title": "No memory is overfull in a mapping that the search finds", "statement": "In the evaluation of every mapping that the search yields, the utilization of every memory, over all operands that share it, is at most one, and together with the second copies of the operands that are double buffered the data still fits.", "quantifier": "all accelerators, layers, spatial mappings and loop orders, all memories and ways in which operands share them", "why_tests_cant": "The allocator and the cost model compute sizes by different code (loop by loop with fractions and one choice of precision, against level by level with rounding and another choice of precision); that they agree for every mapping cannot be sampled.", "anchors": ["zigzag/opt/loma/memory_allocator.py: MemoryAllocator.calc_size_slices, calc_loops_size, get_precision", "zigzag/mapping/mapping.py: Mapping.calc_data_size, gen_data_precision_dict", "zigzag/cost_model/cost_model.py: CostModelEvaluation.calc_memory_utilization"]}
{"id": "C147", "title": "Files that fit together are processed from the accelerator file to the evaluated mappings", "statement": "If an accelerator file declares every movement that its memories need, and the spatial mapping of the user has whole unrollings that fit the array and the layer, then the accelerator is built, the spatial mapping is accepted, and the search yields one evaluation for every distinct order of the temporal loops with which the data fits in the memories; the loops of every order together with the unrollings cover the layer. The run ends with an exception exactly if no order fits, or if an evaluation divides by zero.", "quantifier": "all accelerator files (any number of memories, ports, shared operands and array dimensions), layers, spatial mappings, costs, factorizations and limits", "why_tests_cant": "Five parts of the program have to hand over data in the form that the next one expects; a test covers a handful of files, and every one of the properties of the parts has its own conditions that have to be established by the part before.", "anchors": ["zigzag/parser/accelerator_factory.py: AcceleratorFactory.create, add_memory_to_graph", "zigzag/hardware/architecture/memory_hierarchy.py: MemoryHierarchy.add_memory", "zigzag/stages/mapping/spatial_mapping_conversion.py: SpatialMappingConversionStage.convert_user_spatial_mapping", "zigzag/mapping/spatial_mapping_internal.py: SpatialMappingInternal.__init__", "zigzag/stages/mapping/temporal_mapping_generator_stage.py: TemporalMappingGeneratorStage.run", "zigzag/stages/evaluation/cost_model_evaluation.py: CostModelStage.run"]}
{"id": "C148", "title": "No run reports more work than the array can do", "statement": "In every evaluation that a run yields, the reported cycles times the units of the array are at least the operations of the layer times the cycles per operation, the ideal cycles are at most those of the temporal loops, and the reported utilizations of the array are positive and at most one. Unrollings that divide the dimensions of the layer are used as the user gave them.", "quantifier": "all accelerator files, layers, spatial mappings and loop orders", "why_tests_cant": "The spatial mapping is split over the levels of every operand, adjusted to the layer, and the temporal loops are computed from what remains; that nothing is lost or counted twice on the way for any combination of sizes cannot be sampled.", "anchors": ["zigzag/parser/accelerator_factory.py: AcceleratorFactory.create, add_memory_to_graph", "zigzag/hardware/architecture/memory_hierarchy.py: MemoryHierarchy.add_memory", "zigzag/stages/mapping/spatial_mapping_conversion.py: SpatialMappingConversionStage.convert_user_spatial_mapping", "zigzag/mapping/spatial_mapping_internal.py: SpatialMappingInternal.__init__", "zigzag/stages/mapping/temporal_mapping_generator_stage.py: TemporalMappingGeneratorStage.run", "zigzag/stages/evaluation/cost_model_evaluation.py: CostModelStage.run"]}
{"id": "C149", "title": "No memory is overfull in an evaluation that a run yields", "statement": "If the unrollings of the user divide the dimensions of the layer and final outputs have at most as many bits as partial sums, every memory of the accelerator file is at most full in every evaluation that a run yields, also with the second copies of double buffered operands.", "quantifier": "all accelerator files, layers, spatial mappings and loop orders", "why_tests_cant": "The sizes are computed by different code when the loops are allocated and when the mapping is evaluated, from spatial loops that a third part produced.", "anchors": ["zigzag/parser/accelerator_factory.py: AcceleratorFactory.create, add_memory_to_graph", "zigzag/hardware/architecture/memory_hierarchy.py: MemoryHierarchy.add_memory", "zigzag/stages/mapping/spatial_mapping_conversion.py: SpatialMappingConversionStage.convert_user_spatial_mapping", "zigzag/mapping/spatial_mapping_internal.py: SpatialMappingInternal.__init__", "zigzag/stages/mapping/temporal_mapping_generator_stage.py: TemporalMappingGeneratorStage.run", "zigzag/stages/evaluation/cost_model_evaluation.py: CostModelStage.run"]}
{"id": "C150", "title": "A layer always gets a spatial mapping", "statement": "If the innermost memories deliver and hold one element of each of their operands, the unrollings that the user fixes are at least one, and the layer has a hinted dimension for every array dimension that the user left open, then the generation of spatial mappings succeeds: it yields at least one mapping, every yielded mapping is valid for the array and the layer, and all of its unrollings are whole numbers of at least one, so that it can be converted.", "quantifier": "all arrays, memories, layers, user mappings, hints, orders of sets and numbers of mappings", "why_tests_cant": "Candidates are enumerated, limited to the bandwidth and then to the capacity of memories, and filtered; that no combination of sizes loses all candidates or leaves an unrolling of zero cannot be sampled.", "anchors": ["zigzag/stages/mapping/spatial_mapping_generation.py: SpatialMappingGeneratorStage.generate_spatial_mappings, limit_unrolling_to_mem_capacity, get_max_unrolling", "zigzag/stages/mapping/spatial_mapping_conversion.py: SpatialMappingConversionStage.convert_user_spatial_mapping"]}
{"id": "C151", "title": "A whole call on fitting files ends with the best mapping of every layer", "statement": "If the accelerator file declares what its memories need, its innermost memories deliver and hold one element of each operand, and the mapping file fixes only whole unrollings for dimensions of the array, then a call for any workload ends: for every layer spatial mappings are generated which the conversion and the search accept; the answer has one evaluation per layer that is not skipped, which by the chosen criterion is no worse than any evaluation of any loop order of any generated mapping of that layer, and the reported energy and latency are the sums over these. The only exceptions are that a generated mapping has no loop order that fits, and a division by zero in an evaluation.", "quantifier": "all accelerator files, workloads (any number and kind of layers), mapping files, hints, options, traversal orders of sets and factorizations", "why_tests_cant": "This is the contract of the API as a whole; a test compares a few stored energies and latencies, which says nothing about mappings that were lost on the way between eight stages.", "anchors": ["zigzag/api.py: get_hardware_performance_zigzag", "zigzag/parser/accelerator_factory.py: AcceleratorFactory.create", "zigzag/stages/workload_iterator.py: WorkloadStage.run", "zigzag/stages/mapping/spatial_mapping_generation.py: SpatialMappingGeneratorStage.run", "zigzag/stages/mapping/spatial_mapping_conversion.py: SpatialMappingConversionStage.run", "zigzag/stages/mapping/temporal_mapping_generator_stage.py: TemporalMappingGeneratorStage.run", "zigzag/stages/results/reduce_stages.py: MinimalEnergyStage, MinimalLatencyStage, MinimalEDPStage, SumStage"]}
{"id": "C152", "title": "No answer of a call is better than what the array can do", "statement": "The latency that a call reports, times the units of the array, is at least the number of operations of all layers that are not skipped times their cycles per operation (if no two movements of a port happen exactly once), and the reported energy is at least the energy of all multiplications of these layers if no memory has a negative price.", "quantifier": "all accelerator files, workloads, mapping files, hints and options", "why_tests_cant": "A lost loop, a mapping that is evaluated for the wrong layer or a sum that misses a layer makes the answer better than physically possible, for combinations of files that no test contains.", "anchors": ["zigzag/api.py: get_hardware_performance_zigzag", "zigzag/parser/accelerator_factory.py: AcceleratorFactory.create", "zigzag/stages/workload_iterator.py: WorkloadStage.run", "zigzag/stages/mapping/spatial_mapping_generation.py: SpatialMappingGeneratorStage.run", "zigzag/stages/mapping/spatial_mapping_conversion.py: SpatialMappingConversionStage.run", "zigzag/stages/mapping/temporal_mapping_generator_stage.py: TemporalMappingGeneratorStage.run", "zigzag/stages/results/reduce_stages.py: MinimalEnergyStage, MinimalLatencyStage, MinimalEDPStage, SumStage"]}
{"id": "C153", "title": "A call evaluates exactly what the three files say", "statement": "For an accelerator file, a workload file and a mapping file that are accepted and fit together (every operand linked to a memory operand that the accelerator stores, positive sizes, sources listed before they are used, innermost memories large and wide enough for one element), a call processes every layer of the workload file once, after the layers whose results it uses, with the sizes, indices, precisions, links, fixed unrollings and hints that are written for it, on the array and the memories that are written; it ends with the best evaluation of each layer or with one of the two exceptions of the search. Units times latency is at least the number of operations that the workload file asks for (if no two movements of a port happen exactly once), and the energy at least that of these multiplications. A criterion other than energy, latency and EDP is refused whatever the files are.", "quantifier": "all contents of the three files with any number of layers, memories, ports and dimensions, all options except mixed spatial mappings, all traversal orders of sets", "why_tests_cant": "Tests run stored files and compare stored numbers; a field that is dropped or exchanged between parsing and evaluation changes these numbers only for files in which the field matters.", "anchors": ["zigzag/api.py: get_hardware_performance_zigzag", "zigzag/stages/parser/accelerator_parser.py: AcceleratorParserStage.run", "zigzag/stages/parser/workload_parser.py: WorkloadParserStage.parse_workload", "zigzag/parser/workload_factory.py: WorkloadFactory.create, LayerNodeFactory.create", "zigzag/parser/mapping_factory.py: MappingFactory", "zigzag/parser/accelerator_factory.py: AcceleratorFactory.create", "zigzag/stages/workload_iterator.py: WorkloadStage.run"]}
{"id": "C154", "title": "A call on an ONNX model evaluates exactly the model's layers", "statement": "For an ONNX model whose tensors have known shapes, an accelerator file and a mapping file that fit together, a call evaluates every convolution and every matrix product of the model exactly once and no other node, after the nodes that compute its inputs (up to two), with the loop sizes, operand indices, strides, dilations and precisions that the attributes and shapes of the node give; it ends with the best evaluation of each such layer or with one of the two exceptions of the search. Units times latency is at least the number of multiplications of the model (if no two movements of a port happen exactly once), and the energy at least that of these multiplications. A criterion other than energy, latency and EDP is refused whatever the model is.", "quantifier": "all models with any number of nodes, convolutions with any attributes the standard allows, matrix products with up to two leading dimensions and a transposed first operand, all accelerator and mapping files that fit, all options except mixed spatial mappings, all traversal orders of sets", "why_tests_cant": "Tests run a few stored networks; a node that is dropped, evaluated twice or given the numbers of another node changes their stored results only if it occurs in them.", "anchors": ["zigzag/api.py: get_hardware_performance_zigzag", "zigzag/parser/onnx/onnx_model_parser.py: ONNXModelParser.run, parse_workload_from_onnx_model_and_mapping", "zigzag/parser/onnx/conv_parser.py: ConvParser", "zigzag/parser/onnx/gemm_parser.py: GemmParser", "zigzag/parser/onnx/onnx_operator_parser.py: ONNXOperatorParser", "zigzag/parser/mapping_factory.py: MappingFactory", "zigzag/stages/workload_iterator.py: WorkloadStage.run"]}
{"id": "C155", "title": "Layers do not influence each other", "statement": "A call for a list of layers answers exactly the sum of the energies and the sum of the latencies that calls for each layer alone answer, has an answer as soon as each of these calls has one, and answers the same when the layers are listed in another order.", "quantifier": "all accelerator files, all options, all lists of layers, all orders of them", "why_tests_cant": "Layers share the accelerator object, the list of stages and the argument dictionaries; tests evaluate fixed networks in one order and do not compare with the layers alone.", "anchors": ["zigzag/api.py: get_hardware_performance_zigzag", "zigzag/stages/workload_iterator.py: WorkloadStage.run", "zigzag/stages/results/reduce_stages.py: SumStage, MinimalEnergyStage, MinimalLatencyStage, MinimalEDPStage"]}
{"id": "C156", "title": "The criterion is honoured", "statement": "Whether a call has an answer does not depend on the criterion. The call with criterion energy has the least energy, the call with criterion latency the least latency and the call with criterion EDP the least product of both, of all three calls.", "quantifier": "all accelerator files, all options, all networks, all criteria", "why_tests_cant": "Tests fix the criterion and compare with stored numbers.", "anchors": ["zigzag/api.py: get_hardware_performance_zigzag", "zigzag/stages/workload_iterator.py: WorkloadStage.run", "zigzag/stages/results/reduce_stages.py: SumStage, MinimalEnergyStage, MinimalLatencyStage, MinimalEDPStage"]}
{"id": "C157", "title": "Calls are reproducible", "statement": "The same call on the same files gives the same answer in every run of python: the answer does not depend on the order in which sets are traversed (which depends on the hash seed). In particular, where the mapping file gives complete spatial mappings that fit, the answer depends neither on that order nor on how many spatial mappings are asked for.", "quantifier": "all accelerator files, options, networks and traversal orders of sets", "why_tests_cant": "A test runs with one hash seed, so it sees one order.", "anchors": ["zigzag/api.py: get_hardware_performance_zigzag", "zigzag/stages/mapping/spatial_mapping_generation.py: SpatialMappingGeneratorStage"]}
{"id": "C158", "title": "Asking for more spatial mappings is never worse", "statement": "A call that may generate more spatial mappings never answers with a worse value of its criterion, and a call with an answer also has one when fewer mappings are asked for.", "quantifier": "all accelerator files, networks, criteria and numbers of mappings", "why_tests_cant": "Tests use a fixed number of mappings on fixed networks.", "anchors": ["zigzag/api.py: get_hardware_performance_zigzag", "zigzag/stages/mapping/spatial_mapping_generation.py: SpatialMappingGeneratorStage"]}
{"id": "C159", "title": "A higher limit on the number of loops is never worse", "statement": "A call with a higher lpf_limit never answers with a worse value of its criterion, and a limit that is at least the sum of the binary logarithms of the sizes of the layer has no effect at all: the call answers exactly as without a limit.", "quantifier": "all accelerator files, networks, criteria and limits", "why_tests_cant": "Tests use one limit; that the answer is monotone in it needs all pairs.", "anchors": ["zigzag/api.py: get_hardware_performance_zigzag", "zigzag/opt/loma/engine.py: LomaEngine.get_prime_factors, limit_lpf", "zigzag/stages/mapping/temporal_mapping_generator_stage.py: TemporalMappingGeneratorStage"]}
{"id": "C160", "title": "Better hardware is never worse", "statement": "Lower prices of accesses and multiplications never increase the energy that a call minimises; prices of energy influence neither whether a call has an answer nor the latency that a call minimises; larger memories and wider ports do not make the answer worse.", "quantifier": "all pairs of accelerator files that differ in prices (or sizes, or bandwidths) only, all options, all networks", "why_tests_cant": "Tests compare stored numbers for fixed accelerators; monotonicity is about pairs of accelerators.", "anchors": ["zigzag/api.py: get_hardware_performance_zigzag", "zigzag/cost_model/cost_model.py: CostModelEvaluation.calc_energy", "zigzag/hardware/architecture/memory_instance.py: MemoryInstance", "zigzag/stages/results/reduce_stages.py"]}
{"id": "C161", "title": "The unit of energy does not matter", "statement": "If all prices of an accelerator file are multiplied by the same positive factor, every call answers with the same latency and with the energy multiplied by this factor, whatever criterion it minimises.", "quantifier": "all accelerator files, all positive factors, all options, criteria and networks", "why_tests_cant": "Tests have one unit; that no threshold or tie break depends on it has to hold for all inputs.", "anchors": ["zigzag/api.py: get_hardware_performance_zigzag", "zigzag/cost_model/cost_model.py: CostModelEvaluation.calc_energy", "zigzag/hardware/architecture/memory_instance.py: MemoryInstance", "zigzag/stages/results/reduce_stages.py"]}
{"id": "C162", "title": "The temporal ordering of the mapping file is obeyed", "statement": "Every mapping that is evaluated has the loops that temporal_ordering lists, innermost first, with the listed numbers of iterations; if it lists all loops that the spatial mapping leaves, exactly that order is evaluated; an ordering that can be satisfied with the memories is not refused.", "quantifier": "all accelerator files, layers, spatial mappings, orderings and limits on the number of loops", "why_tests_cant": "A test compares one ordering with a stored number; that every evaluated mapping obeys every ordering ranges over all files and searches.", "anchors": ["zigzag/api.py: get_hardware_performance_zigzag", "zigzag/stages/mapping/temporal_mapping_generator_stage.py: TemporalMappingGeneratorStage", "zigzag/opt/loma/engine.py: LomaEngine.run, get_temporal_loops, og", "zigzag/datatypes.py", "zigzag/mapping/temporal_mapping.py: TemporalMappingDict", "zigzag/workload/layer_attributes.py: LayerTemporalOrdering"]}
{"id": "C163", "title": "An ordering of the user never improves the answer", "statement": "A call without the temporal orderings of the mapping file has an answer whenever the call with them has one, and its value of the criterion is no worse: an ordering only restricts the search.", "quantifier": "all accelerator files, networks, criteria and orderings", "why_tests_cant": "Compares two searches over all inputs; tests look at one of them.", "anchors": ["zigzag/api.py: get_hardware_performance_zigzag", "zigzag/stages/mapping/temporal_mapping_generator_stage.py: TemporalMappingGeneratorStage", "zigzag/opt/loma/engine.py: LomaEngine.run, get_temporal_loops, og", "zigzag/datatypes.py", "zigzag/mapping/temporal_mapping.py: TemporalMappingDict", "zigzag/workload/layer_attributes.py: LayerTemporalOrdering"]}
{"id": "C164", "title": "Calls with the annealing engine answer with real mappings and are never better than an exhaustive search", "statement": "A call that searches loop orders by simulated annealing answers, for each layer, with the evaluation of an order of all loops that a spatial mapping leaves, the same evaluation that the exhaustive engine makes of that order; the bounds on energy and latency hold; and whatever the random numbers the answer is no better than that of an exhaustive search. The criterion, the ordering and the limit of the user are obeyed.", "quantifier": "all accelerator files, networks, numbers of iterations, temperatures and random numbers", "why_tests_cant": "The result depends on random draws; a test sees the draws of one seed.", "anchors": ["zigzag/stages/mapping/salsa.py: SalsaStage.run", "zigzag/opt/salsa/engine.py: SalsaEngine.run_simulated_annealing_opt, get_prime_factors", "zigzag/opt/salsa/state.py: SalsaState", "zigzag/stages/main.py", "zigzag/stages/results/reduce_stages.py: MinimalEnergyStage, MinimalLatencyStage"]}
{"id": "C165", "title": "Calls in which data stay in lower memories evaluate every layer on exactly the memories up to the recorded levels", "statement": "With exploit_data_locality (also switched on by enable_mix_spatial_mapping) the answer is the sum over the layers of what a call for the layer alone answers on an accelerator that has, for every operand, exactly the memories of the file from the innermost one up to the level recorded for the operand, with unchanged sizes, prices and ports; this is a proper accelerator file; a layer reads its inputs from the memory to which its predecessors write; outside of branches this is the lowest memory for inputs and results with room for the inputs and results of the layer and, if it stores weights, the weights of the network; the bounds on energy and latency hold; a call that answers without these stages answers with them; and data of the network are moved from and to the main memory.", "quantifier": "all accelerator files, networks, spatial mappings and options", "why_tests_cant": "Removing memories renumbers the levels of all operands of all layers; the interplay of several layers, branches and memories has unboundedly many cases.", "anchors": ["zigzag/stages/exploit_data_locality_stages.py: SearchInterLayerDataLocalityStage, ExploitInterLayerDataLocalityStage, generate_accelerator_with_removing_unused_memory", "zigzag/api.py: get_hardware_performance_zigzag", "zigzag/workload/layer_node.py: get_act_layer_op, get_weight_layer_op"]}
{"id": "C166", "title": "What a call for an in-memory-computing array returns", "statement": "With in_memory_compute the call returns, as energy and latency, the sums over the layers of the best evaluation of each, whose energy is that of the memories and of all parts of the array; the array adds no way to fail; the energy is at least that of one multiplication of all bits for every operation, and every part except precharging at most that of the array at its peak for the activations; the latency is at least the operations over the cells; the clock and the area that are returned are those of the accelerator; and every weight that is used is precharged.", "quantifier": "all accelerator files, array parameters, networks, spatial mappings, optimisation criteria and options", "why_tests_cant": "The energy of the array depends on the mapping, so the best mapping is a matter of all of them; tests check sums for single layers on single arrays.", "anchors": ["zigzag/api.py: get_hardware_performance_zigzag", "zigzag/cost_model/cost_model_imc.py: CostModelEvaluationForIMC", "zigzag/hardware/architecture/imc_unit.py: get_mapped_oa_dim, get_precharge_energy", "zigzag/hardware/architecture/imc_array.py: ImcArray"]}
{"id": "C167", "title": "Calls with the input files that come with the tool", "statement": "Every accelerator file of the tool (other than those for in-memory computing) is accepted and declares every movement of data for one port; every mapping file fits its accelerator. For any workload file of convolutions (with or without groups), poolings, additions and matrix products, of any size, stride and dilation and with precisions that the innermost memories have room for, a call with such an accelerator and a mapping file that fits it ends with an answer or with one of five exceptions; the answer has at least the energy of all operations, and its latency is at least the operations over the units of the array unless two movements of a port happen exactly once; a mapping file for another array is refused.", "quantifier": "all workload files with layers of these forms (any number, sizes, strides, dilations, precisions, names, sources), all shipped accelerator files, all mapping files that fit, all options and criteria", "why_tests_cant": "The tests run single networks on single accelerators and compare stored numbers; that no network of such layers can make a call fail in another way is a statement about all sizes.", "anchors": ["zigzag/api.py: get_hardware_performance_zigzag", "zigzag/inputs/hardware: ascend_like, edge_tpu_like, eyeriss_like, gemm_l1, gemm_l1_l3, generic_array_cacti, meta_prototype, tesla_npu_like, tpu_like", "zigzag/inputs/mapping", "zigzag/inputs/workload: resnet18.yaml, gemm_layer.yaml"]}
{"id": "C168", "title": "Calls on ONNX models with the accelerator and mapping files that come with the tool", "statement": "For any ONNX model whose convolutions and matrix products have the attributes and shapes that the standard asks for (and precisions that the innermost memories have room for, such as the default ones), a call with an accelerator file of the tool and a mapping file that fits it ends with an answer or with one of five exceptions; an answer has at least the energy of the multiplications of all convolutions and matrix products of the model, and its latency is at least these multiplications over the units of the array unless two movements of a port happen exactly once. AlexNet and ResNet-18 as they come with the tool are such models.", "quantifier": "all ONNX models with such layers (any number of nodes, shapes, groups, strides, paddings, dilations, names), all shipped accelerator files, all mapping files that fit, all options and criteria", "why_tests_cant": "The tests run three models on single accelerators and compare stored numbers; the claim is about all shapes and graphs.", "anchors": ["zigzag/api.py: get_hardware_performance_zigzag", "zigzag/parser/onnx/onnx_model_parser.py: ONNXModelParser.run", "zigzag/parser/onnx/conv_parser.py: ConvParser", "zigzag/parser/onnx/gemm_parser.py: GemmParser", "zigzag/inputs/hardware", "zigzag/inputs/mapping", "zigzag/inputs/workload: alexnet.onnx, resnet18.onnx"]}
{"id": "C169", "title": "Calls on files in which data stay in lower memories", "statement": "If a call is made with inter-layer data locality turned on, the search for memories sees the layers and edges that the workload file lists: every layer follows the layers that its operands name, and its constant operand is its weights. A layer finds the outputs of the layers it names in the very memory in which these leave them. An answer has at least the energy of the operations of all layers, and an exception of the search is the exception of the call. This holds for the accelerator files of the tool with any mapping file that fits and any workload of convolutions, products, pooling layers and additions.", "quantifier": "all shipped accelerator files, all mapping files that fit them, all workload files with layers of the usual forms (any number of layers, sizes, edges), all options and criteria", "why_tests_cant": "Tests with locality run one network on one accelerator and compare stored numbers; the claim is about every graph of layers.", "anchors": ["zigzag/api.py: get_hardware_performance_zigzag", "zigzag/stages/parser/workload_parser.py: WorkloadParserStage", "zigzag/workload/layer_node.py: LayerNode", "zigzag/stages/exploit_data_locality_stages.py: SearchInterLayerDataLocalityStage, ExploitInterLayerDataLocalityStage", "zigzag/hardware/architecture/operational_array.py", "zigzag/inputs/hardware", "zigzag/inputs/mapping", "zigzag/inputs/workload/resnet18.yaml"]}
{"id": "C170", "title": "Calls on files with in-memory-computing arrays", "statement": "If an accelerator file describes an array that computes in memory, the numbers that its array is built with are those of the file: kind of computing, lengths of the word and bit lines (array sizes along the two named dimensions), number of macros, precisions, bits per cycle, resolution of the converters, cells per macro. The clock period and the area in the answer are those of an array with these numbers; digital arrays whose number of rows is not a power of two are refused when the file is read. Layers that the model calls Pooling or Add are skipped; a call whose layers are all skipped has no answer. The energy is at least that of the multiplications of bits of the other layers, the latency at least their operations spread over the whole array.", "quantifier": "all accelerator files that describe such an array, all mapping files that fit it, all workload files with layers of the usual forms (any number, sizes, edges), all options and criteria, all areas of converters", "why_tests_cant": "Tests run the two shipped arrays on one network and compare stored numbers; the claim is about every description of an array and every network.", "anchors": ["zigzag/api.py: get_hardware_performance_zigzag", "zigzag/parser/accelerator_factory.py: AcceleratorFactory.create_imc_array", "zigzag/hardware/architecture/imc_array.py: ImcArray", "zigzag/hardware/architecture/imc_unit.py: ImcUnit", "zigzag/cost_model/cost_model_imc.py: CostModelEvaluationForIMC", "zigzag/stages/workload_iterator.py: WorkloadStage", "zigzag/inputs/hardware/dimc.yaml", "zigzag/inputs/hardware/aimc.yaml"]}
{"id": "C171", "title": "The mapping file is followed", "statement": "An answer of a call adds up one evaluation for every layer of the workload file, and each is made with a spatial mapping that follows the entry of the mapping file for the layer. Along an array dimension for which the entry has a mapping only its layer dimensions are unrolled, none more than it says. Along the other array dimensions only hinted layer dimensions are unrolled; only if no hinted dimension is one of the layer, any dimension of the layer may be. The same holds if data stay in lower memories, for in-memory-computing arrays, and for the convolutions and matrix products of ONNX models.", "quantifier": "all accelerator, mapping and workload files that fit together, all numbers of mappings asked for, all orders in which sets are traversed, all criteria", "why_tests_cant": "Tests look at the energy of a few networks; which mapping was used is not checked, and the claim is about every entry, layer and array.", "anchors": ["zigzag/api.py: get_hardware_performance_zigzag", "zigzag/stages/mapping/spatial_mapping_generation.py: SpatialMappingGeneratorStage", "zigzag/mapping/spatial_mapping.py: SpatialMapping.check_and_reduce, SpatialMappingHint", "zigzag/parser/mapping_factory.py: MappingFactory", "zigzag/inputs/mapping"]}
{"id": "C172", "title": "A mapping for a dimension that the array does not have is refused", "statement": "A call never has an answer if the entry of the mapping file for one of the layers has a spatial mapping for an array dimension that the accelerator file does not declare. It raises KeyError when that layer is reached, or before it the exception that the layers before it raise on their own; with such a mapping in the entries of all layers it raises KeyError. Calls in which data stay in lower memories, and calls for in-memory-computing arrays, have no answer either. This holds for all mapping files that come with the tool, used with an accelerator file of fewer dimensions, and all workloads with layers of the usual forms.", "quantifier": "all accelerator files, workload files and mapping files that fit together but for array dimensions, all positions of the layer, all options and criteria", "why_tests_cant": "The tests only use mapping files with the accelerator that they are for; the claim is about the outcome for every other combination and every order of layers.", "anchors": ["zigzag/api.py: get_hardware_performance_zigzag", "zigzag/stages/mapping/spatial_mapping_generation.py: SpatialMappingGeneratorStage", "zigzag/mapping/spatial_mapping.py: SpatialMapping.check_and_reduce", "zigzag/stages/workload_iterator.py: WorkloadStage", "zigzag/inputs/mapping"]}
{"id": "C173", "title": "Calls on files with the annealing engine", "statement": "With the annealing engine for temporal mappings, whatever random numbers are drawn: an answer for a workload file or an ONNX model adds up one evaluation for each layer, in the order of the layers, made with a spatial mapping that follows the mapping file and an order of all loops that are left. Its energy is at least that of all multiplications of the workload, and its latency times the units of the array at least their number. Temporal orderings in the mapping file and the limit on the number of loops have no effect. A mapping for a dimension that the array does not have, or an unknown criterion, never gives an answer. Otherwise there is an answer, or one of five exceptions: a division by zero, a layer that the array unrolls completely, a dimension that is unrolled over two array dimensions, or an order of loops that does not fit the memories. For mapping files without orderings the exhaustive engine without limit is never worse.", "quantifier": "all accelerator files, workload files or ONNX models and mapping files that fit together, all options, all sequences of random numbers", "why_tests_cant": "The tests run one seedless annealing on fixed inputs and compare nothing for other draws; the claim ranges over all draws and files.", "anchors": ["zigzag/api.py: get_hardware_performance_zigzag", "zigzag/stages/mapping/salsa.py: SalsaStage", "zigzag/opt/salsa/engine.py: SalsaEngine", "zigzag/stages/parser/workload_parser.py: WorkloadParserStage", "zigzag/stages/parser/onnx_model_parser.py: ONNXModelParserStage"]}
