{
 "claims": [
  {
   "property": "C01",
   "status": "proved",
   "theorems": [
    "Verif.Multiperm.permutations_sound"
   ],
   "note": "pointer-level model of multipermute.py"
  },
  {
   "property": "C02",
   "status": "proved",
   "theorems": [
    "Verif.Multiperm.permutations_complete"
   ],
   "note": ""
  },
  {
   "property": "C03",
   "status": "proved",
   "theorems": [
    "Verif.Multiperm.constrained_eq_scan",
    "Verif.Multiperm.constrained_complete",
    "Verif.Multiperm.static_positions_iff",
    "Verif.Multiperm.static_positions_and_sizes_iff",
    "Verif.Multiperm.static_positions_out_of_range"
   ],
   "note": ""
  },
  {
   "property": "C04",
   "status": "proved",
   "theorems": [
    "Verif.TemporalLoops.loma_covers",
    "Verif.TemporalLoops.loma_exact"
   ],
   "note": ""
  },
  {
   "property": "C05",
   "status": "proved",
   "theorems": [
    "Verif.TemporalLoops.loma_exact",
    "Verif.TemporalLoops.loma_minimal",
    "Verif.TemporalLoops.loma_nontrivial"
   ],
   "note": ""
  },
  {
   "property": "C06",
   "status": "proved",
   "theorems": [
    "Verif.Lpf.prime_factors_preserve",
    "Verif.Lpf.prime_factors_empty",
    "Verif.Lpf.prime_factors_empty_limit_zero",
    "Verif.Lpf.factContract_primeFactorsList"
   ],
   "note": "sympy.factorint is a parameter with a stated contract, shown satisfiable"
  },
  {
   "property": "C07",
   "status": "proved",
   "theorems": [
    "Verif.Lpf.limit_preserves"
   ],
   "note": ""
  },
  {
   "property": "C08",
   "status": "proved",
   "theorems": [
    "Verif.Lpf.nb_permutations_exact",
    "Verif.Float.nb_permutations_float",
    "Verif.Float.nb_permutations_false"
   ],
   "note": "exact for up to 22 loop factors with rounded quotients; with 23 different ones the announced number is wrong"
  },
  {
   "property": "C09",
   "status": "proved",
   "theorems": [
    "Verif.Engine.engine_yields_fitting",
    "Verif.Engine.engine_other_exception",
    "Verif.Engine.engine_tries_all"
   ],
   "note": ""
  },
  {
   "property": "C10",
   "status": "proved",
   "theorems": [
    "Verif.Alloc.run_keeps_order",
    "Verif.Alloc.run_prefix"
   ],
   "note": ""
  },
  {
   "property": "C11",
   "status": "proved",
   "theorems": [
    "Verif.Alloc.run_fits",
    "Verif.Alloc.dimSizes_get"
   ],
   "note": ""
  },
  {
   "property": "C12",
   "status": "proved",
   "theorems": [
    "Verif.Alloc.run_optimal",
    "Verif.Alloc.search_optimal"
   ],
   "note": ""
  },
  {
   "property": "C13",
   "status": "proved",
   "theorems": [
    "Verif.Alloc.run_even"
   ],
   "note": ""
  },
  {
   "property": "C14",
   "status": "proved",
   "theorems": [
    "Verif.TemporalMapping.merge_down_preserves"
   ],
   "note": ""
  },
  {
   "property": "C15",
   "status": "proved",
   "theorems": [
    "Verif.TemporalMapping.merge_down_stationary"
   ],
   "note": ""
  },
  {
   "property": "C16",
   "status": "proved",
   "theorems": [
    "Verif.TemporalMapping.cycles_product",
    "Verif.TemporalMapping.cycles_step",
    "Verif.TemporalMapping.total_cycle_ok",
    "Verif.TemporalMapping.total_cycle_detects",
    "Verif.TemporalMapping.allocated_total_cycle"
   ],
   "note": ""
  },
  {
   "property": "C17",
   "status": "partial",
   "theorems": [
    "Verif.LayerNode.pr_size_partial",
    "Verif.LayerNode.pr_size_exact_iff",
    "Verif.LayerNode.pr_size_false",
    "Verif.LayerNode.pr_size_zero",
    "Verif.LayerNode.pr_total_padding",
    "Verif.LayerNode.tensor_size_partial",
    "Verif.LayerNode.operand_size_full"
   ],
   "note": "the property is false when gaps appear between touched positions: exact condition proved, with a counterexample"
  },
  {
   "property": "C18",
   "status": "proved",
   "theorems": [
    "Verif.Decouple.decouple_pos",
    "Verif.Decouple.decouple_split",
    "Verif.Decouple.decouple_product",
    "Verif.Decouple.decouple_data_size",
    "Verif.Decouple.decouple_reuse",
    "Verif.Decouple.decouple_layer_total",
    "Verif.Decouple.decouple_shared_false"
   ],
   "note": "loops belonging to two partially relevant data dimensions are outside the statement; the failure there is proved as well"
  },
  {
   "property": "C19",
   "status": "proved",
   "theorems": [
    "Verif.SpatialInternal.unit_count_factors",
    "Verif.SpatialInternal.serve_scope",
    "Verif.SpatialInternal.bw_boost",
    "Verif.SpatialInternal.unit_counts_monotone",
    "Verif.SpatialInternal.check_bottom_ok",
    "Verif.SpatialInternal.check_bottom_decoupled"
   ],
   "note": ""
  },
  {
   "property": "C20",
   "status": "proved",
   "theorems": [
    "Verif.SpatialMapping.check_and_reduce_valid",
    "Verif.SpatialMapping.check_and_reduce_id"
   ],
   "note": ""
  },
  {
   "property": "C21",
   "status": "proved",
   "theorems": [
    "Verif.SpatialMapping.is_valid_iff",
    "Verif.SpatialMapping.is_valid_false",
    "Verif.SpatialMapping.is_valid_assert"
   ],
   "note": ""
  },
  {
   "property": "C22",
   "status": "partial",
   "theorems": [
    "Verif.SpatialMapping.indicator_formula",
    "Verif.SpatialMapping.indicator_double_partial",
    "Verif.SpatialMapping.indicator_diverse_partial",
    "Verif.SpatialMapping.indicator_false"
   ],
   "note": "the documented claim is false (counterexample proved); proved for a factor of two and for mappings that are at least as diverse"
  },
  {
   "property": "C23",
   "status": "proved",
   "theorems": [
    "Verif.SpatialGen.max_unrolling_exact",
    "Verif.SpatialGen.max_unrolling_total",
    "Verif.SpatialGen.max_unrolling_zero"
   ],
   "note": ""
  },
  {
   "property": "C24",
   "status": "partial",
   "theorems": [
    "Verif.SpatialGen.adjust_factors",
    "Verif.SpatialGen.limit_capacity_lowers",
    "Verif.SpatialGen.limit_capacity_fits_partial",
    "Verif.SpatialGen.cap_step_fits_partial",
    "Verif.SpatialGen.limit_capacity_false",
    "Verif.SpatialGen.limit_capacity_crash"
   ],
   "note": "the scaling of the factor list is proved in full; applying it through a dictionary keyed by factor value fails for equal factors, counterexample proved"
  },
  {
   "property": "C25",
   "status": "proved",
   "theorems": [
    "Verif.SpatialGen.single_oa_exact",
    "Verif.SpatialGen.generate_ranked",
    "Verif.SpatialGen.generate_complete",
    "Verif.SpatialGen.generate_valid"
   ],
   "note": "ranking is on the candidates before their unrollings are lowered to the memory capacity"
  },
  {
   "property": "C26",
   "status": "proved",
   "theorems": [
    "Verif.Conversion.convert_exact",
    "Verif.Conversion.convert_of_valid",
    "Verif.Conversion.convert_covers"
   ],
   "note": "whole loop over array dimensions in both versions, including success, minimal temporal remainder and lower bound one"
  },
  {
   "property": "C27",
   "status": "proved",
   "theorems": [
    "Verif.Conversion.per_level_placement",
    "Verif.Conversion.per_level_conserved",
    "Verif.Conversion.per_level_check"
   ],
   "note": "placement, conservation and the bottom-level assertion for any served dimensions"
  },
  {
   "property": "C28",
   "status": "proved",
   "theorems": [
    "Verif.Cme.add_spec",
    "Verif.Cme.add_comm_cost",
    "Verif.Cme.add_assoc_cost",
    "Verif.Cme.add_balanced",
    "Verif.Cme.mul_eq_sum",
    "Verif.Cme.mul_ok",
    "Verif.Cme.add_assoc_success_false"
   ],
   "note": "numbers are associative and commutative; only whether a sum of unrelated accelerators raises depends on bracketing (shown by add_assoc_success_false)"
  },
  {
   "property": "C29",
   "status": "proved",
   "theorems": [
    "Verif.Energy.energy_breakdown",
    "Verif.Energy.energy_balanced",
    "Verif.Energy.energy_nonneg",
    "Verif.Energy.table_access_bounds"
   ],
   "note": ""
  },
  {
   "property": "C30",
   "status": "partial",
   "theorems": [
    "Verif.Latency.overall_ordered",
    "Verif.Latency.latency_ordered_partial",
    "Verif.Latency.latency_ordered_false"
   ],
   "note": "ordering proved for non-negative stalls and loading times, and from the ports on whenever no port distributes spare cycles over several one-time transfers; false in general (latency_ordered_false)"
  },
  {
   "property": "C31",
   "status": "partial",
   "theorems": [
    "Verif.Balance.balance_conserves",
    "Verif.Balance.balance_exact",
    "Verif.Balance.balance_single",
    "Verif.Balance.balance_ok",
    "Verif.Balance.balance_minimum_partial",
    "Verif.Balance.balance_minimum_false"
   ],
   "note": "the minimum is not respected when the values have to be lowered to different minimums (balance_minimum_false)"
  },
  {
   "property": "C32",
   "status": "proved",
   "theorems": [
    "Verif.Window.window_union",
    "Verif.Window.window_union_le",
    "Verif.Window.window_union_ge",
    "Verif.Window.window_union_le_sum",
    "Verif.Window.window_union_perm",
    "Verif.Window.loop_nest_consistent",
    "Verif.Window.window_union_error_false"
   ],
   "note": "the union is exactly the number of busy cycles; window_union_error_false shows that inconsistent windows, which loop nests never produce, raise"
  },
  {
   "property": "C33",
   "status": "proved",
   "theorems": [
    "Verif.Window.port_stall_bounds",
    "Verif.Window.port_stall_zero_iff",
    "Verif.Window.stall_comb_bounds",
    "Verif.Window.stall_comb_attained",
    "Verif.Window.port_stall_mono"
   ],
   "note": ""
  },
  {
   "property": "C34",
   "status": "proved",
   "theorems": [
    "Verif.Stages.min_energy",
    "Verif.Stages.min_latency",
    "Verif.Stages.min_edp",
    "Verif.Stages.min_energy_best",
    "Verif.Stages.min_rejects"
   ],
   "note": ""
  },
  {
   "property": "C35",
   "status": "proved",
   "theorems": [
    "Verif.Cme.sum_stage_totals",
    "Verif.Cme.sum_stage_energy_latency",
    "Verif.Cme.sum_stage_order",
    "Verif.Cme.sum_stage_ok"
   ],
   "note": ""
  },
  {
   "property": "C36",
   "status": "partial",
   "theorems": [
    "Verif.Stages.gather_all_partial",
    "Verif.Stages.gather_progress",
    "Verif.Stages.gather_terminates",
    "Verif.Stages.gather_small_false",
    "Verif.Stages.gather_failure_false"
   ],
   "note": "false for one to nine jobs (ZeroDivisionError after the first answer) and when a job raises (never finishes); proved for every schedule with at least ten jobs"
  },
  {
   "property": "C37",
   "status": "proved",
   "theorems": [
    "Verif.Salsa.salsa_orders",
    "Verif.Salsa.salsa_best_accepted",
    "Verif.Salsa.salsa_best",
    "Verif.Salsa.salsa_count",
    "Verif.Salsa.salsa_ok",
    "Verif.Salsa.salsa_covers",
    "Verif.Salsa.salsa_no_loop_false"
   ],
   "note": "random numbers, exp and the cost model are parameters; salsa_no_loop_false: a layer whose loops are all spatial makes the annealer raise"
  },
  {
   "property": "C38",
   "status": "proved",
   "theorems": [
    "Verif.Hierarchy.level_numbering",
    "Verif.Hierarchy.number_of_levels",
    "Verif.Hierarchy.number_of_levels_false"
   ],
   "note": "number_of_levels_false shows why a memory may not list an operand twice"
  },
  {
   "property": "C39",
   "status": "partial",
   "theorems": [
    "Verif.Hierarchy.levels_order_partial",
    "Verif.Hierarchy.aligned_of_two",
    "Verif.Hierarchy.aligned_of_uniform",
    "Verif.Hierarchy.operand_top",
    "Verif.Hierarchy.levels_order_false"
   ],
   "note": "proved for aligned hierarchies, which include those with at most two levels and those whose memories are at one level for all their operands; false in general (levels_order_false)"
  },
  {
   "property": "C40",
   "status": "proved",
   "theorems": [
    "Verif.Hierarchy.unroll_total",
    "Verif.Hierarchy.unroll_extremes"
   ],
   "note": ""
  },
  {
   "property": "C41",
   "status": "proved",
   "theorems": [
    "Verif.Workload.dnn_ok_iff",
    "Verif.Workload.dnn_edges",
    "Verif.Workload.dnn_schedule"
   ],
   "note": ""
  },
  {
   "property": "C42",
   "status": "proved",
   "theorems": [
    "Verif.Workload.no_dummy_edges",
    "Verif.Workload.no_dummy_topo"
   ],
   "note": ""
  },
  {
   "property": "C43",
   "status": "partial",
   "theorems": [
    "Verif.Ordering.is_complete_partial",
    "Verif.Ordering.is_complete_raises_iff",
    "Verif.Ordering.is_complete_false"
   ],
   "note": "the check raises for a listed dimension with factor product one (is_complete_false); proved otherwise"
  },
  {
   "property": "C44",
   "status": "partial",
   "theorems": [
    "Verif.Ordering.constraints_iff",
    "Verif.Ordering.constraints_from_file",
    "Verif.Ordering.constraints_file_false",
    "Verif.Ordering.constraints_short_false"
   ],
   "note": "exact meaning proved for the constraints; orderings from a mapping file lose their wildcard first (constraints_file_false)"
  },
  {
   "property": "C45",
   "status": "proved",
   "theorems": [
    "Verif.Imc.tree_size",
    "Verif.Imc.place_value_size"
   ],
   "note": "adder tree counts equal those of an explicit binary tree"
  },
  {
   "property": "C46",
   "status": "proved",
   "theorems": [
    "Verif.Imc.tree_energy_exact",
    "Verif.Imc.active_adders_le",
    "Verif.Imc.tree_energy_mono"
   ],
   "note": ""
  },
  {
   "property": "C47",
   "status": "proved",
   "theorems": [
    "Verif.Cme.fourway_add",
    "Verif.Cme.fourway_scale",
    "Verif.Cme.fourway_zero",
    "Verif.Cme.fourway_set",
    "Verif.Cme.fourway_ofDict",
    "Verif.Cme.fourway_total"
   ],
   "note": ""
  },
  {
   "property": "C48",
   "status": "proved",
   "theorems": [
    "Verif.Links.links_ok_iff",
    "Verif.Links.links_inverse"
   ],
   "note": ""
  },
  {
   "property": "C49",
   "status": "partial",
   "theorems": [
    "Verif.LayerNode.relevancy_partition",
    "Verif.LayerNode.irrelevant_iff_partial",
    "Verif.LayerNode.irrelevant_false",
    "Verif.LayerNode.extractRel_spec"
   ],
   "note": "partition proved in full; the semantic reading of irrelevance is false for an operand that uses only some names of a partially relevant relation, counterexample proved"
  },
  {
   "property": "C50",
   "status": "proved",
   "theorems": [
    "Verif.Locality.record_min",
    "Verif.Locality.record_order",
    "Verif.Locality.prune_exact",
    "Verif.Locality.prune_prefix",
    "Verif.Locality.prune_ops"
   ],
   "note": ""
  },
  {
   "property": "C51",
   "status": "partial",
   "theorems": [
    "Verif.Locality.from_top_never_raises",
    "Verif.Locality.from_top_false"
   ],
   "note": "false for the code: the request never raises a level, for every network"
  },
  {
   "property": "C52",
   "status": "proved",
   "theorems": [
    "Verif.Links.choose_iff",
    "Verif.Links.choose_total"
   ],
   "note": ""
  },
  {
   "property": "C53",
   "status": "partial",
   "theorems": [
    "Verif.Onnx.conv_ok",
    "Verif.Onnx.conv_input",
    "Verif.Onnx.conv_axes_iff",
    "Verif.Onnx.conv_input_partial",
    "Verif.Onnx.outExtent_bound",
    "Verif.Onnx.conv_attributes",
    "Verif.Onnx.conv_precision",
    "Verif.Onnx.conv_axis_false",
    "Verif.Onnx.conv_raises_false",
    "Verif.Onnx.conv_auto_pad_false"
   ],
   "note": "operations, outputs and weights proved for all valid convolutions; geometry exactly when both axes have the same attributes"
  },
  {
   "property": "C54",
   "status": "proved",
   "theorems": [
    "Verif.TemporalLoops.salsa_eq_loma",
    "Verif.TemporalLoops.salsa_keyError"
   ],
   "note": ""
  },
  {
   "property": "C55",
   "status": "partial",
   "theorems": [
    "Verif.Lpf.static_composite_false",
    "Verif.Lpf.static_repeated_false",
    "Verif.Lpf.static_limit_false",
    "Verif.Lpf.static_preserves_partial"
   ],
   "note": "the claim is false of the code in three ways (negations proved); proved for prime-power sizes"
  },
  {
   "property": "C56",
   "status": "proved",
   "theorems": [
    "Verif.Engine.engine_covers",
    "Verif.Engine.engine_tries_all"
   ],
   "note": "composition of the models of all parts of the engine"
  },
  {
   "property": "C57",
   "status": "proved",
   "theorems": [
    "Verif.TemporalMapping.top_loops"
   ],
   "note": ""
  },
  {
   "property": "C58",
   "status": "partial",
   "theorems": [
    "Verif.SpatialGen.generate_one_partial",
    "Verif.SpatialGen.generate_shared_false"
   ],
   "note": "false when several mappings are requested (counterexample proved); proved for one requested mapping"
  },
  {
   "property": "C59",
   "status": "partial",
   "theorems": [
    "Verif.Diagonal.diagonal_never_extends",
    "Verif.Diagonal.diagonal_crash_false"
   ],
   "note": "false: proved that the code returns the mapping unchanged or raises for every input"
  },
  {
   "property": "C60",
   "status": "partial",
   "theorems": [
    "Verif.Conversion.convert_divides_partial",
    "Verif.Conversion.conversion_temporal_false"
   ],
   "note": "false in general (12 unrolled 4 and 2 times leaves 1.5 iterations); proved when no array dimension after the first largest unrolls the dimension"
  },
  {
   "property": "C61",
   "status": "partial",
   "theorems": [
    "Verif.Energy.access_bounds",
    "Verif.Energy.table_access_bounds",
    "Verif.Energy.access_covers_partial",
    "Verif.Energy.access_no_port",
    "Verif.Energy.access_nonneg",
    "Verif.Energy.access_free_false"
   ],
   "note": "covers every bit when minimal and maximal port bandwidth agree; otherwise transfers below the minimal width are free (access_free_false)"
  },
  {
   "property": "C62",
   "status": "proved",
   "theorems": [
    "Verif.Buffer.shared_utilization",
    "Verif.Buffer.shared_bounds"
   ],
   "note": ""
  },
  {
   "property": "C63",
   "status": "proved",
   "theorems": [
    "Verif.Buffer.double_buffer_fits",
    "Verif.Buffer.double_buffer_half"
   ],
   "note": ""
  },
  {
   "property": "C64",
   "status": "partial",
   "theorems": [
    "Verif.Latency.onloading_covers_partial",
    "Verif.Latency.onloading_nonneg",
    "Verif.Latency.offloading_nonneg",
    "Verif.Latency.offloading_exact",
    "Verif.Latency.onloading_half_false",
    "Verif.Latency.onloading_single_false"
   ],
   "note": "proved for two inputs with at most one half-shared link each; false otherwise"
  },
  {
   "property": "C65",
   "status": "partial",
   "theorems": [
    "Verif.Salsa.stage_best",
    "Verif.Salsa.stage_progress",
    "Verif.Salsa.stage_terminates",
    "Verif.Salsa.stage_failure_false"
   ],
   "note": "proved when no worker raises; a worker that raises makes the stage wait forever (stage_failure_false)"
  },
  {
   "property": "C66",
   "status": "partial",
   "theorems": [
    "Verif.Salsa.salsa_reaches",
    "Verif.Salsa.salsa_latency_false"
   ],
   "note": "the annealer minimises the latency without loading, the stage compares the latency with loading (salsa_latency_false)"
  },
  {
   "property": "C67",
   "status": "partial",
   "theorems": [
    "Verif.Hierarchy.inner_memories_partial",
    "Verif.Hierarchy.inner_memories_false",
    "Verif.Hierarchy.outer_memories_false"
   ],
   "note": "false in general: the innermost memory of an operand is left out if it is an outer memory of another operand, and outermost memories likewise; proved for hierarchies where this does not happen"
  },
  {
   "property": "C68",
   "status": "proved",
   "theorems": [
    "Verif.Hierarchy.sharing_list"
   ],
   "note": ""
  },
  {
   "property": "C69",
   "status": "partial",
   "theorems": [
    "Verif.Workload.onnx_ok_iff",
    "Verif.Workload.onnx_edges",
    "Verif.Workload.onnx_edges_sound",
    "Verif.Workload.onnx_edges_partial",
    "Verif.Workload.onnx_edges_false",
    "Verif.Workload.onnx_cycle_false"
   ],
   "note": "edges are sound always and complete for nodes with at most two inputs; dependencies of other nodes are dropped (onnx_edges_false) and an omitted optional input can close a cycle (onnx_cycle_false)"
  },
  {
   "property": "C70",
   "status": "partial",
   "theorems": [
    "Verif.Ordering.complete_order",
    "Verif.Ordering.position_order_partial",
    "Verif.Ordering.sized_order_false"
   ],
   "note": "complete and position-only orderings proved; orderings with factors can change the iteration count (sized_order_false)"
  },
  {
   "property": "C71",
   "status": "partial",
   "theorems": [
    "Verif.Imc.rows_partial",
    "Verif.Imc.rows_single_false",
    "Verif.Imc.rows_batch_false",
    "Verif.Imc.rows_order_false",
    "Verif.Imc.rows_exceed_false"
   ],
   "note": "proved for two or more row dimensions enumerated in the order of the mapping and fully paired dimensions; each other case has a counterexample"
  },
  {
   "property": "C72",
   "status": "proved",
   "theorems": [
    "Verif.Imc.layer_le_peak"
   ],
   "note": ""
  },
  {
   "property": "C73",
   "status": "partial",
   "theorems": [
    "Verif.Imc.rows_plain",
    "Verif.Imc.adder_inputs_false"
   ],
   "note": "holds without diagonal mapping, false with (adder_inputs_false)"
  },
  {
   "property": "C74",
   "status": "partial",
   "theorems": [
    "Verif.Imc.eq_fresh",
    "Verif.Imc.eq_history_false"
   ],
   "note": "holds for arrays on which nothing was evaluated, false afterwards for every array (eq_history_false)"
  },
  {
   "property": "C75",
   "status": "partial",
   "theorems": [
    "Verif.Imc.area_total",
    "Verif.Imc.area_breakdown_partial",
    "Verif.Imc.area_breakdown_false"
   ],
   "note": "totals proved; breakdown only for different names, false otherwise"
  },
  {
   "property": "C76",
   "status": "partial",
   "theorems": [
    "Verif.Imc.area_ok_iff",
    "Verif.Imc.area_nonneg",
    "Verif.Imc.clock_nonneg_partial",
    "Verif.Imc.clock_negative_false"
   ],
   "note": "acceptance and area proved; delay proved for two or more rows, negative for one row"
  },
  {
   "property": "C77",
   "status": "partial",
   "theorems": [
    "Verif.Ports.build_ok_iff",
    "Verif.Ports.accepted_build_false"
   ],
   "note": "exact condition for building proved; validation does not imply it (accepted_build_false)"
  },
  {
   "property": "C78",
   "status": "partial",
   "theorems": [
    "Verif.Ports.last_declared",
    "Verif.Ports.ports_partial",
    "Verif.Ports.accepted_ports",
    "Verif.Ports.conflict_false",
    "Verif.Ports.duplicate_name_false",
    "Verif.Ports.unserved_false"
   ],
   "note": "holds for different port names and unconflicting allocations; counterexamples otherwise"
  },
  {
   "property": "C79",
   "status": "partial",
   "theorems": [
    "Verif.Ports.imc_check_total_iff",
    "Verif.Ports.imc_check_sound",
    "Verif.Ports.check_raises_false",
    "Verif.Ports.half_bit_false"
   ],
   "note": "exact region without exception proved; raises outside of it"
  },
  {
   "property": "C80",
   "status": "proved",
   "theorems": [
    "Verif.Locality.edges_agree",
    "Verif.Locality.levels_determined"
   ],
   "note": ""
  },
  {
   "property": "C81",
   "status": "partial",
   "theorems": [
    "Verif.Locality.out_lowest",
    "Verif.Locality.weight_fits_partial",
    "Verif.Locality.weight_level",
    "Verif.Locality.weight_level_false"
   ],
   "note": "outputs proved; weights only for networks without additions, false with (weight_level_false)"
  },
  {
   "property": "C82",
   "status": "partial",
   "theorems": [
    "Verif.Locality.search_single",
    "Verif.Locality.input_stored_partial",
    "Verif.Locality.search_raises_false",
    "Verif.Locality.branch_level_false"
   ],
   "note": "success implies a single input and a single output layer; raises otherwise"
  },
  {
   "property": "C83",
   "status": "partial",
   "theorems": [
    "Verif.Equation.equation_operands",
    "Verif.Equation.equation_dims",
    "Verif.Equation.equation_foreign",
    "Verif.Equation.accepted_partial",
    "Verif.Equation.underscore_false",
    "Verif.Equation.blank_false",
    "Verif.Equation.repeated_false"
   ],
   "note": "holds for all equations with alphanumeric names and unbroken signs; counterexamples for other accepted equations"
  },
  {
   "property": "C84",
   "status": "partial",
   "theorems": [
    "Verif.LayerBuild.validate_total_iff",
    "Verif.LayerBuild.validate_sound",
    "Verif.LayerBuild.relation_read",
    "Verif.LayerBuild.build_ok_partial",
    "Verif.LayerBuild.operand_elements",
    "Verif.LayerBuild.related_elements",
    "Verif.LayerBuild.padded_size",
    "Verif.LayerBuild.accepted_build_false",
    "Verif.LayerBuild.validate_raises_false"
   ],
   "note": "holds for consistent descriptions; accepted inconsistent descriptions raise"
  },
  {
   "property": "C85",
   "status": "partial",
   "theorems": [
    "Verif.Onnx.gemm_ok_partial",
    "Verif.Onnx.gemm_transposed",
    "Verif.Onnx.gemm_plain",
    "Verif.Onnx.gemm_precision",
    "Verif.Onnx.unknown_input_false",
    "Verif.Onnx.gemm_weights_false",
    "Verif.Onnx.gemm_dynamic_false"
   ],
   "note": "false for input shapes that are not known, for weights with own batch dimensions and for two-dimensional products with an unknown first size; proved otherwise"
  },
  {
   "property": "C86",
   "status": "partial",
   "theorems": [
    "Verif.Onnx.sources_partial",
    "Verif.Onnx.precisions_spec",
    "Verif.Onnx.shape_first",
    "Verif.Onnx.source_swapped_false",
    "Verif.Onnx.source_raises_false"
   ],
   "note": "precisions proved; sources for nodes whose weights are produced only if the activations are"
  },
  {
   "property": "C87",
   "status": "partial",
   "theorems": [
    "Verif.MapInfo.data_elements_partial",
    "Verif.MapInfo.data_all_units_partial",
    "Verif.MapInfo.data_all_units_false"
   ],
   "note": "whole-number loops; per unit for tiles whose sizes the code computes exactly; the total for operands without partially relevant dimensions, with a counterexample otherwise"
  },
  {
   "property": "C88",
   "status": "partial",
   "theorems": [
    "Verif.MapInfo.input_traffic_false",
    "Verif.MapInfo.input_traffic_partial",
    "Verif.MapInfo.input_chain_partial",
    "Verif.MapInfo.input_stationary_partial",
    "Verif.MapInfo.input_total"
   ],
   "note": "proved for whole-number loops and tiles whose sizes the code computes exactly; false for tiles with gaps (input_traffic_false)"
  },
  {
   "property": "C89",
   "status": "partial",
   "theorems": [
    "Verif.MapInfo.output_traffic_false",
    "Verif.MapInfo.output_traffic_partial",
    "Verif.MapInfo.output_psum_partial",
    "Verif.MapInfo.output_total"
   ],
   "note": "proved for whole-number loops, partial sum flags for outputs without partially relevant dimensions; false for fractional unrollings (output_traffic_false)"
  },
  {
   "property": "C90",
   "status": "partial",
   "theorems": [
    "Verif.MapInfo.fill_transfer_partial",
    "Verif.MapInfo.read_transfer_partial",
    "Verif.MapInfo.write_transfer_partial",
    "Verif.MapInfo.bandwidth_partial",
    "Verif.MapInfo.instant_window",
    "Verif.MapInfo.transfer_false",
    "Verif.MapInfo.narrow_false",
    "Verif.MapInfo.bandwidth_false"
   ],
   "note": "false with partially relevant dimensions, with a port narrower than the data of one cycle, and for the bandwidth because it is rounded down; proved otherwise"
  },
  {
   "property": "C91",
   "status": "proved",
   "theorems": [
    "Verif.MapInfo.external_disabled"
   ],
   "note": ""
  },
  {
   "property": "C92",
   "status": "proved",
   "theorems": [
    "Verif.Latency.loading_table"
   ],
   "note": ""
  },
  {
   "property": "C93",
   "status": "partial",
   "theorems": [
    "Verif.Latency.inst_bandwidth",
    "Verif.Latency.borrow_table_partial",
    "Verif.Latency.borrow_lost_false",
    "Verif.Latency.direction_false"
   ],
   "note": "borrowed cycles for ports whose one-time transfers belong to different operands; counterexamples otherwise and for the reported direction"
  },
  {
   "property": "C94",
   "status": "proved",
   "theorems": [
    "Verif.Transfer.real_cycles",
    "Verif.Transfer.allowed_input",
    "Verif.Transfer.allowed_output",
    "Verif.Transfer.allowed_stationary",
    "Verif.Transfer.input_link",
    "Verif.Transfer.output_link"
   ],
   "note": "cycle counts are exact rationals; loops have whole numbers of iterations"
  },
  {
   "property": "C95",
   "status": "proved",
   "theorems": [
    "Verif.Transfer.period_of_nest",
    "Verif.Transfer.port_sharing",
    "Verif.Transfer.merged_nest"
   ],
   "note": "whole number of cycles for one operation"
  },
  {
   "property": "C96",
   "status": "proved",
   "theorems": [
    "Verif.Print.loops_listed",
    "Verif.Print.rows_printed",
    "Verif.Print.allocated_printed",
    "Verif.Print.empty_nest_raises"
   ],
   "note": "colouring and column widths left out"
  },
  {
   "property": "C97",
   "status": "partial",
   "theorems": [
    "Verif.Save.saved_last",
    "Verif.Save.saved_where",
    "Verif.Save.saved_all",
    "Verif.Save.saved_all_false",
    "Verif.Save.pickle_last",
    "Verif.Save.pickle_all_false",
    "Verif.Save.pickle_bare_name_false",
    "Verif.Save.pickle_none"
   ],
   "note": "for different file names and one yielded list; counterexamples otherwise"
  },
  {
   "property": "C98",
   "status": "partial",
   "theorems": [
    "Verif.Save.crash_saved",
    "Verif.Save.crash_saved_false",
    "Verif.Save.crash_orders",
    "Verif.Save.orders_all",
    "Verif.Save.skip_never_false"
   ],
   "note": "results of earlier runs are not protected and reruns are not skipped"
  },
  {
   "property": "C99",
   "status": "partial",
   "theorems": [
    "Verif.Pipeline.layer_best",
    "Verif.Pipeline.api_answer",
    "Verif.Pipeline.api_energy_least",
    "Verif.Pipeline.api_latency_least",
    "Verif.Pipeline.layer_beats_orders",
    "Verif.Pipeline.nested_first",
    "Verif.Pipeline.minStage_refines",
    "Verif.Pipeline.api_edp_false"
   ],
   "note": "proved for energy and latency; false for the product of the totals (api_edp_false)"
  },
  {
   "property": "C100",
   "status": "partial",
   "theorems": [
    "Verif.Pipeline.api_ok_iff",
    "Verif.Pipeline.api_one_bad_false",
    "Verif.Pipeline.api_imc_empty_crash"
   ],
   "note": "exact condition proved (api_ok_iff); the stated condition is not enough (api_one_bad_false)"
  },
  {
   "property": "C101",
   "status": "proved",
   "theorems": [
    "Verif.Keywords.api_keywords",
    "Verif.Keywords.parameter_value",
    "Verif.Keywords.runs_iff",
    "Verif.Keywords.unused_keywords",
    "Verif.Keywords.insert_stage",
    "Verif.Keywords.api_insert",
    "Verif.Keywords.engine_and_cost"
   ],
   "note": "for all pipelines built from stages described by their parameter lists and calls"
  },
  {
   "property": "C102",
   "status": "partial",
   "theorems": [
    "Verif.Keywords.dropped_keyword",
    "Verif.Keywords.command_line_crash",
    "Verif.Keywords.command_line_renamed_crash",
    "Verif.Keywords.command_line_repaired",
    "Verif.Keywords.keep_others_false",
    "Verif.Keywords.salsa_criterion_false",
    "Verif.Keywords.mapping_type_false",
    "Verif.Keywords.default_folder_false"
   ],
   "note": "false in several ways; dropped_keyword says exactly when a keyword is lost, command_line_repaired what is missing on the command line"
  },
  {
   "property": "C103",
   "status": "proved",
   "theorems": [
    "Verif.HwOpt.configs_spec",
    "Verif.HwOpt.returns_best",
    "Verif.HwOpt.no_better",
    "Verif.HwOpt.returns_iff",
    "Verif.HwOpt.refused",
    "Verif.HwOpt.size_float"
   ],
   "note": "for all behaviours of the remaining stages as a function of description and mapping"
  },
  {
   "property": "C104",
   "status": "partial",
   "theorems": [
    "Verif.HwOpt.mapping_left",
    "Verif.HwOpt.workload_kept_partial",
    "Verif.HwOpt.needs_sixteen",
    "Verif.HwOpt.mapping_left_false",
    "Verif.HwOpt.needs_sixteen_false",
    "Verif.HwOpt.mixed_mapping_false",
    "Verif.HwOpt.dimension_number_false",
    "Verif.HwOpt.empty_unrolling_false"
   ],
   "note": "false; the exact state left behind and the exact condition on the sizes are proved"
  },
  {
   "property": "C105",
   "status": "proved",
   "theorems": [
    "Verif.HwEq.hierarchy_eq",
    "Verif.HwEq.hierarchy_same",
    "Verif.HwEq.accelerator_eq_equiv",
    "Verif.HwEq.eq_same",
    "Verif.HwEq.mapping_eq"
   ],
   "note": "for accelerators whose memories store at least one operand; equality of arrays is a parameter"
  },
  {
   "property": "C106",
   "status": "partial",
   "theorems": [
    "Verif.HwEq.same_performance_partial",
    "Verif.HwEq.same_performance_false",
    "Verif.HwEq.equality_empty_false"
   ],
   "note": "false as stated; holds if port names and allocations agree"
  },
  {
   "property": "C107",
   "status": "partial",
   "theorems": [
    "Verif.HwEq.accelerator_hash",
    "Verif.HwEq.port_ids_distinct",
    "Verif.HwEq.port_table",
    "Verif.HwEq.port_ids_false",
    "Verif.HwEq.port_table_false",
    "Verif.HwEq.port_hash_false",
    "Verif.HwEq.level_hash_false",
    "Verif.HwEq.mapping_hash_false"
   ],
   "note": "false for ports, memories and spatial mappings; proved for accelerators and for tables of ports created from files"
  },
  {
   "property": "C108",
   "status": "proved",
   "theorems": [
    "Verif.Cacti.answers_true",
    "Verif.Cacti.answers_true_empty",
    "Verif.Cacti.register_file",
    "Verif.Cacti.old_records_unused"
   ],
   "note": "for technologies other than -1 (the value that stands for a missing one)"
  },
  {
   "property": "C109",
   "status": "partial",
   "theorems": [
    "Verif.Cacti.succeeds_iff",
    "Verif.Cacti.answer_stays",
    "Verif.Cacti.order_false",
    "Verif.Cacti.unknown_type_false",
    "Verif.Cacti.odd_size_false"
   ],
   "note": "false as stated; exact condition for success and permanence of answers proved"
  },
  {
   "property": "C110",
   "status": "partial",
   "theorems": [
    "Verif.Cacti.concurrent_partial",
    "Verif.Cacti.undisturbed",
    "Verif.Cacti.descriptions_concurrent",
    "Verif.Cacti.concurrent_false",
    "Verif.Cacti.concurrent_fails_false"
   ],
   "note": "false as stated; proved for requests that differ in bytes or width, for all schedules and crashes"
  },
  {
   "property": "C111",
   "status": "partial",
   "theorems": [
    "Verif.Cacti.crash_answers",
    "Verif.Cacti.crash_cached",
    "Verif.Cacti.crash_retry_partial",
    "Verif.Cacti.crash_blocks",
    "Verif.Cacti.crash_false"
   ],
   "note": "answers are never wrong and cached memories stay; repeating is false after one to nine lines of the record"
  },
  {
   "property": "C112",
   "status": "partial",
   "theorems": [
    "Verif.Cacti.request_iff",
    "Verif.Cacti.request_refused",
    "Verif.Cacti.ports_ignored_false"
   ],
   "note": "width as stated; numbers of ports are ignored"
  },
  {
   "property": "C113",
   "status": "partial",
   "theorems": [
    "Verif.CactiImc.answers_iff",
    "Verif.CactiImc.rows_kept",
    "Verif.CactiImc.macro_rows",
    "Verif.CactiImc.macro_answers",
    "Verif.CactiImc.directory_kept",
    "Verif.CactiImc.directory_lost",
    "Verif.CactiImc.after_failure",
    "Verif.CactiImc.extraction_crash",
    "Verif.CactiImc.stale_false"
   ],
   "note": "false as stated: no file of CACTI can be read; exact condition for an answer and its value proved"
  },
  {
   "property": "C114",
   "status": "proved",
   "theorems": [
    "Verif.Float.ceil_exact",
    "Verif.Float.floor_exact",
    "Verif.Float.exact_quotient",
    "Verif.Float.ceil_large_false"
   ],
   "note": "quotients of integers, correctly rounded; false from 2^53 + 1 on"
  },
  {
   "property": "C115",
   "status": "partial",
   "theorems": [
    "Verif.Float.accesses_exact_partial",
    "Verif.Float.accesses_close",
    "Verif.Float.accesses_false"
   ],
   "note": "false as stated; exact for power-of-two ratios, off by at most one in general"
  },
  {
   "property": "C116",
   "status": "proved",
   "theorems": [
    "Verif.Hints.created_hints",
    "Verif.Hints.hints_effective",
    "Verif.Hints.hints_usable",
    "Verif.Hints.hints_tried"
   ],
   "note": ""
  },
  {
   "property": "C117",
   "status": "partial",
   "theorems": [
    "Verif.Hints.evaluate_after_failures_partial",
    "Verif.Hints.evaluate_again_crash",
    "Verif.Hints.evaluate_again_false"
   ],
   "note": "proved while no mapping has been launched; false afterwards: the mapping stored in the layer keeps its array sizes and every further run fails"
  },
  {
   "property": "C118",
   "status": "proved",
   "theorems": [
    "Verif.Json.saved_at",
    "Verif.Json.complete_ok",
    "Verif.Json.complete_figures",
    "Verif.Json.complete_util",
    "Verif.Json.last_entry_saved",
    "Verif.Json.simple_figures",
    "Verif.Json.files_agree",
    "Verif.Json.imc_figures",
    "Verif.Json.good_layer",
    "Verif.Json.good_accelerator",
    "Verif.Json.good_array",
    "Verif.Json.good_mapping",
    "Verif.Json.mapping_recoverable",
    "Verif.Json.overall_savable"
   ],
   "note": "totals of no layers are excluded by the statement: see empty_total_crash in C119"
  },
  {
   "property": "C119",
   "status": "partial",
   "theorems": [
    "Verif.Json.energy_adds_up",
    "Verif.Json.overall_is_sum",
    "Verif.Json.overall_simple",
    "Verif.Json.empty_total_crash",
    "Verif.Json.mul_breakdown_false"
   ],
   "note": "proved for layers and totals of at least one layer; the total of no layers cannot be saved completely and a multiple of an in-memory-computing result is saved with parts that do not add up"
  },
  {
   "property": "C120",
   "status": "partial",
   "theorems": [
    "Verif.Files.required_reported",
    "Verif.Files.required_places",
    "Verif.Files.missing_layer_entries_false",
    "Verif.Files.missing_mapping_name_false",
    "Verif.Files.missing_layer_entries_partial"
   ],
   "note": "proved for accelerator files; false for workload and mapping files, where required entries are completed with empty values before the check (an operator, an equation and the precisions are still reported)"
  },
  {
   "property": "C121",
   "status": "partial",
   "theorems": [
    "Verif.Files.built_iff_partial",
    "Verif.Files.accepted_read",
    "Verif.Files.checks_agree",
    "Verif.Files.energy_missing_false",
    "Verif.Files.newline_false",
    "Verif.Files.foreign_operand_false",
    "Verif.Files.no_read_port_false"
   ],
   "note": "false as stated in four ways; proved: exactly when an accepted file can be built"
  },
  {
   "property": "C122",
   "status": "proved",
   "theorems": [
    "Verif.Files.written_kept",
    "Verif.Files.entry_kept",
    "Verif.Files.complete_twice",
    "Verif.Files.defaults_added"
   ],
   "note": ""
  },
  {
   "property": "C123",
   "status": "proved",
   "theorems": [
    "Verif.Files.built_as_written",
    "Verif.Files.hierarchy_as_written",
    "Verif.Files.dataflows_as_written"
   ],
   "note": "sizes, unrollings and ports are stated for files in which no dimension is named twice in one list and no port name twice in one memory"
  },
  {
   "property": "C124",
   "status": "partial",
   "theorems": [
    "Verif.Files.mapping_ok_iff",
    "Verif.Files.mapping_as_written",
    "Verif.Files.attributes_iff",
    "Verif.Files.attributes_as_written",
    "Verif.Files.unrollings_partial",
    "Verif.Files.repeated_dimension_false",
    "Verif.Files.double_link_false"
   ],
   "note": "false when one loop dimension is named twice on one array dimension or one memory operand is linked twice; proved otherwise"
  },
  {
   "property": "C125",
   "status": "proved",
   "theorems": [
    "Verif.Files.layers_ok_iff",
    "Verif.Files.layers_read",
    "Verif.Files.layers_as_written"
   ],
   "note": ""
  },
  {
   "property": "C126",
   "status": "partial",
   "theorems": [
    "Verif.Plot.plot_ok_iff",
    "Verif.Plot.bars_energy",
    "Verif.Plot.plot_total_partial",
    "Verif.Plot.latency_bar",
    "Verif.Plot.bars_apart",
    "Verif.Plot.shorten_spec",
    "Verif.Plot.label_id",
    "Verif.Plot.plot_total_false",
    "Verif.Plot.plot_mixed_crash",
    "Verif.Plot.plot_sums_crash"
   ],
   "note": "false if two levels use equal memory instances (their energy is drawn and counted twice); results of a deeper accelerator than the first result's raise; proved otherwise"
  },
  {
   "property": "C127",
   "status": "proved",
   "theorems": [
    "Verif.Plot.levels_drawn"
   ],
   "note": ""
  },
  {
   "property": "C128",
   "status": "partial",
   "theorems": [
    "Verif.CactiText.single_spec",
    "Verif.CactiText.reader_line",
    "Verif.CactiText.read_back",
    "Verif.CactiText.asked_spec",
    "Verif.CactiText.sweep_one",
    "Verif.CactiText.change_spec",
    "Verif.CactiText.single_default",
    "Verif.CactiText.never_refused",
    "Verif.CactiText.unknown_option_false",
    "Verif.CactiText.block_in_bits_false",
    "Verif.CactiText.sweep_two_false",
    "Verif.CactiText.outside_false"
   ],
   "note": "false for a sweep over two options (each configuration lacks one of them); unknown option names are ignored; the block size in bytes is the bus width in bits; the check of the place of the configuration never fails; the rest is proved"
  },
  {
   "property": "C129",
   "status": "partial",
   "theorems": [
    "Verif.CactiText.table_spec",
    "Verif.CactiText.results_spec",
    "Verif.CactiText.results_ok_iff",
    "Verif.CactiText.whole_sizes",
    "Verif.CactiText.short_line_false",
    "Verif.CactiText.second_type_false"
   ],
   "note": "false for the type of all lines but the first, and for files with a short line; proved otherwise"
  },
  {
   "property": "C130",
   "status": "proved",
   "theorems": [
    "Verif.OnnxModel.parse_ok_iff",
    "Verif.OnnxModel.node_stands",
    "Verif.OnnxModel.model_parsed"
   ],
   "note": "leading dimensions of products: at most two; sizes not known (zero) count as one"
  },
  {
   "property": "C131",
   "status": "partial",
   "theorems": [
    "Verif.OnnxModel.dynamic_plain",
    "Verif.OnnxModel.dynamic_ok_iff",
    "Verif.OnnxModel.dynamic_flat_partial",
    "Verif.OnnxModel.hidden_tensor_crash",
    "Verif.OnnxModel.second_if_false"
   ],
   "note": "false: AttributeError unless the tensor read by the branch is an output of the model, and branches of a second If are left out; the exact condition of success and the nodes of the result are proved"
  },
  {
   "property": "C132",
   "status": "partial",
   "theorems": [
    "Verif.Roles.roles_told",
    "Verif.Roles.identify_shared",
    "Verif.Roles.conv_roles",
    "Verif.Roles.gemm_roles_partial",
    "Verif.Roles.gemm_roles_false",
    "Verif.Roles.product_identified",
    "Verif.Roles.identify_false"
   ],
   "note": "false for products of two computed tensors (roles swapped) and for the search for diagonal mappings in products with one column or one reduction step; proved for all convolutions and products with at most one computed input"
  },
  {
   "property": "C133",
   "status": "partial",
   "theorems": [
    "Verif.Roles.evaluated_given",
    "Verif.Roles.evaluated_ok_iff",
    "Verif.Roles.never_enlarged_false",
    "Verif.Roles.single_input_crash"
   ],
   "note": "the given accelerator is always used (proved); the memory is never enlarged, and layers with a single constant input raise"
  },
  {
   "property": "C134",
   "status": "proved",
   "theorems": [
    "Verif.Roles.build_eq",
    "Verif.Roles.rebuilt"
   ],
   "note": ""
  },
  {
   "property": "C135",
   "status": "partial",
   "theorems": [
    "Verif.Evaluate.evaluated_partial",
    "Verif.Evaluate.missing_operand_crash",
    "Verif.Evaluate.cancelled_crash"
   ],
   "note": "false for layers that lack an operand some port serves (KeyError) and when negative loading cancels the computation (ZeroDivisionError); proved that these are the only exceptions"
  },
  {
   "property": "C136",
   "status": "partial",
   "theorems": [
    "Verif.Evaluate.bandwidth_partial",
    "Verif.Evaluate.bandwidth_false"
   ],
   "note": "proved for stall, latency without loading, utilization and double buffering; false for the latency with loading"
  },
  {
   "property": "C137",
   "status": "partial",
   "theorems": [
    "Verif.Evaluate.size_partial",
    "Verif.Evaluate.size_false"
   ],
   "note": "proved for memories that hold one operand; false for shared memories"
  },
  {
   "property": "C138",
   "status": "partial",
   "theorems": [
    "Verif.Evaluate.ordered_partial",
    "Verif.Evaluate.ordered_false",
    "Verif.Evaluate.latency_negative_false"
   ],
   "note": "proved if no port has two movements that happen once; false otherwise, even a negative latency is reported"
  },
  {
   "property": "C139",
   "status": "proved",
   "theorems": [
    "Verif.Evaluate.energy_bounds"
   ],
   "note": ""
  },
  {
   "property": "C140",
   "status": "proved",
   "theorems": [
    "Verif.Evaluate.prices",
    "Verif.Evaluate.prices_scale"
   ],
   "note": ""
  },
  {
   "property": "C141",
   "status": "proved",
   "theorems": [
    "Verif.Evaluate.roofline",
    "Verif.Evaluate.traffic_fits"
   ],
   "note": ""
  },
  {
   "property": "C142",
   "status": "partial",
   "theorems": [
    "Verif.Evaluate.input_accesses_partial",
    "Verif.Evaluate.output_accesses_partial",
    "Verif.Evaluate.psum_reads_false"
   ],
   "note": "proved for operands without partially relevant dimensions and spatial mappings without truncation (see MapInfo.transfer_false and MapInfo.output_traffic_false for the others); false for partial sums that are read back (psum_reads_false)"
  },
  {
   "property": "C143",
   "status": "partial",
   "theorems": [
    "Verif.Evaluate.input_utilization_partial",
    "Verif.Evaluate.output_utilization_partial",
    "Verif.Evaluate.shared_utilization",
    "Verif.LayerNode.pr_size_exact_iff"
   ],
   "note": "exact exactly if the sizes of partially relevant dimensions are computed exactly (LayerNode.pr_size_exact_iff), for spatial mappings without truncation; sums over shared memories are proved without these conditions"
  },
  {
   "property": "C144",
   "status": "proved",
   "theorems": [
    "Verif.Evaluate.double_buffers_fit",
    "Verif.Evaluate.double_buffers_half",
    "Verif.Evaluate.double_buffers_full",
    "Verif.Buffer.double_buffer_alone",
    "Verif.Buffer.double_buffer_full"
   ],
   "note": ""
  },
  {
   "property": "C145",
   "status": "partial",
   "theorems": [
    "Verif.Search.search_partial",
    "Verif.Search.search_cycles",
    "Verif.Search.mapOrder_error",
    "Verif.Search.mapped",
    "Verif.Search.search_crash"
   ],
   "note": "that no evaluation divides by zero needs that no two movements of a port happen exactly once (search_crash); everything else is proved without this condition"
  },
  {
   "property": "C146",
   "status": "partial",
   "theorems": [
    "Verif.Search.found_fits",
    "Verif.Search.found_partial",
    "Verif.Search.found_buffers",
    "Verif.Search.final_overfull_false",
    "Verif.Search.fraction_overfull_false"
   ],
   "note": "proved for spatial mappings with whole factors, final outputs of at most as many bits as partial sums, and outputs without partially relevant dimensions; otherwise false (final_overfull_false, fraction_overfull_false), with fractions up to half an element per operand (found_partial)"
  },
  {
   "property": "C147",
   "status": "partial",
   "theorems": [
    "Verif.Whole.accelerator_ok",
    "Verif.Whole.task_ok",
    "Verif.Whole.run_partial",
    "Verif.Whole.write_only_crash"
   ],
   "note": "that no evaluation divides by zero needs that no two movements of a port happen exactly once (Search.search_crash); a port for reading is needed in memories whose costs are extracted automatically, which the validator does not check (write_only_crash)"
  },
  {
   "property": "C148",
   "status": "proved",
   "theorems": [
    "Verif.Whole.run_utilization",
    "Verif.Conversion.convert_kept"
   ],
   "note": ""
  },
  {
   "property": "C149",
   "status": "partial",
   "theorems": [
    "Verif.Whole.run_fits"
   ],
   "note": "outputs that are indexed by a sum of dimensions are left out; without the other conditions false (C146: Search.fraction_overfull_false, Search.final_overfull_false)"
  },
  {
   "property": "C150",
   "status": "partial",
   "theorems": [
    "Verif.SpatialGen.generate_total",
    "Verif.SpatialGen.generate_narrow_crash",
    "Verif.SpatialGen.generate_zero_false"
   ],
   "note": "without the conditions on the innermost memories false: a port narrower than an element stops the program (generate_narrow_crash), and a memory smaller than an element gives unrollings of zero which the conversion rejects (generate_zero_false)"
  },
  {
   "property": "C151",
   "status": "partial",
   "theorems": [
    "Verif.Net.generated",
    "Verif.Net.network_partial",
    "Verif.Net.network_answer",
    "Verif.Anneal.free_answer_iff"
   ],
   "note": "that no run stops with an exception is not guaranteed: a generated mapping may have no loop order that fits (Pipeline.api_one_bad_false) and an evaluation may divide by zero (Search.search_crash); without limit on loops and orderings of the user, and if no two movements of a port happen exactly once, a call has an answer exactly if every mapping has an order that fits (free_answer_iff)"
  },
  {
   "property": "C152",
   "status": "partial",
   "theorems": [
    "Verif.Net.network_bounds",
    "Verif.Whole.run_energy",
    "Verif.Whole.run_paid"
   ],
   "note": "the bound on the latency needs that no two movements of a port happen exactly once (Evaluate.ordered_false)"
  },
  {
   "property": "C153",
   "status": "partial",
   "theorems": [
    "Verif.Call.workload_written",
    "Verif.Call.accelerator_written",
    "Verif.Call.call_partial",
    "Verif.Call.call_bounds",
    "Verif.Call.criterion_refused",
    "Verif.Free.file_answer_iff"
   ],
   "note": "as C151 and C152: a generated mapping may have no loop order that fits (Pipeline.api_one_bad_false) and an evaluation may divide by zero (Search.search_crash); the bound on the latency needs that no two movements of a port happen exactly once (Evaluate.ordered_false); arrays for in-memory computing, loop orders given by the user and mixed spatial mappings are outside; exactly when there is an answer, under the conditions of C151, is file_answer_iff"
  },
  {
   "property": "C154",
   "status": "partial",
   "theorems": [
    "Verif.OnnxCall.workload_model",
    "Verif.OnnxCall.nothing_left_out",
    "Verif.OnnxCall.call_partial",
    "Verif.OnnxCall.call_bounds",
    "Verif.OnnxCall.criterion_refused",
    "Verif.Free.onnx_answer_iff"
   ],
   "note": "as C153; the kernel of a convolution is taken with its height along the width of the image (Onnx finding of C53), which changes the result unless both axes agree but not the number of multiplications; nodes of control flow (If) and pooling, and tensors without stored shape, are outside; exactly when there is an answer, under the conditions of C151, is onnx_answer_iff"
  },
  {
   "property": "C155",
   "status": "proved",
   "theorems": [
    "Verif.Compare.layers_alone",
    "Verif.Compare.layers_together",
    "Verif.Compare.layers_order"
   ],
   "note": ""
  },
  {
   "property": "C156",
   "status": "partial",
   "theorems": [
    "Verif.Compare.criterion_answer",
    "Verif.Compare.criterion_best",
    "Verif.Compare.Ex.edp_network_false"
   ],
   "note": "false for EDP of several layers (edp_network_false): the product is minimised for every layer, not for the network; energy and latency for all networks and EDP for one layer are proved"
  },
  {
   "property": "C157",
   "status": "partial",
   "theorems": [
    "Verif.Compare.complete_orders_partial",
    "Verif.Compare.Ex.set_order_false"
   ],
   "note": "false in general (set_order_false); proved for complete spatial mappings that fit"
  },
  {
   "property": "C158",
   "status": "partial",
   "theorems": [
    "Verif.Compare.more_mappings_partial",
    "Verif.Compare.Ex.more_mappings_false",
    "Verif.Compare.Ex.more_mappings_crash"
   ],
   "note": "false in general (more_mappings_false, more_mappings_crash); proved for innermost memories that hold an element for every unit they serve"
  },
  {
   "property": "C159",
   "status": "partial",
   "theorems": [
    "Verif.Compare.large_limit_partial",
    "Verif.Compare.Ex.larger_limit_false"
   ],
   "note": "false in general (larger_limit_false); proved that limits from the sum of the logarithms of the sizes on have no effect"
  },
  {
   "property": "C160",
   "status": "partial",
   "theorems": [
    "Verif.Compare.prices_latency",
    "Verif.Compare.prices_energy",
    "Verif.Compare.Ex.larger_memory_false",
    "Verif.Compare.Ex.larger_bandwidth_false"
   ],
   "note": "proved for prices; false for larger memories (larger_memory_false) and wider ports (larger_bandwidth_false)"
  },
  {
   "property": "C161",
   "status": "proved",
   "theorems": [
    "Verif.Compare.prices_unit"
   ],
   "note": ""
  },
  {
   "property": "C162",
   "status": "partial",
   "theorems": [
    "Verif.Whole.run_obeys",
    "Verif.Whole.run_complete",
    "Verif.Whole.Ex.sized_ordering_false",
    "Verif.Whole.Ex.repeated_ordering_crash",
    "Verif.Whole.Ex.nothing_ordered_crash",
    "Verif.Whole.Ex.small_memory_crash",
    "Verif.Whole.Ex.single_ordering_crash"
   ],
   "note": "proved for orderings without numbers of iterations and for complete ones; false for others (sized_ordering_false), and orderings that can be satisfied are refused (repeated_ordering_crash, nothing_ordered_crash)"
  },
  {
   "property": "C163",
   "status": "partial",
   "theorems": [
    "Verif.Compare.ordering_partial",
    "Verif.Anneal.ordering_best",
    "Verif.Free.file_ordering_best",
    "Verif.Free.onnx_ordering_best"
   ],
   "note": "for orderings without numbers of iterations and layers with more operations than the array has units; false otherwise (Whole.Ex.nothing_ordered_crash is the converse: an ordering removes the only answer); a division by zero in an additional evaluation is not excluded (Search.search_crash) unless no two movements of a port happen exactly once (ordering_best, without limit on loops; file_ordering_best and onnx_ordering_best for calls on files)"
  },
  {
   "property": "C164",
   "status": "partial",
   "theorems": [
    "Verif.Anneal.annealed_answer",
    "Verif.Anneal.annealed_bounds",
    "Verif.Anneal.exhaustive_partial",
    "Verif.Anneal.exhaustive_best",
    "Verif.Anneal.Ex.latency_false",
    "Verif.Anneal.Ex.ordering_false",
    "Verif.Anneal.Ex.limit_false",
    "Verif.Anneal.Ex.unrolled_crash",
    "Verif.Anneal.annealed_outcome",
    "Verif.Anneal.annealed_works",
    "Verif.Anneal.unrolled_refused"
   ],
   "note": "proved: the answers are evaluations of orders of all loops, the bounds, the exceptions and when they are raised (annealed_outcome), when there is an answer whatever is drawn (annealed_works), and no better than the exhaustive search without limit and orderings (exhaustive_partial up to divisions by zero, exhaustive_best under a condition that excludes them); false: the criterion (latency_false), the ordering (ordering_false) and the limit (limit_false) of the user are not obeyed, and a layer without temporal loops has no answer (unrolled_crash)"
  },
  {
   "property": "C165",
   "status": "partial",
   "theorems": [
    "Verif.Reuse.layers_alone",
    "Verif.Reuse.layers_together",
    "Verif.Reuse.kept_exact",
    "Verif.Reuse.handed_over",
    "Verif.Reuse.kept_room",
    "Verif.Reuse.kept_room_all",
    "Verif.Reuse.pruned_file",
    "Verif.Reuse.call_bounds",
    "Verif.Reuse.call_outcome",
    "Verif.Reuse.Ex.duplicates_crash",
    "Verif.Reuse.Ex.never_loaded_false",
    "Verif.Reuse.Ex.two_outputs_crash",
    "Verif.Reuse.Ex.weights_lost_crash"
   ],
   "note": "proved: the answer as sum over single layers (layers_alone, layers_together), the memories kept (kept_exact), that they form a proper file (pruned_file, for files listed in the order of the levels) and, for networks below a memory for everything, hand-over, bounds and when there is an answer (if all layers have constant weights, or the memories are listed from the array outwards, the weights of layers with constants first), and room for the data (kept_room for networks with constant weights, kept_room_all for layers of any kind); false: a call that answers without these stages may fail with them (duplicates_crash, two_outputs_crash, weights_lost_crash), and data of the network are not moved from and to the main memory (never_loaded_false); the room counted for a layer without constants leaves out the weights of the others (C81)"
  },
  {
   "property": "C166",
   "status": "partial",
   "theorems": [
    "Verif.ImcCall.imc_answer",
    "Verif.ImcCall.imc_outcome",
    "Verif.ImcCall.imc_bounds",
    "Verif.ImcCall.imc_peak",
    "Verif.ImcCall.imc_area",
    "Verif.ImcCall.Ex.area_first_false",
    "Verif.ImcCall.Ex.precharge_twice_false",
    "Verif.ImcCall.Ex.across_crash"
   ],
   "note": "proved: the answer (imc_answer), when there is one (imc_outcome), bounds (imc_bounds), imc_peak (if no dimension that the weights do not depend on is unrolled along the wordlines), and that the area is between that of the array and of the accelerator (imc_area); false: the area is that of the accelerator (area_first_false), every weight used is precharged (precharge_twice_false), the array adds no way to fail (across_crash)"
  },
  {
   "property": "C167",
   "status": "partial",
   "theorems": [
    "Verif.Shipped.accelerators_ok",
    "Verif.Shipped.pairs_ok",
    "Verif.Shipped.forms_ok",
    "Verif.Shipped.shipped",
    "Verif.Shipped.Ex.doubled_ports_false",
    "Verif.Shipped.Ex.foreign_mapping_crash"
   ],
   "note": "proved for eight accelerator files and the mapping files that fit them (accelerators_ok, pairs_ok, forms_ok, shipped); the ResNet-18 and matrix product files of the tool are cases; missing: entries that list numbers of iterations (one in tpu_like.yaml); false: generic_array_cacti.yaml declares movements of the results for two ports (doubled_ports_false), and a mapping file for another array ends in a KeyError (foreign_mapping_crash)"
  },
  {
   "property": "C168",
   "status": "partial",
   "theorems": [
    "Verif.Shipped.shipped_onnx",
    "Verif.Shipped.onnx_fits"
   ],
   "note": "proved for eight accelerator files and the mapping files that fit them; AlexNet and ResNet-18 of the tool are cases; missing: products that use more than two computed tensors or have more than two leading dimensions, entries that list numbers of iterations, and the latency bound without its condition"
  },
  {
   "property": "C169",
   "status": "partial",
   "theorems": [
    "Verif.LocalCall.local_bounds",
    "Verif.LocalCall.local_outcome_partial",
    "Verif.LocalCall.shipped_local",
    "Verif.LocalCall.shipped_fit",
    "Verif.LocalCall.local_room"
   ],
   "note": "proved: what the search sees of the files, hand-over, room for the data (local_room, under a condition on the sizes that C17 explains), energy and latency bound and when there is an answer, for any accelerator file listed from the array outwards; shipped_local for eight accelerator files of the tool; ResNet-18 of the tool is a case; missing: ONNX models, layers whose only constant is the input, and the latency bound without its condition"
  },
  {
   "property": "C170",
   "status": "partial",
   "theorems": [
    "Verif.ImcFiles.array_made",
    "Verif.ImcFiles.imc_file",
    "Verif.ImcFiles.imc_file_bounds",
    "Verif.ImcFiles.imc_file_outcome_partial",
    "Verif.ImcFiles.files_ok",
    "Verif.ImcFiles.shipped_imc",
    "Verif.Followed.imc_file_outcome",
    "Verif.Followed.shipped_imc_outcome"
   ],
   "note": "proved: what the file says is what the array has; bounds, clock and area of answers; skipped layers; the two arrays of the tool with every fitting mapping file and workload of the usual forms, ResNet-18 is a case; the outcome of calls for mapping files that only unroll or hint dimensions of the weights along the wordlines, as the one of the tool does; missing: the outcome for other mapping files (it is known to be a KeyError in a case, C166), and ONNX models"
  },
  {
   "property": "C171",
   "status": "proved",
   "theorems": [
    "Verif.Followed.tried_follow",
    "Verif.Followed.call_follows",
    "Verif.Followed.local_follows",
    "Verif.Followed.shipped_follows",
    "Verif.Followed.onnx_follows"
   ],
   "note": "for all files that fit together (LayerFits, FileOk); onnx_follows for ONNX models; shipped_follows for the accelerator files of the tool; local_follows for data in lower memories and in-memory-computing arrays"
  },
  {
   "property": "C172",
   "status": "proved",
   "theorems": [
    "Verif.Foreign.layer_refused",
    "Verif.Foreign.network_refused",
    "Verif.Foreign.call_refused",
    "Verif.Foreign.maps_ok",
    "Verif.Foreign.shipped_refused",
    "Verif.Foreign.mismatched",
    "Verif.Foreign.model_refused",
    "Verif.Foreign.shipped_onnx_refused",
    "Verif.Foreign.never_generated",
    "Verif.Foreign.local_network_refused",
    "Verif.Foreign.imc_network_refused",
    "Verif.Foreign.local_refused",
    "Verif.Foreign.imc_refused",
    "Verif.Foreign.imc_maps_ok",
    "Verif.Foreign.imc_mismatched",
    "Verif.Foreign.shipped_local_refused",
    "Verif.Foreign.shipped_imc_refused"
   ],
   "note": "layer_refused and network_refused for any layer descriptions; call_refused on the contents of files, model_refused and shipped_onnx_refused for ONNX models; mismatched lists the files of the tool for which shipped_refused applies; local_refused, imc_refused and their shipped_ versions: no answer with data in lower memories and for in-memory-computing arrays, either (which exception is not told there)"
  },
  {
   "property": "C173",
   "status": "partial",
   "theorems": [
    "Verif.AnnealFiles.criterion_refused",
    "Verif.AnnealFiles.file_answer",
    "Verif.AnnealFiles.onnx_answer",
    "Verif.AnnealFiles.file_bounds",
    "Verif.AnnealFiles.onnx_bounds",
    "Verif.AnnealFiles.exhaustive_partial",
    "Verif.AnnealFiles.file_refused",
    "Verif.AnnealFiles.limit_ignored",
    "Verif.AnnealFiles.ordering_ignored",
    "Verif.AnnealFiles.file_ordering_ignored",
    "Verif.AnnealFiles.onnx_ordering_ignored",
    "Verif.AnnealFiles.shipped_annealed",
    "Verif.AnnealFiles.shipped_onnx_annealed",
    "Verif.AnnealFiles.file_outcome",
    "Verif.AnnealFiles.onnx_outcome",
    "Verif.AnnealFiles.shipped_annealed_outcome",
    "Verif.AnnealFiles.file_works",
    "Verif.AnnealFiles.onnx_works",
    "Verif.AnnealFiles.file_exhaustive_best",
    "Verif.AnnealFiles.onnx_exhaustive_best"
   ],
   "note": "proved about answers and exceptions, for every sequence of random numbers with which shuffling permutes; an exception in a process of the engine stands for a call that waits for ever (C65); a division by zero is traced to its causes (Anneal.Zero), without a condition on the files that excludes them; missing: the latency bound without its condition, the comparison with the exhaustive engine without either the case of a division by zero (exhaustive_partial) or the condition that no two movements of a port happen exactly once (file_exhaustive_best, onnx_exhaustive_best), in-memory-computing arrays and data in lower memories"
  }
 ]
}