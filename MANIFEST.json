{
 "claims": [
  {
   "property": "C01",
   "status": "partial",
   "theorems": [
    "PB.CardProps.C01_lt_is_intended_order",
    "PB.CardProps.C01_lt_strict_order",
    "PB.CardProps.C01_gt_violated",
    "PB.CardProps.C01_mirror_violated",
    "PB.CardProps.C01_eq_total_violated",
    "PB.CardProps.C01_eq_raises_iff",
    "PB.CardProps.C01_eq_partial",
    "PB.CardProps.C01_finite_partial",
    "PB.CardProps.C01_le_refl_violated",
    "PB.CardProps.C01_eqInt_spec"
   ],
   "note": "The code violates the property; see the _violated theorems. < is the intended strict order, == and the finite case are proved."
  },
  {
   "property": "C02",
   "status": "partial",
   "theorems": [
    "PB.CardProps.C02_add",
    "PB.CardProps.C02_mul",
    "PB.CardProps.C02_sub",
    "PB.CardProps.C02_div",
    "PB.CardProps.C02_unknown_absorbs",
    "PB.CardProps.C02_nonneg_violated",
    "PB.CardProps.C02_nonneg_partial"
   ],
   "note": "All four operations proved; non-negativity is violated by subtraction."
  },
  {
   "property": "C03",
   "status": "partial",
   "theorems": [
    "PB.RefProps.C03_eq_equivalence",
    "PB.RefProps.C03_eq_implies_hash",
    "PB.RefProps.C03_virtual_irrelevant",
    "PB.RefProps.C03_lt_strict_weak",
    "PB.RefProps.C03_lt_respects_eq",
    "PB.RefProps.C03_col_eq_hash",
    "PB.RefProps.C03_col_eq_equivalence",
    "PB.RefProps.C03_eq_exact",
    "PB.RefProps.C03_lt_exact",
    "PB.RefProps.C03_col_eq_exact",
    "PB.RefProps.C03_col_lt_exact",
    "PB.RefProps.C03_col_lt_strict_order",
    "PB.RefProps.C03_col_lt_weak_violated"
   ],
   "note": "Equality and order of tables and columns characterised exactly, laws proved; column < is a strict order but not a weak order on bound and unbound columns (C03_col_lt_weak_violated)."
  },
  {
   "property": "C04",
   "status": "partial",
   "theorems": [
    "PB.RefProps.C04_dropAlias",
    "PB.RefProps.C04_makeVirtual",
    "PB.RefProps.C04_withAlias_violated",
    "PB.RefProps.C04_update_violated",
    "PB.RefProps.C04_partial",
    "PB.RefProps.C04_withAlias_exact"
   ],
   "note": "with_alias/update violate the expected law for virtual tables; proved exactly."
  },
  {
   "property": "C05",
   "status": "proved",
   "theorems": [
    "PB.CollProps.C05_powerset_mem",
    "PB.CollProps.C05_powerset_length",
    "PB.CollProps.C05_powerset_nodup",
    "PB.CollProps.C05_powerset_subset_unique",
    "PB.CollProps.C05_powerset_sorted"
   ],
   "note": ""
  },
  {
   "property": "C06",
   "status": "proved",
   "theorems": [
    "PB.CollProps.C06_window_size",
    "PB.CollProps.C06_window_complete",
    "PB.CollProps.C06_window_count",
    "PB.CollProps.C06_window_position",
    "PB.CollProps.C06_pairs_mem",
    "PB.CollProps.C06_pairs_unordered",
    "PB.CollProps.C06_pairs_irrefl",
    "PB.CollProps.C06_pairs_nodup",
    "PB.CollProps.C06_setUnion_mem"
   ],
   "note": ""
  },
  {
   "property": "C07",
   "status": "partial",
   "theorems": [
    "PB.CollProps.C07_fifo_violated",
    "PB.CollProps.C07_fifo_partial",
    "PB.CollProps.C07_pop_partial"
   ],
   "note": "pop of a falsy payload does not remove it (C07_fifo_violated); proved for truthy payloads."
  },
  {
   "property": "C08",
   "status": "partial",
   "theorems": [
    "PB.CollProps.C08_capacity",
    "PB.CollProps.C08_no_error",
    "PB.CollProps.C08_extend_violated",
    "PB.CollProps.C08_most_recent_partial"
   ],
   "note": "Capacity bound proved; SizedQueue.extend keeps the wrong elements for overlong input (violated)."
  },
  {
   "property": "C09",
   "status": "proved",
   "theorems": [
    "PB.DictProps.C09_difference",
    "PB.DictProps.C09_intersection",
    "PB.DictProps.C09_merge_plain",
    "PB.DictProps.C09_merge_updater",
    "PB.DictProps.C09_generateMulti",
    "PB.DictProps.C09_aggregate"
   ],
   "note": ""
  },
  {
   "property": "C10",
   "status": "partial",
   "theorems": [
    "PB.DictProps.C10_invertMulti_violated",
    "PB.DictProps.C10_invertMulti_partial",
    "PB.DictProps.C10_invert_partial"
   ],
   "note": "invert_multi loses keys that share an equal value list."
  },
  {
   "property": "C11",
   "status": "proved",
   "theorems": [
    "PB.VerProps.C11_lt_spec",
    "PB.VerProps.C11_eq_spec",
    "PB.VerProps.C11_trichotomy",
    "PB.VerProps.C11_lt_trans",
    "PB.VerProps.C11_le_ge"
   ],
   "note": ""
  },
  {
   "property": "C12",
   "status": "partial",
   "theorems": [
    "PB.DepProps.C12_order_violated",
    "PB.DepProps.C12_once_violated",
    "PB.DepProps.C12_some_dependency_partial",
    "PB.DepProps.C12_forest_order_partial",
    "PB.DepProps.C12_yields_reachable",
    "PB.DepProps.C12_yields_all",
    "PB.DepProps.C12_once_partial",
    "PB.DepProps.C12_history_order_partial"
   ],
   "note": "Iteration is not in dependency order for nodes with two or more dependencies (C12_order_violated). Proved: yields exactly all nodes, at most once per registration, after at least one dependency; full order if every node has at most one dependency."
  },
  {
   "property": "C13",
   "status": "proved",
   "theorems": [
    "PB.NumProps.C13_init",
    "PB.NumProps.C13_step",
    "PB.NumProps.C13_history"
   ],
   "note": ""
  },
  {
   "property": "C14",
   "status": "partial",
   "theorems": [
    "PB.NumProps.C14_linearizable",
    "PB.NumProps.C14_increments",
    "PB.NumProps.C14_no_deadlock_partial",
    "PB.NumProps.C14_pos_deadlock_violated",
    "PB.NumProps.C14_value_update_violated"
   ],
   "note": "Linearisability and absence of lost increments proved for all schedules; +a deadlocks and a.value += n is not atomic (violated)."
  },
  {
   "property": "C15",
   "status": "proved",
   "theorems": [
    "PB.WalkProps.C15_random_walk"
   ],
   "note": ""
  },
  {
   "property": "C16",
   "status": "partial",
   "theorems": [
    "PB.HintProps.C16_table_partial",
    "PB.HintProps.C16_set_partial",
    "PB.HintProps.C16_singleton_violated"
   ],
   "note": "Lookup by a singleton set always misses (C16_singleton_violated); tables and sets of two or more tables proved for all histories."
  },
  {
   "property": "C17",
   "status": "proved",
   "theorems": [
    "PB.HintProps.C17_merge",
    "PB.HintProps.C17_clone_independent"
   ],
   "note": ""
  },
  {
   "property": "C18",
   "status": "partial",
   "theorems": [
    "PB.HintProps.C18_enabled",
    "PB.HintProps.C18_scan_violated",
    "PB.HintProps.C18_join_violated",
    "PB.HintProps.C18_inter_partial"
   ],
   "note": "overwrite_fine_grained_selection never removes scan/join assignments (violated); global set and intermediates proved."
  },
  {
   "property": "C19",
   "status": "partial",
   "theorems": [
    "PB.HintProps.C19_merge_partial",
    "PB.HintProps.C19_mode_violated",
    "PB.HintProps.C19_dropWorkers"
   ],
   "note": "merge_with drops execution_mode (violated); the other parameters and drop_workers proved."
  },
  {
   "property": "C20",
   "status": "proved",
   "theorems": [
    "PB.JTProps.C20_tables",
    "PB.JTProps.C20_itertables",
    "PB.JTProps.C20_len",
    "PB.JTProps.C20_iternodes_mem",
    "PB.JTProps.C20_iternodes_nodup",
    "PB.JTProps.C20_iternodes_preorder",
    "PB.JTProps.C20_iterjoins_mem",
    "PB.JTProps.C20_iterjoins_nodup",
    "PB.JTProps.C20_iterjoins_postorder",
    "PB.JTProps.C20_lookup_sound",
    "PB.JTProps.C20_lookup_complete",
    "PB.JTProps.C20_lookup_exact",
    "PB.JTProps.C20_contains"
   ],
   "note": ""
  },
  {
   "property": "C21",
   "status": "proved",
   "theorems": [
    "PB.JTProps.C21_join",
    "PB.JTProps.C21_empty",
    "PB.JTProps.C21_linear",
    "PB.JTProps.C21_sequence"
   ],
   "note": ""
  },
  {
   "property": "C22",
   "status": "partial",
   "theorems": [
    "PB.JTProps.C22_linear_violated",
    "PB.JTProps.C22_linear_partial",
    "PB.JTProps.C22_baseJoin",
    "PB.JTProps.C22_emptyJoin_violated"
   ],
   "note": "is_linear only inspects the root (C22_linear_violated); the empty tree claims to be a join. is_base_join proved."
  },
  {
   "property": "C23",
   "status": "proved",
   "theorems": [
    "PB.QPProps.C23_strip",
    "PB.QPProps.C23_tables"
   ],
   "note": "Extraction equals the specification relation Strip for plans whose scans have base tables; tables and leaf order are proved for well-formed plans (Clean)."
  },
  {
   "property": "C24",
   "status": "partial",
   "theorems": [
    "PB.QPProps.C24_operators_partial",
    "PB.QPProps.C24_parameterised_violated",
    "PB.QPProps.C24_workers_violated",
    "PB.QPProps.C24_cardinalities_partial"
   ],
   "note": "Violated for parameterised inner joins (the inner join has the same tables key and overwrites the outer one) and for include_workers (not passed on). Proved for well-formed plans."
  },
  {
   "property": "C25",
   "status": "partial",
   "theorems": [
    "PB.QPProps.C25_only",
    "PB.QPProps.C25_idempotent",
    "PB.QPProps.C25_total",
    "PB.QPProps.C25_jointree",
    "PB.QPProps.C25_nodes",
    "PB.QPProps.C25_subplan_violated",
    "PB.QPProps.C25_tables_partial"
   ],
   "note": "canonical() drops subplans attached to auxiliary nodes (violated); the rest is proved."
  },
  {
   "property": "C26",
   "status": "partial",
   "theorems": [
    "PB.QPProps.C26_iter",
    "PB.QPProps.C26_findAll",
    "PB.QPProps.C26_findFirst_partial",
    "PB.QPProps.C26_findFirst_sound",
    "PB.QPProps.C26_subplan_violated",
    "PB.QPProps.C26_threeChildren_violated"
   ],
   "note": "find_first_node skips subplans of nodes without two children and fails for three children (violated)."
  },
  {
   "property": "C27",
   "status": "partial",
   "theorems": [
    "PB.EnumerateProps.C27_bushy_partial",
    "PB.EnumerateProps.C27_sound",
    "PB.EnumerateProps.C27_linear_violated",
    "PB.EnumerateProps.C27_query_partial"
   ],
   "note": "Bushy join orders: sound and complete, each order once, for any iteration order of the graph, assuming distinct join orders have distinct hash values and no table is joined with itself. Left-deep and right-deep enumeration yields nothing (violated)."
  },
  {
   "property": "C28",
   "status": "partial",
   "theorems": [
    "PB.DynProgProps.C28_optimal_partial",
    "PB.DynProgProps.C28_raises",
    "PB.DynProgProps.C28_query_partial",
    "PB.DynProgProps.C28_index_nlj_violated",
    "PB.DynProgProps.C28_not_monotone_violated"
   ],
   "note": "Index nested-loop joins are never considered: C28_index_nlj_violated. The partial theorems hold for the search space without them. Monotone costs are needed (C28_not_monotone_violated). C28_query_partial instantiates the connectedness test with the model of joins_tables."
  },
  {
   "property": "C29",
   "status": "partial",
   "theorems": [
    "PB.PgDynProgProps.C29_kept",
    "PB.PgDynProgProps.C29_cost_partial",
    "PB.PgDynProgProps.C29_unsorted",
    "PB.PgDynProgProps.C29_sorted_lost_violated",
    "PB.PgDynProgProps.C29_evicted_violated",
    "PB.PgDynProgProps.C29_fuzz_violated"
   ],
   "note": "Proved: kept paths are candidates, one is kept as soon as a candidate has finite cost, cost domination up to 1 % for paths with at most one sort key, and exact minimality without sort keys. The sort-order part is violated: C29_sorted_lost_violated, C29_evicted_violated; the fuzz factor adds up for longer sort keys: C29_fuzz_violated."
  },
  {
   "property": "C30",
   "status": "partial",
   "theorems": [
    "PB.JoinGraphProps.C30_history",
    "PB.JoinGraphProps.C30_paths",
    "PB.JoinGraphProps.C30_initial_paths",
    "PB.JoinGraphProps.C30_progress",
    "PB.JoinGraphProps.C30_is_available",
    "PB.JoinGraphProps.C30_pk_fk",
    "PB.JoinGraphProps.C30_n_m",
    "PB.JoinGraphProps.C30_n_m_paths",
    "PB.JoinGraphProps.C30_free_n_m_partial",
    "PB.JoinGraphProps.C30_paths_for",
    "PB.JoinGraphProps.C30_partners",
    "PB.JoinGraphProps.C30_deep_pk",
    "PB.JoinGraphProps.C30_deep_pk_complete_partial",
    "PB.JoinGraphProps.C30_free_n_m_violated",
    "PB.JoinGraphProps.C30_deep_pk_twice_violated",
    "PB.JoinGraphProps.C30_deep_pk_missed_violated"
   ],
   "note": "All histories of mark_joined. Violated: composite join conditions can be reported as free n:m joins without an available n:m path; deep primary key joins can contain a table twice and can miss a table that is also joined in another way (C30_deep_pk_missed_violated; complete otherwise, C30_deep_pk_complete_partial)."
  },
  {
   "property": "C31",
   "status": "partial",
   "theorems": [
    "PB.PredProps.C31_filters_joins_sound",
    "PB.PredProps.C31_filters_joins_partial",
    "PB.PredProps.C31_filters_joins_violated"
   ],
   "note": "Filters and joins imply the WHERE predicate for every predicate; the converse is proved if no top-level disjunction mixes joins and filters. Mixed disjunctions are split into a filter and a join that are both required (C31_filters_joins_violated)."
  },
  {
   "property": "C32",
   "status": "partial",
   "theorems": [
    "PB.PredProps.C32_binary_is_join",
    "PB.PredProps.C32_unary_is_join",
    "PB.PredProps.C32_between_is_join_partial",
    "PB.PredProps.C32_in_is_join_partial",
    "PB.PredProps.C32_compound_is_join",
    "PB.PredProps.C32_exclusive",
    "PB.PredProps.C32_binary_partners",
    "PB.PredProps.C32_between_partners_partial",
    "PB.PredProps.C32_in_partners_partial",
    "PB.PredProps.C32_violated"
   ],
   "note": "Exact for comparisons and unary predicates; for BETWEEN and IN proved if the tested expression contains a column. C32_violated: 5 BETWEEN t1.x AND t2.y is classified as a filter. CASE, window functions and FILTER conditions are excluded (see C83)."
  },
  {
   "property": "C33",
   "status": "partial",
   "theorems": [
    "PB.PredProps.C33_join_partners_partial",
    "PB.PredProps.C33_contains",
    "PB.PredProps.C33_violated"
   ],
   "note": "Proved if all base predicates are joins. join_partners() raises for conjunctions or disjunctions with a filter, and then QueryPredicates cannot be constructed (C33_violated)."
  },
  {
   "property": "C34",
   "status": "proved",
   "theorems": [
    "PB.QueryPredsProps.C34_joins_tables",
    "PB.QueryPredsProps.C34_linked_regular"
   ],
   "note": "joins_tables holds iff the tables are connected by joins (by induction over paths); raises only for the empty set."
  },
  {
   "property": "C35",
   "status": "proved",
   "theorems": [
    "PB.QueryPredsProps.C35_joins_between_complete",
    "PB.QueryPredsProps.C35_joins_between_sound"
   ],
   "note": "Completeness for joins that compare only the two tables and soundness for disjoint sets, for every construction order of the join map. Joins with further tables: see C88."
  },
  {
   "property": "C36",
   "status": "partial",
   "theorems": [
    "PB.EquivProps.C36_same_class",
    "PB.EquivProps.C36_classes_disjoint",
    "PB.EquivProps.C36_generated_partial",
    "PB.EquivProps.C36_generated_violated"
   ],
   "note": "Classes are the transitive closure. Generated predicates equivalent if equi-joins compare plain columns; violated for equi-joins over expressions (a.x + 1 = b.y yields a.x = b.y)."
  },
  {
   "property": "C37",
   "status": "partial",
   "theorems": [
    "PB.TransformProps.C37_add_ec_partial",
    "PB.TransformProps.C37_violated"
   ],
   "note": "add_ec_predicates replaces all joins by equivalence-class predicates: violated as soon as a query has a join that is not an equality of two columns (it is dropped). Proved if all joins are column equalities."
  },
  {
   "property": "C38",
   "status": "partial",
   "theorems": [
    "PB.TransformProps.C38_flatten_partial",
    "PB.TransformProps.C38_flatten_violated"
   ],
   "note": "Violated: a nested AND that repeats a single OR is unpacked into its alternatives, one that repeats a NOT fails. Proved otherwise (truth value, flatness, exact conjuncts) for every set iteration order."
  },
  {
   "property": "C39",
   "status": "partial",
   "theorems": [
    "PB.TransformProps.C39_fragment_tables_partial",
    "PB.TransformProps.C39_fragment_partial",
    "PB.TransformProps.C39_fragment_references",
    "PB.TransformProps.C39_fragment_violated"
   ],
   "note": "Violated for ORs that are only partly covered (not implied) and for NOT (TypeError). Proved otherwise: exact base predicates, tables, equivalence to the covered conjuncts."
  },
  {
   "property": "C40",
   "status": "partial",
   "theorems": [
    "PB.TransformProps.C40_remove_total",
    "PB.TransformProps.C40_remove_every_partial",
    "PB.TransformProps.C40_remove_absent",
    "PB.TransformProps.C40_remove_conjunct_partial",
    "PB.TransformProps.C40_remove_violated",
    "PB.TransformProps.C40_replace"
   ],
   "note": "Removing below OR/NOT changes the meaning, compound targets can survive (violated). Proved for conjunct occurrences and base predicates; replacement proved in full."
  },
  {
   "property": "C41",
   "status": "partial",
   "theorems": [
    "PB.RenameProps.C41_rename_partial",
    "PB.RenameProps.C41_identity_partial",
    "PB.RenameProps.C41_columns_partial",
    "PB.RenameProps.C41_eval_partial",
    "PB.RenameProps.C41_rename_violated"
   ],
   "note": "FILTER of functions is dropped, n-ary arithmetic and simple CASE are rejected (violated). Proved for all other expressions: equals simultaneous substitution, evaluation lemma, identity."
  },
  {
   "property": "C42",
   "status": "partial",
   "theorems": [
    "PB.ClausesProps.C42_add_partial",
    "PB.ClausesProps.C42_add_violated",
    "PB.ClausesProps.C42_drop_partial",
    "PB.ClausesProps.C42_drop_violated",
    "PB.ClausesProps.C42_replace"
   ],
   "note": "Clauses are modelled by their type and an opaque payload. replace_clause is proved in full. add_clause is proved for clauses that fit the kind of query; for others the code is wrong: adding EXCEPT to a UNION query is silently ignored (C42_add_violated). drop_clause is proved by exact type; dropping the abstract FROM type leaves implicit and explicit FROM clauses in place (C42_drop_violated)."
  },
  {
   "property": "C43",
   "status": "partial",
   "theorems": [
    "PB.ValidationProps.C43_query_partial",
    "PB.ValidationProps.C43_report_partial",
    "PB.ValidationProps.C43_compound",
    "PB.ValidationProps.C43_same_name_violated",
    "PB.ValidationProps.C43_first_empty_violated",
    "PB.ValidationProps.C43_database_violated",
    "PB.ValidationProps.C43_database_partial"
   ],
   "note": "Accepting queries and reporting reasons: proved for checks whose equality is faithful (equal checks behave equally) and a non-empty first argument. Violated for checks of the same class and name, for an empty first argument, and for database systems (a compound check accepts every system)."
  },
  {
   "property": "C44",
   "status": "partial",
   "theorems": [
    "PB.ValidationProps.C44_cross_product_partial",
    "PB.ValidationProps.C44_cross_product_violated",
    "PB.ValidationProps.C44_no_predicates_violated"
   ],
   "note": "Proved for queries whose tables all occur in predicates and whose columns are bound. Violated for tables without predicates (cross product passes) and for queries without predicates (raises)."
  },
  {
   "property": "C45",
   "status": "partial",
   "theorems": [
    "PB.ValidationProps.C45_equi_join",
    "PB.ValidationProps.C45_conjunction_violated"
   ],
   "note": "Proved for the joins the query reports. Since these are already split at conjunctions, disallowing conjunctions has no effect on conjunctions in WHERE (violated)."
  },
  {
   "property": "C46",
   "status": "partial",
   "theorems": [
    "PB.PipelinesProps.C46_integrated",
    "PB.PipelinesProps.C46_integrated_database_partial",
    "PB.PipelinesProps.C46_integrated_violated",
    "PB.PipelinesProps.C46_textbook_partial",
    "PB.PipelinesProps.C46_textbook_database_partial",
    "PB.PipelinesProps.C46_textbook_violated",
    "PB.PipelinesProps.C46_multistage_partial",
    "PB.PipelinesProps.C46_multistage_succeeds_partial",
    "PB.PipelinesProps.C46_multistage_stale_violated",
    "PB.PipelinesProps.C46_multistage_database_violated",
    "PB.PipelinesProps.C46_multistage_database_partial"
   ],
   "note": "Proved for all histories: integrated pipelines optimise iff built since the last database change and the last algorithm supports the query; text book and multi-stage pipelines additionally reset on every change. Violations: integrated pipelines do not reset on use(); two different checks accept every database; set queries are never rejected by text book pipelines; multi-stage pipelines keep the checks of replaced stages."
  },
  {
   "property": "C47",
   "status": "partial",
   "theorems": [
    "PB.PipelinesProps.C47_integrity",
    "PB.PipelinesProps.C47_failed_call",
    "PB.PipelinesProps.C47_set_database",
    "PB.PipelinesProps.C47_set_generator",
    "PB.PipelinesProps.C47_add_step",
    "PB.PipelinesProps.C47_plan",
    "PB.PipelinesProps.C47_query_partial",
    "PB.PipelinesProps.C47_set_query_violated"
   ],
   "note": "Integrity, atomicity of failed calls, order of steps proved for all histories; query checks only for plain queries (set queries are never rejected)."
  },
  {
   "property": "C48",
   "status": "proved",
   "theorems": [
    "PB.WorkloadProps.C48_create",
    "PB.WorkloadProps.C48_union",
    "PB.WorkloadProps.C48_filter_by",
    "PB.WorkloadProps.C48_with_labels",
    "PB.WorkloadProps.C48_with_prefix",
    "PB.WorkloadProps.C48_difference_labels",
    "PB.WorkloadProps.C48_intersection_labels",
    "PB.WorkloadProps.C48_difference",
    "PB.WorkloadProps.C48_intersection",
    "PB.WorkloadProps.C48_map",
    "PB.WorkloadProps.C48_transform",
    "PB.WorkloadProps.C48_relabel",
    "PB.WorkloadProps.C48_pick_random",
    "PB.WorkloadProps.C48_head"
   ],
   "note": "The natural order of labels, random.sample and startswith are parameters. relabel/transform need unique new labels, as documented."
  },
  {
   "property": "C49",
   "status": "partial",
   "theorems": [
    "PB.WorkloadProps.C49_first",
    "PB.WorkloadProps.C49_last_partial",
    "PB.WorkloadProps.C49_last_violated"
   ],
   "note": "first is proved in full, last for n > 0; last(0) returns the entire workload (C49_last_violated)."
  },
  {
   "property": "C50",
   "status": "partial",
   "theorems": [
    "PB.WorkloadProps.C50_shuffle",
    "PB.WorkloadProps.C50_ordered",
    "PB.WorkloadProps.C50_shuffle_ordered",
    "PB.WorkloadProps.C50_iteration_violated"
   ],
   "note": "entries(), labels() and queries() follow the shuffled order. Iterating over the workload itself follows the underlying dictionary instead (C50_iteration_violated)."
  },
  {
   "property": "C51",
   "status": "partial",
   "theorems": [
    "PB.WorkloadProps.C51_read_raise",
    "PB.WorkloadProps.C51_read_partial",
    "PB.WorkloadProps.C51_lenient_violated",
    "PB.WorkloadProps.C51_lenient_wrong_query_violated"
   ],
   "note": "Proved for on_error=raise and for directories without errors. With warn/ignore an unparsable first file makes reading fail, and a later unparsable file receives the query of the preceding file (C51_lenient_violated, C51_lenient_wrong_query_violated)."
  },
  {
   "property": "C52",
   "status": "partial",
   "theorems": [
    "PB.BenchProps.C52_rows_partial",
    "PB.BenchProps.C52_count_partial",
    "PB.BenchProps.C52_raise",
    "PB.BenchProps.C52_ignore_partial",
    "PB.BenchProps.C52_index_violated",
    "PB.BenchProps.C52_ignore_violated",
    "PB.BenchProps.C52_empty_violated",
    "PB.BenchProps.C52_result_violated"
   ],
   "note": "Proved for all workloads, repetitions and outcomes that do not end the benchmark: all errors under 'log', no errors otherwise; ignored optimizations; the first error under 'raise'. Violated: ignored executions make the benchmark fail at the end and lose all results; exec_index has gaps after ignored optimizations; empty benchmarks raise; the result of failed executions is an empty list instead of None."
  },
  {
   "property": "C53",
   "status": "partial",
   "theorems": [
    "PB.BenchProps.C53_history_partial",
    "PB.BenchProps.C53_entry_partial",
    "PB.BenchProps.C53_same_start_violated",
    "PB.BenchProps.C53_interleaving_violated"
   ],
   "note": "Proved for all histories of uninterrupted log operations. Violated: two runs with the same name and start time; interleaved operations of two processes lose entries; benchmarks that raise while the result table is built are logged as completed (C52_ignore_violated, C52_empty_violated)."
  },
  {
   "property": "C54",
   "status": "partial",
   "theorems": [
    "PB.IntermediatesProps.C54_cross_products",
    "PB.IntermediatesProps.C54_connected_partial",
    "PB.IntermediatesProps.C54_table_violated",
    "PB.IntermediatesProps.C54_no_predicates_violated",
    "PB.IntermediatesProps.C54_estimates",
    "PB.IntermediatesProps.C54_join_order"
   ],
   "note": "With cross products the result is proved to be exactly the non-empty subsets, each once; without, exactly the join-connected ones, provided all tables of the query occur in its predicates (joins_tables raises otherwise: two violations, for a table without predicates and for a query without predicates). The estimates stored for them and for a given join order are proved."
  },
  {
   "property": "C55",
   "status": "partial",
   "theorems": [
    "PB.UesBoundsProps.C55_estimate",
    "PB.UesBoundsProps.C55_binary",
    "PB.UesBoundsProps.C55_star_partial",
    "PB.UesBoundsProps.C55_chain_violated",
    "PB.UesBoundsProps.C55_foreign_keys_violated"
   ],
   "note": "Two-table estimates, queries of two tables and star queries proved for all data. Violated for chains: the bound of a later n:m join uses base table sizes instead of the bound of the intermediate result, also with exact statistics."
  },
  {
   "property": "C56",
   "status": "proved",
   "theorems": [
    "PB.TonicProps.C56_costs",
    "PB.TonicProps.C56_reject",
    "PB.TonicProps.C56_recommendation",
    "PB.TonicProps.C56_frequency_violated"
   ],
   "note": "Proved for all update histories of a node (C56_costs, C56_reject, C56_recommendation). C56_frequency_violated shows that discounted sums are not averages: of two operators with constant costs, the cheaper one loses if it was observed more often."
  },
  {
   "property": "C57",
   "status": "partial",
   "theorems": [
    "PB.TonicProps.C57_load_violated"
   ],
   "note": "The property is false: C57_load_violated shows that loading fails for every saved synopsis, since the key subquery is always written (possibly as null) and always loaded. There is no case in which the round trip works, so nothing else is proved."
  },
  {
   "property": "C58",
   "status": "partial",
   "theorems": [
    "PB.StatsProps.C58_below_partial",
    "PB.StatsProps.C58_error_partial",
    "PB.StatsProps.C58_uniform_violated",
    "PB.StatsProps.C58_bound_violated",
    "PB.StatsProps.C58_uneven_violated",
    "PB.StatsProps.C58_above_ends",
    "PB.StatsProps.C58_above_increasing_violated",
    "PB.StatsProps.C58_above_violated",
    "PB.StatsProps.C58_above_raises_violated"
   ],
   "note": "Proved for frequency_below: total, bounded, monotone, and for equi-depth histograms at most one (bound) or two (approx-uni) buckets too small. Violated: frequency_above is increasing for 'bound' and raises IndexError in the last bucket for 'approx-uni'; 'approx-uni' misses a whole bucket at bucket bounds; 'bound' is no upper bound; bucket frequencies are ignored."
  },
  {
   "property": "C59",
   "status": "partial",
   "theorems": [
    "PB.StatsProps.C59_sorted",
    "PB.StatsProps.C59_min_max",
    "PB.StatsProps.C59_split",
    "PB.StatsProps.C59_lookup",
    "PB.StatsProps.C59_bound_partial",
    "PB.StatsProps.C59_top_zero_violated"
   ],
   "note": "Values are numbers, lists have distinct values. Violated for top(0), whose bound for missing values is 0."
  },
  {
   "property": "C60",
   "status": "partial",
   "theorems": [
    "PB.JTProps.C60_json_partial",
    "PB.JTProps.C60_json_eq_partial",
    "PB.JTProps.C60_empty_violated",
    "PB.JTProps.C60_logical_violated"
   ],
   "note": "Empty and logical join trees do not round-trip (violated); generic non-empty trees proved."
  },
  {
   "property": "C61",
   "status": "partial",
   "theorems": [
    "PB.QPProps.C61_self_violated",
    "PB.QPProps.C61_scan_partial",
    "PB.QPProps.C61_scan_diff_partial",
    "PB.QPProps.C61_cost_violated",
    "PB.QPProps.C61_known_violated"
   ],
   "note": "Violated for every join plan; proved for scans. Two scans are compared exactly (C61_scan_diff_partial); costs (C61_cost_violated) and unknown against known cardinalities (C61_known_violated) are not."
  },
  {
   "property": "C62",
   "status": "partial",
   "theorems": [
    "PB.StatsProps.C62_shape",
    "PB.StatsProps.C62_recoverable_partial",
    "PB.StatsProps.C62_arrays_violated"
   ],
   "note": "Recoverability holds for scalar columns; violated for array columns (C62_arrays_violated)."
  },
  {
   "property": "C63",
   "status": "partial",
   "theorems": [
    "PB.QPProps.C63_roundtrip_violated",
    "PB.QPProps.C63_shape_partial"
   ],
   "note": "Violated for every tree: the scans of the plan have no base table. The shape is preserved."
  },
  {
   "property": "C64",
   "status": "partial",
   "theorems": [
    "PB.TrainingProps.C64_trained_partial",
    "PB.TrainingProps.C64_again_partial",
    "PB.TrainingProps.C64_metrics_partial",
    "PB.TrainingProps.C64_twice_violated",
    "PB.TrainingProps.C64_metrics_violated",
    "PB.TrainingProps.C64_samples_partial",
    "PB.TrainingProps.C64_samples_violated"
   ],
   "note": "Proved under the assumption that training completes (the stage then reports to be fitted); violations for stages that do not, for metrics of stages with equal names, and for partially trained pipelines when samples are missing."
  },
  {
   "property": "C65",
   "status": "partial",
   "theorems": [
    "PB.RefProps.C65_table_json_violated",
    "PB.RefProps.C65_table_json_partial",
    "PB.RefProps.C65_column_json_partial"
   ],
   "note": "schema is lost on reading (writer uses 'schema', reader 'schemaname')."
  },
  {
   "property": "C66",
   "status": "partial",
   "theorems": [
    "PB.RefProps.C66_quote_partial",
    "PB.RefProps.C66_quote_violated",
    "PB.RefProps.C66_quote_injective_partial"
   ],
   "note": "embedded double quotes are not escaped."
  },
  {
   "property": "C67",
   "status": "partial",
   "theorems": [
    "PB.DictProps.C67_hash_violated",
    "PB.DictProps.C67_hash_partial"
   ],
   "note": "hash depends on insertion order, equality does not."
  },
  {
   "property": "C68",
   "status": "proved",
   "theorems": [
    "PB.DictProps.C68_argmin"
   ],
   "note": ""
  },
  {
   "property": "C69",
   "status": "partial",
   "theorems": [
    "PB.VerProps.C69_str_violated",
    "PB.VerProps.C69_formatted_partial"
   ],
   "note": "str(version) has a leading 'v' that the constructor rejects; the unprefixed form round-trips."
  },
  {
   "property": "C70",
   "status": "proved",
   "theorems": [
    "PB.WalkProps.C70_frontier_walks"
   ],
   "note": ""
  },
  {
   "property": "C71",
   "status": "partial",
   "theorems": [
    "PB.WalkProps.C71_once_violated",
    "PB.WalkProps.C71_no_early_stopping_violated",
    "PB.WalkProps.C71_sound_partial",
    "PB.WalkProps.C71_exact_partial"
   ],
   "note": "Nodes can be yielded more than once and early stopping happens; soundness proved. The traversal ends and yields exactly the reachable nodes whose predecessors do not stop it (C71_exact_partial)."
  },
  {
   "property": "C72",
   "status": "partial",
   "theorems": [
    "PB.HintProps.C72_workers_violated",
    "PB.HintProps.C72_direction_violated",
    "PB.HintProps.C72_json_partial"
   ],
   "note": "Worker counts and directions are lost (violated); everything else proved."
  },
  {
   "property": "C73",
   "status": "partial",
   "theorems": [
    "PB.HintProps.C73_scan_violated",
    "PB.HintProps.C73_join_partial",
    "PB.HintProps.C73_fail_partial"
   ],
   "note": "Counts for scans are ignored or raise (violated); joins proved."
  },
  {
   "property": "C74",
   "status": "partial",
   "theorems": [
    "PB.HintProps.C74_refl_violated",
    "PB.HintProps.C74_eq_partial"
   ],
   "note": "nan default makes equality irreflexive (violated)."
  },
  {
   "property": "C75",
   "status": "partial",
   "theorems": [
    "PB.JTProps.C75_eq",
    "PB.JTProps.C75_equivalence",
    "PB.JTProps.C75_hash",
    "PB.JTProps.C75_logical_violated"
   ],
   "note": "Equality and hashing proved; join_with and update_annotation of a logical join tree return a plain JoinTree (violated)."
  },
  {
   "property": "C76",
   "status": "proved",
   "theorems": [
    "PB.JTProps.C76_depth",
    "PB.JTProps.C76_counts"
   ],
   "note": ""
  },
  {
   "property": "C77",
   "status": "partial",
   "theorems": [
    "PB.QPProps.C77_qerror_partial",
    "PB.QPProps.C77_exact_violated"
   ],
   "note": "The quotient is itself a Cardinality and rounded (violated); within 1/2 of the exact value and at least 1."
  },
  {
   "property": "C78",
   "status": "partial",
   "theorems": [
    "PB.QPProps.C78_estimates",
    "PB.QPProps.C78_actual",
    "PB.QPProps.C78_ignoreNan_violated",
    "PB.QPProps.C78_scale",
    "PB.QPProps.C78_scaleNode",
    "PB.QPProps.C78_scaleChildren",
    "PB.QPProps.C78_scaleSubplan_violated",
    "PB.QPProps.C78_scaleHits_violated"
   ],
   "note": "ignore_nan has no effect, non-recursive scaling scales subplan roots, scaling actual cardinalities drops the cache counters (violated)."
  },
  {
   "property": "C79",
   "status": "proved",
   "theorems": [
    "PB.QPProps.C79_tables",
    "PB.QPProps.C79_iternodes",
    "PB.QPProps.C79_lookup_sound",
    "PB.QPProps.C79_lookup_complete",
    "PB.QPProps.C79_depth"
   ],
   "note": ""
  },
  {
   "property": "C80",
   "status": "proved",
   "theorems": [
    "PB.QPProps.C80_eq",
    "PB.QPProps.C80_equivalence"
   ],
   "note": ""
  },
  {
   "property": "C81",
   "status": "partial",
   "theorems": [
    "PB.QPProps.C81_shape_partial",
    "PB.QPProps.C81_root_partial",
    "PB.QPProps.C81_linear_violated",
    "PB.QPProps.C81_aux_violated",
    "PB.QPProps.C81_scanBranch",
    "PB.QPProps.C81_baseJoin"
   ],
   "note": "Only the root join is inspected and unary roots raise (violated). The answer for the root join is exact (C81_root_partial)."
  },
  {
   "property": "C82",
   "status": "partial",
   "theorems": [
    "PB.ExprProps.C82_columns_sound",
    "PB.ExprProps.C82_itercolumns_sound",
    "PB.ExprProps.C82_tables_sound",
    "PB.ExprProps.C82_columns_partial",
    "PB.ExprProps.C82_itercolumns_partial",
    "PB.ExprProps.C82_tables_partial",
    "PB.ExprProps.C82_columns_violated",
    "PB.ExprProps.C82_tables_of_columns"
   ],
   "note": "Soundness holds for all expressions. Completeness is proved where CASE and window expressions (whose direct parts are replaced by their children) and arithmetic with three or more operands do not occur; C82_columns_violated has a counterexample for each."
  },
  {
   "property": "C83",
   "status": "partial",
   "theorems": [
    "PB.ExprProps.C83_collector_sound",
    "PB.ExprProps.C83_collector_partial",
    "PB.ExprProps.C83_collector_outermost_partial",
    "PB.ExprProps.C83_collector_first_partial",
    "PB.ExprProps.C83_collector_violated"
   ],
   "note": "Soundness holds for all expressions. Completeness is proved for expressions without CASE, window functions and filtered aggregates, whose parts are not reached by iterchildren (C83_collector_violated). Collectors that stop at matches return exactly the outermost matches (C83_collector_first_partial)."
  },
  {
   "property": "C84",
   "status": "proved",
   "theorems": [
    "PB.PredProps.C84_create_and",
    "PB.PredProps.C84_create_or",
    "PB.PredProps.C84_create",
    "PB.PredProps.C84_and",
    "PB.PredProps.C84_base_predicates",
    "PB.PredProps.C84_base_predicates_sub"
   ],
   "note": "create, create_and, create_or, and_ and base_predicates are modelled completely; create_not is the NOT case of create."
  },
  {
   "property": "C85",
   "status": "proved",
   "theorems": [
    "PB.QueryPredsProps.C85_filters_for",
    "PB.QueryPredsProps.C85_joins_for",
    "PB.QueryPredsProps.C85_joins_for_accepts",
    "PB.QueryPredsProps.C85_joins_for_total"
   ],
   "note": "All parts."
  },
  {
   "property": "C86",
   "status": "partial",
   "theorems": [
    "PB.EquivProps.C86_join_graph",
    "PB.EquivProps.C86_merge_aliases_violated"
   ],
   "note": "join_graph() exact for regular predicates; merge_aliases=True violated (edges between columns)."
  },
  {
   "property": "C87",
   "status": "partial",
   "theorems": [
    "PB.EquivProps.C87_required_tables_partial",
    "PB.EquivProps.C87_required_tables_violated"
   ],
   "note": "Exact for predicates without CASE, window functions and FILTER conditions; violated for CASE."
  },
  {
   "property": "C88",
   "status": "partial",
   "theorems": [
    "PB.QueryPredsProps.C88_joins_between_violated",
    "PB.QueryPredsProps.C88_joins_between_partial"
   ],
   "note": "Violated for joins over three tables; the strategies agree if each join has two tables."
  },
  {
   "property": "C89",
   "status": "partial",
   "theorems": [
    "PB.TransformProps.C89_unsupported",
    "PB.TransformProps.C89_explicit_to_implicit_partial",
    "PB.TransformProps.C89_violated"
   ],
   "note": "Flattening defects (C38) and queries without any condition are excluded / rejected."
  },
  {
   "property": "C90",
   "status": "partial",
   "theorems": [
    "PB.ClausesProps.C90_rebuild_partial",
    "PB.ClausesProps.C90_build",
    "PB.ClausesProps.C90_build_total",
    "PB.ClausesProps.C90_build_all_partial",
    "PB.ClausesProps.C90_sets_violated",
    "PB.ClausesProps.C90_rebuild_violated"
   ],
   "note": "Holds for all queries whose class fits the FROM clause. An explicit query without FROM clause comes back as implicit query (C90_rebuild_violated). Queries are built from every list of clauses without repeated classes (C90_build_total, C90_build_all_partial); two set operation clauses are C90_sets_violated."
  },
  {
   "property": "C91",
   "status": "proved",
   "theorems": [
    "PB.ClausesProps.C91_with_clause",
    "PB.ClausesProps.C91_star_set",
    "PB.ClausesProps.C91_drop_hints"
   ],
   "note": "Clauses are modelled by their type and an opaque payload."
  },
  {
   "property": "C92",
   "status": "proved",
   "theorems": [
    "PB.WorkloadProps.C92_label_of",
    "PB.WorkloadProps.C92_label_of_unique"
   ],
   "note": ""
  },
  {
   "property": "C93",
   "status": "partial",
   "theorems": [
    "PB.WorkloadProps.C93_generate_partial",
    "PB.WorkloadProps.C93_generate_violated"
   ],
   "note": "Holds if no query occurs twice; otherwise only the last position of a query remains (C93_generate_violated)."
  },
  {
   "property": "C94",
   "status": "partial",
   "theorems": [
    "PB.WorkloadProps.C94_nested_partial",
    "PB.WorkloadProps.C94_nested_violated",
    "PB.WorkloadProps.C94_flat"
   ],
   "note": "The prefixes are computed but never used: files with equal names in different directories overwrite each other (C94_nested_violated). Proved: with unique names every file is provided, under its stem."
  },
  {
   "property": "C95",
   "status": "partial",
   "theorems": [
    "PB.ValidationProps.C95_merge_partial",
    "PB.ValidationProps.C95_merge_violated",
    "PB.ValidationProps.C95_ensure_partial",
    "PB.ValidationProps.C95_ensure_violated"
   ],
   "note": "Violated for failed results with an empty list of reasons and for set queries (never raises)."
  },
  {
   "property": "C96",
   "status": "partial",
   "theorems": [
    "PB.ValidationProps.C96_inner_join_violated",
    "PB.ValidationProps.C96_nested_violated",
    "PB.ValidationProps.C96_no_join_partial"
   ],
   "note": "Violated: the check compares an enum member with a string and hence rejects every explicit join it visits; it does not look into subqueries with implicit FROM clauses."
  },
  {
   "property": "C97",
   "status": "partial",
   "theorems": [
    "PB.EnumerateProps.C97_assignments_partial",
    "PB.EnumerateProps.C97_excluded_violated",
    "PB.EnumerateProps.C97_allowed"
   ],
   "note": "Proved if both scans and joins are included. Violated otherwise: the generator returns without yielding anything."
  },
  {
   "property": "C98",
   "status": "partial",
   "theorems": [
    "PB.EnumerateProps.C98_plans_violated",
    "PB.EnumerateProps.C98_bound_single_violated",
    "PB.EnumerateProps.C98_bound_violated"
   ],
   "note": "Violated: all_plans_for passes a keyword-only argument by position and raises; the bound is zero for one table and too small in general."
  },
  {
   "property": "C99",
   "status": "partial",
   "theorems": [
    "PB.PgDynProgProps.C99_merge_violated",
    "PB.PgDynProgProps.C99_plain_violated",
    "PB.PgDynProgProps.C99_sorted_violated",
    "PB.PgDynProgProps.C99_merge_keys",
    "PB.PgDynProgProps.C99_merged_compatible",
    "PB.PgDynProgProps.C99_compatible_sound",
    "PB.PgDynProgProps.C99_not_transitive_violated"
   ],
   "note": "Violated for all predicates: no merge join is ever created (C99_merge_violated), because the number of partner pairs is compared with 2, and an existing sort order is never recognized (C99_sorted_violated), because column references are looked up in a set of expressions. Proved: merging sort keys."
  },
  {
   "property": "C100",
   "status": "partial",
   "theorems": [
    "PB.PgSearchProps.C100_sound",
    "PB.PgSearchProps.C100_complete_partial",
    "PB.PgSearchProps.C100_between_partial"
   ],
   "note": "Without parallel workers, for finite costs, and for cost models other than the native one. C100_complete_partial assumes that the computation of cache keys and merge join columns raises no exception (it can for predicates with two partner pairs, see C99). C100_between_partial shows that joins_between satisfies the assumption for predicates that compare two tables."
  },
  {
   "property": "C101",
   "status": "partial",
   "theorems": [
    "PB.StatsProps.C101_exact",
    "PB.StatsProps.C101_rows_partial",
    "PB.StatsProps.C101_rows_violated"
   ],
   "note": "Columns without NULL. Violated for the rows after the last complete bucket, which are lost (C101_rows_violated); C101_rows_partial bounds their number."
  },
  {
   "property": "C102",
   "status": "partial",
   "theorems": [
    "PB.StatsProps.C102_sorted_partial",
    "PB.StatsProps.C102_freqs_partial",
    "PB.StatsProps.C102_rows_violated",
    "PB.StatsProps.C102_order_violated",
    "PB.StatsProps.C102_zero_violated"
   ],
   "note": "Ascending bounds are proved if the common values are ascending; the catalog orders them by frequency (C102_order_violated). Rows of common values are counted twice (C102_rows_violated), and 0 is never the lower bound (C102_zero_violated). Frequencies of common values are those of the catalog (C102_freqs_partial)."
  },
  {
   "property": "C103",
   "status": "partial",
   "theorems": [
    "PB.JoinGraphProps.C103_monotone",
    "PB.JoinGraphIndexProps.C103_sound_partial",
    "PB.JoinGraphIndexProps.C103_free",
    "PB.JoinGraphIndexProps.C103_n_m_partial",
    "PB.JoinGraphIndexProps.C103_n_m_violated",
    "PB.JoinGraphIndexProps.C103_pk_pk_violated",
    "PB.JoinGraphIndexProps.C103_cross_violated"
   ],
   "note": "Monotonicity and free tables in full; soundness with respect to database contents for histories of primary key/foreign key joins. Violated for n:m joins (other keys of the partner stay valid), for joins of two primary keys, and for cross products."
  },
  {
   "property": "C104",
   "status": "partial",
   "theorems": [
    "PB.UesProps.C104_greedy",
    "PB.UesProps.C104_default_tables",
    "PB.UesProps.C104_default_no_cross_partial",
    "PB.UesProps.C104_default_once_partial",
    "PB.UesProps.C104_default_terminates",
    "PB.UesProps.C104_default_succeeds_partial",
    "PB.UesProps.C104_star",
    "PB.UesProps.C104_ues_finite",
    "PB.UesProps.C104_binary",
    "PB.UesProps.C104_default_gives_up_violated",
    "PB.UesProps.C104_default_twice_violated",
    "PB.UesProps.C104_composite_violated",
    "PB.UesProps.C104_eager_cross_violated",
    "PB.UesProps.C104_cross_product_violated"
   ],
   "note": "Star and binary optimizers proved. Default optimizer: complete and exact if there are no primary key indexes; otherwise the returned tree covers all tables, but the optimizer can give up, scan a table twice (two foreign key paths) or create a cross product in an eager subquery; queries with a single-table component raise."
  },
  {
   "property": "C105",
   "status": "proved",
   "theorems": [
    "PB.TrainingProps.C105_create",
    "PB.TrainingProps.C105_training_implemented"
   ],
   "note": ""
  },
  {
   "property": "C106",
   "status": "partial",
   "theorems": [
    "PB.IntermediatesProps.C106_lookup",
    "PB.IntermediatesProps.C106_fallback",
    "PB.IntermediatesProps.C106_missing_violated",
    "PB.IntermediatesProps.C106_saved_violated",
    "PB.IntermediatesProps.C106_reload_violated",
    "PB.IntermediatesProps.C106_duplicate_violated"
   ],
   "note": "Lookup and fallback are proved. Violated: error_on_missing_card has no effect; saved fallback estimates are never found and are appended on each call; the written file cannot be read again (or yields duplicates)."
  },
  {
   "property": "C107",
   "status": "partial",
   "theorems": [
    "PB.IntermediatesProps.C107_precise_partial",
    "PB.IntermediatesProps.C107_cache_violated",
    "PB.IntermediatesProps.C107_distortion",
    "PB.IntermediatesProps.C107_random"
   ],
   "note": "Distortion is proved (exact arithmetic instead of floats). Precise estimates are proved if the data does not change; violated otherwise because the cache is used even when it is not enabled."
  },
  {
   "property": "C108",
   "status": "partial",
   "theorems": [
    "PB.BenchProps.C108_effects_partial",
    "PB.BenchProps.C108_failed_violated",
    "PB.BenchProps.C108_ignore_violated",
    "PB.BenchProps.C108_timeout_violated"
   ],
   "note": "Proved for benchmarks that nothing ends. Violated: failed executions are not written; after ignored failures the previous row is written and passed to the callback again; a timeout with online training ends the benchmark with an AssertionError."
  },
  {
   "property": "C109",
   "status": "partial",
   "theorems": [
    "PB.TonicProps.C109_learn_partial",
    "PB.TonicProps.C109_depth_violated",
    "PB.TonicProps.C109_history_partial",
    "PB.TonicProps.C109_recommend_partial",
    "PB.TonicProps.C109_topmost_violated",
    "PB.TonicProps.C109_alias_violated",
    "PB.TonicProps.C109_self_join_violated",
    "PB.TonicProps.C109_outer_violated",
    "PB.TonicProps.C109_outer_base_violated",
    "PB.TonicProps.C109_bushy_violated",
    "PB.TonicProps.C109_unknown_violated"
   ],
   "note": "Proved for linear plans whose scans are not deeper than the joins, and for left-deep join orders without self-joins, for each join but the topmost one, designated by its tables without aliases. The violated theorems show what fails otherwise: the topmost join never receives a recommendation; the recommendations of queries with aliases are for tables that the query does not contain; self-joins raise; a base table as outer input raises or is looked up at the wrong place; bushy joins are learned and recommended for different inputs; deep scans are learned at the wrong place; the detection of unknown costs raises."
  },
  {
   "property": "C110",
   "status": "partial",
   "theorems": [
    "PB.PrintProps.C110_text_partial",
    "PB.PrintProps.C110_same_text_partial",
    "PB.PrintProps.C110_product_of_sum_violated",
    "PB.PrintProps.C110_quotient_of_difference_violated",
    "PB.PrintProps.C110_difference_of_difference_violated",
    "PB.PrintProps.C110_product_of_modulo_violated",
    "PB.PrintProps.C110_negated_sum_violated",
    "PB.PrintProps.C110_negated_conjunction_violated",
    "PB.PrintProps.C110_double_negation_violated",
    "PB.PrintProps.C110_unary_violated"
   ],
   "note": "Proved for expressions in which no operand needs a bracket that is not set (predicate Fine, defined on the operators only). Refuted for the others: (a+b)*c, (a-b)/c, a-(b-c), a*(b%c), -(a+b), NOT (a AND b), -(-a) and unary predicates with an operator other than EXISTS. Missing: the texts of constructs that delimit themselves (function calls, CASE, subqueries ...) are single tokens; clauses and whole queries are not printed."
  },
  {
   "property": "C111",
   "status": "partial",
   "theorems": [
    "PB.QueryProps.C111_tables_sound",
    "PB.QueryProps.C111_columns_sound",
    "PB.QueryProps.C111_tables_partial",
    "PB.QueryProps.C111_columns_partial",
    "PB.QueryProps.C111_distinct_on_violated",
    "PB.QueryProps.C111_set_with_violated",
    "PB.QueryProps.C111_join_condition_violated",
    "PB.QueryProps.C111_unnamed_violated"
   ],
   "note": "Soundness is proved for all queries. Completeness is proved for queries without DISTINCT ON, with regular expressions, constant VALUES lists, named functions and join conditions that only refer to the joined tables. Disagreements: DISTINCT ON, WITH clauses of set queries, subqueries in join conditions and unnamed functions are ignored; unnamed FROM items add `None`."
  },
  {
   "property": "C112",
   "status": "partial",
   "theorems": [
    "PB.QueryProps.C112_sound",
    "PB.QueryProps.C112_subqueries_partial",
    "PB.QueryProps.C112_join_violated",
    "PB.QueryProps.C112_overlooked_violated"
   ],
   "note": "Soundness is proved for all queries, completeness for queries without JOIN syntax. Disagreements: JOIN syntax raises an exception; subqueries in DISTINCT ON, function arguments and VALUES lists of the FROM clause are overlooked."
  },
  {
   "property": "C113",
   "status": "partial",
   "theorems": [
    "PB.QueryProps.C113_unbound_partial",
    "PB.QueryProps.C113_dependent_partial",
    "PB.QueryProps.C113_exceptions_violated",
    "PB.QueryProps.C113_from_subquery_violated",
    "PB.QueryProps.C113_nested_derived_violated",
    "PB.QueryProps.C113_shadowed_violated",
    "PB.QueryProps.C113_with_violated"
   ],
   "note": "Proved for queries whose FROM items are tables and ordinary subqueries over tables, without shadowed names. Disagreements: exceptions for JOIN syntax, VALUES, functions and missing FROM clauses; every query with a FROM subquery is reported as dependent; names of nested FROM subqueries are reported as unbound; shadowed names and WITH queries with outer references are overlooked."
  },
  {
   "property": "C114",
   "status": "partial",
   "theorems": [
    "PB.QueryProps.C114_predicates_partial",
    "PB.QueryProps.C114_exceptions_violated",
    "PB.QueryProps.C114_cross_product_violated"
   ],
   "note": "Proved relative to the predicates of the nested queries. Disagreements: exceptions for queries without FROM clause or with nested set queries; `contains_cross_product` raises for every query with a FROM clause."
  },
  {
   "property": "C115",
   "status": "partial",
   "theorems": [
    "PB.QueryProps.C115_output_columns",
    "PB.QueryProps.C115_query_columns",
    "PB.QueryProps.C115_set_columns",
    "PB.QueryProps.C115_star_violated"
   ],
   "note": "Proved for SELECT clauses without stars and for all set operations. Disagreement: stars contribute no column. Simplification: no given name starts with `column_`."
  },
  {
   "property": "C116",
   "status": "partial",
   "theorems": [
    "PB.EqHashProps.C116_refl",
    "PB.EqHashProps.C116_trans",
    "PB.EqHashProps.C116_symm_partial",
    "PB.EqHashProps.C116_hash_partial",
    "PB.EqHashProps.C116_equal_partial",
    "PB.EqHashProps.C116_symm_violated",
    "PB.EqHashProps.C116_hash_violated",
    "PB.EqHashProps.C116_set_clause_violated"
   ],
   "note": "Reflexivity and transitivity are proved for all queries of any nesting depth; symmetry for queries whose class fits to their FROM clause (the ones `build_query` builds); consistency of the hash values under the rules in `hashRules`. Disagreements: base class objects equal objects of derived classes but not vice versa; IN value order, empty EXPLAIN formats, LATERAL, FETCH direction and table-valued WITH names are ignored by `==` but not by `hash`; comparing two EXCEPT or INTERSECT clauses always raises. Simplification: a hash value is the tuple that is hashed."
  },
  {
   "property": "C117",
   "status": "partial",
   "theorems": [
    "PB.EqHashProps.C117_error",
    "PB.EqHashProps.C117_class",
    "PB.EqHashProps.C117_clauses",
    "PB.EqHashProps.C117_order",
    "PB.EqHashProps.C117_rebuild",
    "PB.EqHashProps.C117_two_operations_violated",
    "PB.EqHashProps.C117_class_violated"
   ],
   "note": "Errors and classes are proved for all lists of clauses, the rest for lists with at most one clause of each kind (one set operation) whose sides are not EXPLAIN queries. Disagreements: if there are two set operations all but one are silently ignored; a base class query is not rebuilt as an equal query."
  },
  {
   "property": "C118",
   "status": "partial",
   "theorems": [
    "PB.DbHintsProps.C118_text",
    "PB.DbHintsProps.C118_tables_text",
    "PB.DbHintsProps.C118_hint_plan",
    "PB.DbHintsProps.C118_lab",
    "PB.DbHintsProps.C118_plan",
    "PB.DbHintsProps.C118_quack",
    "PB.DbHintsProps.C118_mysql_partial",
    "PB.DbHintsProps.C118_mysql_violated"
   ],
   "note": "Proved for pg_hint_plan, pg_lab, quack_lab and complete plans, and that the text determines the order. MySQL only lists the tables from left to right, which is enough for left-deep orders; right-deep orders are accepted but hinted like left-deep ones (C118_mysql_violated)."
  },
  {
   "property": "C119",
   "status": "partial",
   "theorems": [
    "PB.DbHintsProps.C119_hint_plan_partial",
    "PB.DbHintsProps.C119_index_scan_violated",
    "PB.DbHintsProps.C119_lab_sound",
    "PB.DbHintsProps.C119_lab_partial",
    "PB.DbHintsProps.C119_lab_violated",
    "PB.DbHintsProps.C119_plan",
    "PB.DbHintsProps.C119_quack",
    "PB.DbHintsProps.C119_mysql"
   ],
   "note": "Proved for quack_lab, MySQL and complete plans. pg_hint_plan hints index scans as index-only scans (C119_index_scan_violated), all other operators are right. pg_lab loses the second parallel operator (C119_lab_violated); proved for at most one."
  },
  {
   "property": "C120",
   "status": "partial",
   "theorems": [
    "PB.DbHintsProps.C120_hint_plan",
    "PB.DbHintsProps.C120_single_partial",
    "PB.DbHintsProps.C120_joins_violated",
    "PB.DbHintsProps.C120_intermediate_violated",
    "PB.DbHintsProps.C120_lab_scan_violated",
    "PB.DbHintsProps.C120_plan",
    "PB.DbHintsProps.C120_plan_violated"
   ],
   "note": "pg_hint_plan: exact characterisation of the lines; at most one without parallel joins; parallel joins give one line per table (C120_joins_violated) and worker counts of intermediates give one line over several tables. Complete plans give at most one line with the right number, but possibly for the wrong node (C120_plan_violated). pg_lab ignores worker counts for single tables (C120_lab_scan_violated)."
  },
  {
   "property": "C121",
   "status": "proved",
   "theorems": [
    "PB.DbHintsProps.C121_hint_plan",
    "PB.DbHintsProps.C121_lab",
    "PB.DbHintsProps.C121_plan",
    "PB.DbHintsProps.C121_quack"
   ],
   "note": "Proved for all backends that support cardinalities and for complete plans."
  },
  {
   "property": "C122",
   "status": "partial",
   "theorems": [
    "PB.DbHintsProps.C122_hint_plan",
    "PB.DbHintsProps.C122_hint_plan_fails",
    "PB.DbHintsProps.C122_lab",
    "PB.DbHintsProps.C122_lab_fails",
    "PB.DbHintsProps.C122_postgres",
    "PB.DbHintsProps.C122_quack",
    "PB.DbHintsProps.C122_quack_fails",
    "PB.DbHintsProps.C122_mysql_partial",
    "PB.DbHintsProps.C122_mysql_violated",
    "PB.DbHintsProps.C122_mysql_fails"
   ],
   "note": "Exact settings and failure conditions for all backends. MySQL drops settings if there are no other hints (C122_mysql_violated)."
  },
  {
   "property": "C123",
   "status": "proved",
   "theorems": [
    "PB.DbHintsProps.C123_bfs",
    "PB.DbHintsProps.C123_levels"
   ],
   "note": "Proved in full."
  },
  {
   "property": "C124",
   "status": "partial",
   "theorems": [
    "PB.SimpleViewProps.C124_wrap",
    "PB.SimpleViewProps.C124_can_wrap",
    "PB.SimpleViewProps.C124_wrap_all_partial",
    "PB.SimpleViewProps.C124_wrap_all_violated",
    "PB.SimpleViewProps.C124_wrap_error"
   ],
   "note": "wrap_all/simplify raise AssertionError for filters without a column (1 = 2): C124_wrap_all_violated."
  },
  {
   "property": "C125",
   "status": "partial",
   "theorems": [
    "PB.SimpleViewProps.C125_meaning_partial",
    "PB.SimpleViewProps.C125_swapped_violated",
    "PB.SimpleViewProps.C125_cast_violated",
    "PB.SimpleViewProps.C125_columns_partial",
    "PB.SimpleViewProps.C125_columns_violated"
   ],
   "note": "the operator is not flipped for `5 < R.a` (C125_swapped_violated), casts are dropped (C125_cast_violated, documented), R.a = R.b reports one column (C125_columns_violated)."
  },
  {
   "property": "C126",
   "status": "partial",
   "theorems": [
    "PB.SimpleViewProps.C126_wrap",
    "PB.SimpleViewProps.C126_wrap_all",
    "PB.SimpleViewProps.C126_can_wrap_partial",
    "PB.SimpleViewProps.C126_can_wrap_violated",
    "PB.SimpleViewProps.C126_tables",
    "PB.SimpleViewProps.C126_partner_table",
    "PB.SimpleViewProps.C126_partner_column",
    "PB.SimpleViewProps.C126_partners_partial",
    "PB.SimpleViewProps.C126_partners_violated"
   ],
   "note": "can_wrap raises ValueError for computed operands (C126_can_wrap_violated); join_partners are not ordered like those of the predicate (C126_partners_violated)."
  },
  {
   "property": "C127",
   "status": "partial",
   "theorems": [
    "PB.SimpleViewProps.C127_filter_partial",
    "PB.SimpleViewProps.C127_join",
    "PB.SimpleViewProps.C127_exact",
    "PB.SimpleViewProps.C127_in_violated",
    "PB.SimpleViewProps.C127_predicate_violated"
   ],
   "note": "IN views: equality ignores the order, the hash does not (C127_in_violated); view == predicate is not symmetric (C127_predicate_violated). Equality of column joins and comparisons with values is exact (C127_exact)."
  },
  {
   "property": "C128",
   "status": "partial",
   "theorems": [
    "PB.SimpleViewProps.C128_binary",
    "PB.SimpleViewProps.C128_between",
    "PB.SimpleViewProps.C128_in",
    "PB.SimpleViewProps.C128_operator",
    "PB.SimpleViewProps.C128_roundtrip_partial",
    "PB.SimpleViewProps.C128_star_violated",
    "PB.SimpleViewProps.C128_join"
   ],
   "note": "the string '*' becomes the star expression (C128_star_violated). Arguments nested deeper than one level and sequences as the operand of other operators are outside of the model."
  },
  {
   "property": "C129",
   "status": "partial",
   "theorems": [
    "PB.SimpleViewProps.C129_all_simple",
    "PB.SimpleViewProps.C129_simplify",
    "PB.SimpleViewProps.C129_simplify_partial",
    "PB.SimpleViewProps.C129_simplify_violated",
    "PB.SimpleViewProps.C129_all_simple_violated"
   ],
   "note": "simplify raises for 1 = 2, all_simple raises for f(R.a) = S.b."
  },
  {
   "property": "C130",
   "status": "partial",
   "theorems": [
    "PB.QTransformProps.C130_rename_partial",
    "PB.QTransformProps.C130_set_violated",
    "PB.QTransformProps.C130_distinct_violated",
    "PB.QTransformProps.C130_values_violated"
   ],
   "note": "set queries raise (C130_set_violated), DISTINCT ON columns are not renamed (C130_distinct_violated), VALUES lists in WITH vanish or only the last renaming counts (C130_values_violated)."
  },
  {
   "property": "C131",
   "status": "partial",
   "theorems": [
    "PB.QTransformProps.C131_rename_partial",
    "PB.QTransformProps.C131_firsts",
    "PB.QTransformProps.C131_order_violated",
    "PB.QTransformProps.C131_dict_violated",
    "PB.QTransformProps.C131_chain_violated"
   ],
   "note": "ORDER BY makes the renaming fail (C131_order_violated); dictionaries unbind the columns (C131_dict_violated) and lose tables for chains (C131_chain_violated). FROM clauses with subqueries, VALUES lists or functions are outside of the theorem."
  },
  {
   "property": "C132",
   "status": "partial",
   "theorems": [
    "PB.QTransformProps.C132_merge_partial",
    "PB.QTransformProps.C132_tables",
    "PB.QTransformProps.C132_join_violated"
   ],
   "note": "explicit joins raise (C132_join_violated)."
  },
  {
   "property": "C133",
   "status": "partial",
   "theorems": [
    "PB.QTransformProps.C133_replace_partial",
    "PB.QTransformProps.C133_identity_partial",
    "PB.QTransformProps.C133_distinct_violated",
    "PB.QTransformProps.C133_values_violated"
   ],
   "note": "DISTINCT ON is not replaced (C133_distinct_violated), VALUES lists without name raise (C133_values_violated); sides of set queries must not have an EXPLAIN clause."
  },
  {
   "property": "C134",
   "status": "partial",
   "theorems": [
    "PB.QTransformProps.C134_fragment_partial",
    "PB.QTransformProps.C134_select_violated",
    "PB.QTransformProps.C134_subquery_violated",
    "PB.QTransformProps.C134_set_violated"
   ],
   "note": "targets over a proper subset of the tables are dropped, foreign t.* kept, DISTINCT ON becomes DISTINCT (C134_select_violated); tables of subqueries move into FROM (C134_subquery_violated); set queries ignore the projection and raise for one-sided tables (C134_set_violated); NOT raises (C39)."
  },
  {
   "property": "C135",
   "status": "proved",
   "theorems": [
    "PB.PgExplainProps.C135_renders",
    "PB.PgExplainProps.C135_total"
   ],
   "note": "The JSON reading itself (types of the values) is abstracted; sort keys are never set by the code."
  },
  {
   "property": "C136",
   "status": "partial",
   "theorems": [
    "PB.PgExplainProps.C136_nodes_partial",
    "PB.PgExplainProps.C136_nodes_sound",
    "PB.PgExplainProps.C136_tables_partial",
    "PB.PgExplainProps.C136_subplans_violated",
    "PB.PgExplainProps.C136_target_violated"
   ],
   "note": "of several subplans only the last is kept (C136_subplans_violated); target names of subplans are always empty (C136_target_violated)."
  },
  {
   "property": "C137",
   "status": "partial",
   "theorems": [
    "PB.PgExplainProps.C137_eq",
    "PB.PgExplainProps.C137_equivalence",
    "PB.PgExplainProps.C137_hash_partial",
    "PB.PgExplainProps.C137_hash_sound",
    "PB.PgExplainProps.C137_hash_violated"
   ],
   "note": "hash covers more attributes than equality: nodes that differ in their filter are equal with different hashes (C137_hash_violated)."
  },
  {
   "property": "C138",
   "status": "partial",
   "theorems": [
    "PB.PgExplainProps.C138_innerOuter_partial",
    "PB.PgExplainProps.C138_fewer",
    "PB.PgExplainProps.C138_equal_violated",
    "PB.PgExplainProps.C138_subplan_violated"
   ],
   "note": "equal children lose the outer one (C138_equal_violated); joins with a subplan raise (C138_subplan_violated)."
  },
  {
   "property": "C139",
   "status": "proved",
   "theorems": [
    "PB.PgExplainProps.C139_plan",
    "PB.PgExplainProps.C139_seconds",
    "PB.PgExplainProps.C139_analyze",
    "PB.PgExplainProps.C139_inspect"
   ],
   "note": "Text of the individual lines is not modelled."
  },
  {
   "property": "C140",
   "status": "partial",
   "theorems": [
    "PB.PlanReadProps.C140_jaccard_partial",
    "PB.PlanReadProps.C140_jaccard_violated",
    "PB.PlanReadProps.C140_trigrams"
   ],
   "note": "jaccard of two empty sets divides by zero (C140_jaccard_violated). Lower-casing is given per character."
  },
  {
   "property": "C141",
   "status": "partial",
   "theorems": [
    "PB.PlanReadProps.C141_renders",
    "PB.PlanReadProps.C141_total",
    "PB.PlanReadProps.C141_time",
    "PB.PlanReadProps.C141_joins_violated"
   ],
   "note": "hash joins are the only recognised joins (C141_joins_violated)."
  },
  {
   "property": "C142",
   "status": "partial",
   "theorems": [
    "PB.PlanReadProps.C142_total",
    "PB.PlanReadProps.C142_sound",
    "PB.PlanReadProps.C142_unique_partial",
    "PB.PlanReadProps.C142_best",
    "PB.PlanReadProps.C142_unfiltered_violated"
   ],
   "note": "scans without filter of relations that are referenced several times are never bound (C142_unfiltered_violated)."
  },
  {
   "property": "C143",
   "status": "partial",
   "theorems": [
    "PB.PlanReadProps.C143_sound",
    "PB.PlanReadProps.C143_lookup_partial",
    "PB.PlanReadProps.C143_lookup_violated"
   ],
   "note": "an unaliased table may be resolved to an aliased reference to the same relation (C143_lookup_violated)."
  },
  {
   "property": "C144",
   "status": "partial",
   "theorems": [
    "PB.PlanReadProps.C144_leftdeep",
    "PB.PlanReadProps.C144_wrapper",
    "PB.PlanReadProps.C144_rest_violated",
    "PB.PlanReadProps.C144_materialized_violated",
    "PB.PlanReadProps.C144_block_violated",
    "PB.PlanReadProps.C144_list_violated",
    "PB.PlanReadProps.C144_wrapped_list_violated",
    "PB.PlanReadProps.C144_empty_entry_violated"
   ],
   "note": "entries after the first operator are ignored (C144_rest_violated), materialized subqueries are lost or cannot be read (C144_materialized_violated, C144_block_violated), lists of subqueries cannot be read (C144_list_violated)."
  },
  {
   "property": "C145",
   "status": "partial",
   "theorems": [
    "PB.PlanReadProps.C145_costs",
    "PB.PlanReadProps.C145_cards_partial",
    "PB.PlanReadProps.C145_zero_violated"
   ],
   "note": "zero rows and zero costs become unknown (C145_zero_violated)."
  },
  {
   "property": "C146",
   "status": "partial",
   "theorems": [
    "PB.RandomizedProps.C146_valid",
    "PB.RandomizedProps.C146_base",
    "PB.RandomizedProps.C146_complete",
    "PB.RandomizedProps.C146_cross",
    "PB.RandomizedProps.C146_cross_violated"
   ],
   "note": "Probabilities are not modelled. Queries of which at most one table occurs in predicates get join orders without their other tables instead of an error (C146_cross_violated)."
  },
  {
   "property": "C147",
   "status": "proved",
   "theorems": [
    "PB.RandomizedProps.C147_valid",
    "PB.RandomizedProps.C147_linear",
    "PB.RandomizedProps.C147_complete"
   ],
   "note": "Linear trees over connected orders, sound and complete."
  },
  {
   "property": "C148",
   "status": "partial",
   "theorems": [
    "PB.RandomizedProps.C148_unique_partial",
    "PB.RandomizedProps.C148_single_violated"
   ],
   "note": "for single tables, duplicates are yielded (C148_single_violated). Hash collisions are not modelled."
  },
  {
   "property": "C149",
   "status": "partial",
   "theorems": [
    "PB.RandomizedProps.C149_allowed",
    "PB.RandomizedProps.C149_operators_partial",
    "PB.RandomizedProps.C149_empty_violated",
    "PB.RandomizedProps.C149_noorder_violated",
    "PB.RandomizedProps.C149_plans_violated"
   ],
   "note": "generation fails without usable operators (C149_empty_violated) or without join order (C149_noorder_violated); plans can never be generated (C149_plans_violated)."
  },
  {
   "property": "C150",
   "status": "partial",
   "theorems": [
    "PB.RelalgProps.C150_rows_partial",
    "PB.RelalgProps.C150_distinct_violated",
    "PB.RelalgProps.C150_limit_violated",
    "PB.RelalgProps.C150_constant_violated"
   ],
   "note": "Without subqueries. DISTINCT and LIMIT are ignored (C150_distinct_violated, C150_limit_violated) and conditions without tables can get lost (C150_constant_violated)."
  },
  {
   "property": "C151",
   "status": "partial",
   "theorems": [
    "PB.RelalgProps.C151_applicable_partial",
    "PB.RelalgProps.C151_sort_violated",
    "PB.RelalgProps.C151_group_violated",
    "PB.RelalgProps.C151_provided"
   ],
   "note": "The expressions of ORDER BY and GROUP BY are not computed (C151_sort_violated, C151_group_violated)."
  },
  {
   "property": "C152",
   "status": "partial",
   "theorems": [
    "PB.RelalgProps.C152_having_violated",
    "PB.RelalgProps.C152_having_partial"
   ],
   "note": "conditions that mention exactly one table are dropped (C152_having_violated)."
  },
  {
   "property": "C153",
   "status": "partial",
   "theorems": [
    "PB.RelalgProps.C153_order_violated",
    "PB.RelalgProps.C153_simple_partial"
   ],
   "note": "Success depends on the order of a set for other conditions (C153_order_violated)."
  },
  {
   "property": "C154",
   "status": "partial",
   "theorems": [
    "PB.RelalgProps.C154_or_violated",
    "PB.RelalgProps.C154_or_duplicates_violated",
    "PB.RelalgProps.C154_in_violated",
    "PB.RelalgProps.C154_exists_partial"
   ],
   "note": "OR over subqueries does not filter or duplicates rows, IN with values and a subquery requires both (C154_or_violated, C154_or_duplicates_violated, C154_in_violated)."
  },
  {
   "property": "C155",
   "status": "partial",
   "theorems": [
    "PB.RelalgProps.C155_union_violated",
    "PB.RelalgProps.C155_operator_partial"
   ],
   "note": "the second part contains a cross product with the tables of the first (C155_union_violated)."
  },
  {
   "property": "C156",
   "status": "partial",
   "theorems": [
    "PB.NspProps.C156_resolution_partial",
    "PB.NspProps.C156_selfjoin_violated",
    "PB.NspProps.C156_correlated_selfjoin_violated",
    "PB.NspProps.C156_correlated_unqualified_violated",
    "PB.NspProps.C156_alias_violated",
    "PB.NspProps.C156_renamed_cte_violated",
    "PB.NspProps.C156_shadowing_cte_violated",
    "PB.NspProps.C156_subquery_name_violated",
    "PB.NspProps.C156_column_aliases_violated",
    "PB.NspProps.C156_function_violated",
    "PB.NspProps.C156_ambiguous_violated"
   ],
   "note": "A name must be used in one role in the statement. Wrong or missing tables for self-joins without alias, correlated columns without qualifier, columns with the name of a SELECT alias, renamed WITH queries, names that hide tables, column alias lists, functions; ambiguous columns are accepted (C156_..._violated)."
  },
  {
   "property": "C157",
   "status": "proved",
   "theorems": [
    "PB.NspProps.C157_cache"
   ],
   "note": ""
  },
  {
   "property": "C158",
   "status": "partial",
   "theorems": [
    "PB.NspProps.C158_schema_cache_partial",
    "PB.NspProps.C158_changed_table_violated"
   ],
   "note": "schemas of the same connection are equal, so changed tables are not noticed (C158_changed_table_violated)."
  },
  {
   "property": "C159",
   "status": "partial",
   "theorems": [
    "PB.PExpProps.C159_meaning_partial",
    "PB.PExpProps.C159_condition_partial",
    "PB.PExpProps.C159_aggregate_order_violated",
    "PB.PExpProps.C159_window_violated",
    "PB.PExpProps.C159_bpchar_violated",
    "PB.PExpProps.C159_interval_violated",
    "PB.PExpProps.C159_type_schema_violated",
    "PB.PExpProps.C159_quoted_function_violated"
   ],
   "note": "ORDER BY in aggregates, `*`, DISTINCT and frames of window functions, schemas of types and the case of quoted function names are lost; bpchar and intervals with precision become other types (C159_..._violated)."
  },
  {
   "property": "C160",
   "status": "proved",
   "theorems": [
    "PB.PExpProps.C160_accepted"
   ],
   "note": ""
  },
  {
   "property": "C161",
   "status": "partial",
   "theorems": [
    "PB.PStmtProps.C161_meaning_partial",
    "PB.PStmtProps.C161_expressions_partial",
    "PB.PStmtProps.C161_join_violated",
    "PB.PStmtProps.C161_aliases_violated",
    "PB.PStmtProps.C161_values_violated",
    "PB.PStmtProps.C161_all_violated",
    "PB.PStmtProps.C161_ties_violated",
    "PB.PStmtProps.C161_limit_zero_violated",
    "PB.PStmtProps.C161_locking_violated"
   ],
   "note": "USING, NATURAL, aliases of joins, column aliases, ONLY, WITH ORDINALITY, ORDER BY and LIMIT of VALUES, ALL of INTERSECT and EXCEPT, WITH TIES and FOR UPDATE are lost; LIMIT 0 OFFSET n becomes OFFSET n (C161_..._violated). The translation of expressions is assumed to keep their values (C159)."
  },
  {
   "property": "C162",
   "status": "partial",
   "theorems": [
    "PB.PStmtProps.C162_class_partial",
    "PB.PStmtProps.C162_two_joins_violated"
   ],
   "note": "FROM clauses with several joins and nothing else are rejected (C162_two_joins_violated)."
  },
  {
   "property": "C163",
   "status": "proved",
   "theorems": [
    "PB.PStmtProps.C163_accepted"
   ],
   "note": ""
  },
  {
   "property": "C164",
   "status": "partial",
   "theorems": [
    "PB.PTextProps.C164_leading_comments_partial",
    "PB.PTextProps.C164_inner_violated",
    "PB.PTextProps.C164_rejected_violated",
    "PB.PTextProps.C164_nested_violated",
    "PB.PTextProps.C164_slash_violated",
    "PB.PTextProps.C164_after_set_violated"
   ],
   "note": "Comments inside of the query and even inside of string constants are taken as hints; queries with an unclosed /* in a string are rejected; nested comments are cut; /*/ counts as a complete comment; line comments after SET commands are lost (C164_..._violated)."
  },
  {
   "property": "C165",
   "status": "partial",
   "theorems": [
    "PB.PTextProps.C165_commands_partial",
    "PB.PTextProps.C165_quotes_violated",
    "PB.PTextProps.C165_local_violated",
    "PB.PTextProps.C165_list_violated",
    "PB.PTextProps.C165_rejected_violated",
    "PB.PTextProps.C165_no_hints_violated"
   ],
   "note": "Quotes in values are not escaped, SET LOCAL becomes SET, only the first value of a list is kept, numbers are rejected, include_hints=False drops the commands (C165_..._violated)."
  },
  {
   "property": "C166",
   "status": "partial",
   "theorems": [
    "PB.PTextProps.C166_explain_partial",
    "PB.PTextProps.C166_analyze_false_violated"
   ],
   "note": "EXPLAIN (ANALYZE false) is parsed to a clause that executes the query (C166_analyze_false_violated)."
  },
  {
   "property": "C167",
   "status": "partial",
   "theorems": [
    "PB.PTextProps.C167_accepted",
    "PB.PTextProps.C167_schema_partial",
    "PB.PTextProps.C167_bind_violated",
    "PB.PTextProps.C167_set_query_violated"
   ],
   "note": "accept_set_query=False has no effect, bind_columns=False is ignored if a schema is passed (C167_..._violated). The acceptance is characterised completely (C167_accepted)."
  },
  {
   "property": "C168",
   "status": "partial",
   "theorems": [
    "PB.SchemaProps.C168_primary_partial",
    "PB.SchemaProps.C168_names_violated",
    "PB.SchemaProps.C168_key_column_partial",
    "PB.SchemaProps.C168_postgres_partial"
   ],
   "note": "Constraints of different tables with the same name are mixed up (C168_names_violated)."
  },
  {
   "property": "C169",
   "status": "partial",
   "theorems": [
    "PB.SchemaProps.C169_secondary_partial",
    "PB.SchemaProps.C169_constraints_violated",
    "PB.SchemaProps.C169_postgres_partial",
    "PB.SchemaProps.C169_both_violated",
    "PB.SchemaProps.C169_indexes"
   ],
   "note": "The generic interface reports constraints rather than indexes: foreign keys count as indexed, CREATE INDEX is ignored (C169_constraints_violated); on Postgres a column in two indexes takes the kind of the last one (C169_both_violated). The list of indexes is complete (C169_indexes)."
  },
  {
   "property": "C170",
   "status": "partial",
   "theorems": [
    "PB.SchemaProps.C170_postgres_partial",
    "PB.SchemaProps.C170_composite_violated",
    "PB.SchemaProps.C170_schema_violated",
    "PB.SchemaProps.C170_names_violated",
    "PB.SchemaProps.C170_generic_violated",
    "PB.SchemaProps.C170_duckdb_partial",
    "PB.SchemaProps.C170_duckdb_violated"
   ],
   "note": "Composite keys yield all combinations of columns, keys into other schemas are lost, same names are mixed up, the generic interface returns schema and table as table and column, DuckDB ignores composite keys (C170_..._violated)."
  },
  {
   "property": "C171",
   "status": "partial",
   "theorems": [
    "PB.SchemaProps.C171_tables_partial",
    "PB.SchemaProps.C171_cache_violated"
   ],
   "note": "The first answer is cached and returned for all later arguments (C171_cache_violated)."
  },
  {
   "property": "C172",
   "status": "partial",
   "theorems": [
    "PB.SchemaProps.C172_column_info",
    "PB.SchemaProps.C172_columns",
    "PB.SchemaProps.C172_view_partial",
    "PB.SchemaProps.C172_view_violated"
   ],
   "note": "is_view ignores the schema (C172_view_violated). Columns, data types and nullability are complete (C172_column_info, C172_columns)."
  },
  {
   "property": "C173",
   "status": "partial",
   "theorems": [
    "PB.SchemaProps.C173_lookup_partial",
    "PB.SchemaProps.C173_many_partial",
    "PB.SchemaProps.C173_order_violated",
    "PB.SchemaProps.C173_generic_violated"
   ],
   "note": "More than five candidates are visited in the order of a set; the generic interface never finds the table of an unbound column (C173_..._violated)."
  },
  {
   "property": "C174",
   "status": "partial",
   "theorems": [
    "PB.SchemaProps.C174_graph_partial",
    "PB.SchemaProps.C174_composite_violated"
   ],
   "note": "A single composite primary key makes the graph fail (C174_composite_violated)."
  },
  {
   "property": "C175",
   "status": "proved",
   "theorems": [
    "PB.SchemaProps.C175_classes"
   ],
   "note": "Stated for any interface that provides tables, columns and foreign keys; the answers of the concrete interfaces are the subject of C170-C172."
  },
  {
   "property": "C176",
   "status": "partial",
   "theorems": [
    "PB.QExecProps.C176_postgres_partial",
    "PB.QExecProps.C176_mysql_partial",
    "PB.QExecProps.C176_duckdb_partial",
    "PB.QExecProps.C176_switches_partial",
    "PB.QExecProps.C176_answer",
    "PB.QExecProps.C176_stale_violated",
    "PB.QExecProps.C176_update_violated",
    "PB.QExecProps.C176_reset_violated",
    "PB.QExecProps.C176_duckdb_default_violated"
   ],
   "note": "Results are stale after changes of the data, cached updates are not repeated, reset_cache does not discard the file, DuckDB ignores the connection-wide flag (C176_..._violated). Transparency is proved for servers that do not change the data, for Postgres, MySQL and DuckDB."
  },
  {
   "property": "C177",
   "status": "partial",
   "theorems": [
    "PB.QExecProps.C177_simplify_partial",
    "PB.QExecProps.C177_lossless_partial",
    "PB.QExecProps.C177_array_violated",
    "PB.QExecProps.C177_loaded_violated",
    "PB.QExecProps.C177_mysql"
   ],
   "note": "Single arrays, and single rows from the cache file, cannot be told from columns (C177_..._violated)."
  },
  {
   "property": "C178",
   "status": "partial",
   "theorems": [
    "PB.QExecProps.C178_settings_partial",
    "PB.QExecProps.C178_local_violated",
    "PB.QExecProps.C178_leak_violated",
    "PB.QExecProps.C178_duckdb_violated"
   ],
   "note": "SET LOCAL settings, which the hints of PostBOUND use, have no effect; SET settings stay in force; DuckDB executes the characters of the statements (C178_..._violated)."
  },
  {
   "property": "C179",
   "status": "partial",
   "theorems": [
    "PB.QExecProps.C179_roundtrip_partial",
    "PB.QExecProps.C179_tuple_violated",
    "PB.QExecProps.C179_decimal_violated",
    "PB.QExecProps.C179_dict_violated"
   ],
   "note": "Tuples become lists, a single decimal number destroys the cache, dictionaries with a key $date become dates (C179_..._violated)."
  },
  {
   "property": "C180",
   "status": "partial",
   "theorems": [
    "PB.QExecProps.C180_rejected_partial",
    "PB.QExecProps.C180_update_violated"
   ],
   "note": "UPDATE, DELETE and INSERT commands are executed and reported as errors (C180_update_violated)."
  },
  {
   "property": "C181",
   "status": "partial",
   "theorems": [
    "PB.ExecProps.C181_in_time_partial",
    "PB.ExecProps.C181_timeout_partial",
    "PB.ExecProps.C181_errors_partial",
    "PB.ExecProps.C181_progress",
    "PB.ExecProps.C181_same_partial",
    "PB.ExecProps.C181_killed_violated",
    "PB.ExecProps.C181_cached_violated",
    "PB.ExecProps.C181_command_violated",
    "PB.ExecProps.C181_late_violated"
   ],
   "note": "A worker that is killed makes the call hang or is reported as a timeout, cached results are not simplified, commands without rows fail, and a query may be committed in spite of the timeout (C181_..._violated)."
  },
  {
   "property": "C182",
   "status": "partial",
   "theorems": [
    "PB.ExecProps.C182_schedule",
    "PB.ExecProps.C182_threads",
    "PB.ExecProps.C182_results_partial",
    "PB.ExecProps.C182_callback_violated",
    "PB.ExecProps.C182_error_violated",
    "PB.ExecProps.C182_twice_violated"
   ],
   "note": "A failing query discards the results of the others, the callback gets pairs, and draining twice repeats the old results (C182_..._violated). The schedule of the pool is complete (C182_schedule)."
  },
  {
   "property": "C183",
   "status": "partial",
   "theorems": [
    "PB.QGenProps.C183_tables",
    "PB.QGenProps.C183_joins",
    "PB.QGenProps.C183_connected_partial",
    "PB.QGenProps.C183_cross_violated",
    "PB.QGenProps.C183_unrelated_violated"
   ],
   "note": "Unrelated tables lead to cross products or errors (C183_cross_violated, C183_unrelated_violated). Connectedness is proved for connected schemas; the bounds on tables and the join predicates are proved without restriction."
  },
  {
   "property": "C184",
   "status": "partial",
   "theorems": [
    "PB.QGenProps.C184_filters",
    "PB.QGenProps.C184_min_partial",
    "PB.QGenProps.C184_single_violated",
    "PB.QGenProps.C184_lost_violated",
    "PB.QGenProps.C184_error_violated",
    "PB.QGenProps.C184_null_violated"
   ],
   "note": "A query never has exactly one filter: a single filter is replaced by the joins or leads to an error; values may be NULL (C184_..._violated)."
  },
  {
   "property": "C185",
   "status": "partial",
   "theorems": [
    "PB.QGenProps.C185_exact_violated",
    "PB.QGenProps.C185_no_columns_violated",
    "PB.QGenProps.C185_zero_violated",
    "PB.QGenProps.C185_progress_partial"
   ],
   "note": "Equal bounds on the filters or tables without filterable columns make the generator loop forever; zero filters means no limit (C185_..._violated)."
  },
  {
   "property": "C186",
   "status": "partial",
   "theorems": [
    "PB.SIProps.C186_rows_partial",
    "PB.SIProps.C186_distinct_partial",
    "PB.SIProps.C186_min_max_partial",
    "PB.SIProps.C186_mcv_partial",
    "PB.SIProps.C186_bound_partial",
    "PB.SIProps.C186_null_violated",
    "PB.SIProps.C186_stale_violated",
    "PB.SIProps.C186_histogram_violated"
   ],
   "note": "Proved while the data does not change (or without the cache) and if no value is exactly as frequent as NULL; cached results are never updated, histograms use the cached row count even without caching, and a tie with NULL raises an error (C186_..._violated)."
  },
  {
   "property": "C187",
   "status": "partial",
   "theorems": [
    "PB.SIProps.C187_analyzed_partial",
    "PB.SIProps.C187_rounding_partial",
    "PB.SIProps.C187_rounding_violated",
    "PB.SIProps.C187_fresh_violated",
    "PB.SIProps.C187_perfect_violated",
    "PB.SIProps.C187_twice_partial",
    "PB.SIProps.C187_sticky_violated"
   ],
   "note": "Proved for exact estimates; floating point ratios may lose one value, relations that have never been analyzed have -1 rows, perfect_n_distinct has no effect before the next update and is then kept although the data changes (C187_..._violated)."
  },
  {
   "property": "C188",
   "status": "partial",
   "theorems": [
    "PB.SIProps.C188_source",
    "PB.SIProps.C188_native",
    "PB.SIProps.C188_answer_partial",
    "PB.SIProps.C188_mysql_violated"
   ],
   "note": "The MySQL statistics interface cannot be created (C188_mysql_violated)."
  },
  {
   "property": "C189",
   "status": "partial",
   "theorems": [
    "PB.CebProps.C189_text_partial",
    "PB.CebProps.C189_literal_partial",
    "PB.CebProps.C189_in_partial",
    "PB.CebProps.C189_quote_violated",
    "PB.CebProps.C189_like_violated",
    "PB.CebProps.C189_unqualified_violated",
    "PB.CebProps.C189_nested_violated"
   ],
   "note": "Proved for templates and values without <<, texts without quotes and predicates other than LIKE; quotes are not escaped, LIKE patterns are quoted twice, placeholders in values are replaced, columns without table raise (C189_..._violated)."
  },
  {
   "property": "C190",
   "status": "partial",
   "theorems": [
    "PB.CebProps.C190_scalar",
    "PB.CebProps.C190_in_partial",
    "PB.CebProps.C190_uniform_violated",
    "PB.CebProps.C190_weights_violated",
    "PB.CebProps.C190_min_violated"
   ],
   "note": "Scalar predicates in full, IN predicates for weighted sampling; uniform sampling for IN cannot be written into a query, minimum sizes above one and weight columns are never accepted (C190_..._violated)."
  },
  {
   "property": "C191",
   "status": "partial",
   "theorems": [
    "PB.CebProps.C191_consistent_partial",
    "PB.CebProps.C191_refresh_violated",
    "PB.CebProps.C191_order_violated"
   ],
   "note": "Proved if nothing is drawn twice and each predicate has at most one dependency; values are drawn again without their other dependents, and predicates with two dependencies fail (C191_..._violated)."
  },
  {
   "property": "C192",
   "status": "partial",
   "theorems": [
    "PB.CebProps.C192_complete_partial",
    "PB.CebProps.C192_unique",
    "PB.CebProps.C192_short_violated",
    "PB.CebProps.C192_titles_violated"
   ],
   "note": "Uniqueness in full; completeness if enough queries appear within the tries and titles are unique; otherwise queries may be missing silently (C192_..._violated)."
  },
  {
   "property": "C193",
   "status": "partial",
   "theorems": [
    "PB.AnalysisProps.C193_star_partial",
    "PB.AnalysisProps.C193_single_violated",
    "PB.AnalysisProps.C193_key_violated"
   ],
   "note": "Proved for keys unless a single row of the fact table satisfies the filters: then there is an error (C193_single_violated); columns that are no keys give wrong numbers (C193_key_violated)."
  },
  {
   "property": "C194",
   "status": "partial",
   "theorems": [
    "PB.AnalysisProps.C194_comm",
    "PB.AnalysisProps.C194_defined",
    "PB.AnalysisProps.C194_shared_partial",
    "PB.AnalysisProps.C194_range_violated",
    "PB.AnalysisProps.C194_bottomup_violated"
   ],
   "note": "Top-down: defined, not negative and symmetric for all join trees; scores exceed 1 (C194_range_violated). Bottom-up: always raises (C194_bottomup_violated). The score is positive exactly for trees with common tables, and at most 1 without reinforcement (C194_shared_partial)."
  },
  {
   "property": "C195",
   "status": "partial",
   "theorems": [
    "PB.AnalysisProps.C195_scan_partial",
    "PB.AnalysisProps.C195_join_violated"
   ],
   "note": "Only single tables and empty join trees work; every join raises (C195_join_violated)."
  },
  {
   "property": "C196",
   "status": "partial",
   "theorems": [
    "PB.AnalysisProps.C196_lines_partial",
    "PB.AnalysisProps.C196_lines_violated",
    "PB.AnalysisProps.C196_empty_violated"
   ],
   "note": "Proved for texts with the same number of lines; surplus lines are lost and an empty left text raises (C196_..._violated)."
  },
  {
   "property": "C197",
   "status": "partial",
   "theorems": [
    "PB.TrainDataProps.C197_satisfies",
    "PB.TrainDataProps.C197_conform_partial",
    "PB.TrainDataProps.C197_order_violated"
   ],
   "note": "Proved except for the order of the features, which stays that of the dataset (C197_order_violated)."
  },
  {
   "property": "C198",
   "status": "partial",
   "theorems": [
    "PB.TrainDataProps.C198_df_partial",
    "PB.TrainDataProps.C198_from",
    "PB.TrainDataProps.C198_item",
    "PB.TrainDataProps.C198_all_partial",
    "PB.TrainDataProps.C198_renamed_violated"
   ],
   "note": "Proved if columns are named like the features, in particular for from_df; other columns are not renamed (C198_renamed_violated)."
  },
  {
   "property": "C199",
   "status": "partial",
   "theorems": [
    "PB.TrainDataProps.C199_with_partial",
    "PB.TrainDataProps.C199_merge_partial",
    "PB.TrainDataProps.C199_extra_violated",
    "PB.TrainDataProps.C199_renamed_violated"
   ],
   "note": "Proved if columns are named like the features and the first dataset has no more features than the others; otherwise merging raises or loses values (C199_..._violated)."
  },
  {
   "property": "C200",
   "status": "partial",
   "theorems": [
    "PB.TrainDataProps.C200_first",
    "PB.TrainDataProps.C200_all",
    "PB.TrainDataProps.C200_merged_partial",
    "PB.TrainDataProps.C200_single_violated",
    "PB.TrainDataProps.C200_extra_violated"
   ],
   "note": "First and all in full; merged if at least two datasets match and the first has no more features than the others (C200_..._violated otherwise)."
  },
  {
   "property": "C201",
   "status": "partial",
   "theorems": [
    "PB.FormatProps.C201_words_partial",
    "PB.FormatProps.C201_literal_violated",
    "PB.FormatProps.C201_zero_violated",
    "PB.FormatProps.C201_values_violated",
    "PB.FormatProps.C201_parentheses_violated"
   ],
   "note": "Proved for all queries whose literals contain no line breaks (C201_literal_violated), without limits of zero rows, which are dropped (C201_zero_violated), without joins between joins, which lose their parentheses (C201_parentheses_violated), and except for RECURSIVE and MATERIALIZED of a single list of values (C201_values_violated). Expressions are given by their texts; casts are not modelled."
  },
  {
   "property": "C202",
   "status": "partial",
   "theorems": [
    "PB.FormatProps.C202_words_partial",
    "PB.FormatProps.C202_set_violated",
    "PB.FormatProps.C202_glue_violated",
    "PB.FormatProps.C202_explain_violated",
    "PB.FormatProps.C202_join_violated"
   ],
   "note": "Proved for all queries without set operations, whose texts have no parentheses and no spaces between clauses (C202_set_violated, C202_glue_violated, C202_explain_violated), and without joins on the right-hand side of joins (C202_join_violated)."
  },
  {
   "property": "C203",
   "status": "partial",
   "theorems": [
    "PB.FormatProps.C203_same_partial",
    "PB.FormatProps.C203_limit_violated"
   ],
   "note": "Proved for queries that can be written in both ways and have no limits; C203_limit_violated shows that limits are written differently."
  },
  {
   "property": "C204",
   "status": "partial",
   "theorems": [
    "PB.NativeProps.C204_sound_partial",
    "PB.NativeProps.C204_complete_partial",
    "PB.NativeProps.C204_count_partial",
    "PB.NativeProps.C204_sort_violated",
    "PB.NativeProps.C204_intermediate_violated",
    "PB.NativeProps.C204_raise_violated"
   ],
   "note": "Proved for all plans whose root is no intermediate operator. Sorts always raise an error (C204_sort_violated), materializations and memoizations never obtain a finite cost (C204_intermediate_violated), and their errors are never raised (C204_raise_violated)."
  },
  {
   "property": "C205",
   "status": "partial",
   "theorems": [
    "PB.NativeProps.C205_native_partial",
    "PB.NativeProps.C205_parameters_violated"
   ],
   "note": "Proved for join orders and operators; the parameterization never returns parameters (C205_parameters_violated)."
  },
  {
   "property": "C206",
   "status": "partial",
   "theorems": [
    "PB.NativeProps.C206_native",
    "PB.NativeProps.C206_empty_partial",
    "PB.NativeProps.C206_stages",
    "PB.NativeProps.C206_hints",
    "PB.NativeProps.C206_geqo_violated",
    "PB.NativeProps.C206_lab_violated"
   ],
   "note": "Proved for all systems that follow hints and ignore empty hints. The hints of PostBOUND for empty stages are computed in C206_hints: the genetic optimizer is disabled for large queries (C206_geqo_violated) and the mode of pg_lab is changed (C206_lab_violated)."
  },
  {
   "property": "C207",
   "status": "partial",
   "theorems": [
    "PB.PgConfProps.C207_history_partial",
    "PB.PgConfProps.C207_objects_violated",
    "PB.PgConfProps.C207_items_violated"
   ],
   "note": "Proved for all histories of changes by name. PostgresSetting objects are stored under their entire SET command (C207_objects_violated), item assignments break the configuration (C207_items_violated)."
  },
  {
   "property": "C208",
   "status": "partial",
   "theorems": [
    "PB.PgConfProps.C208_restore_partial",
    "PB.PgConfProps.C208_missing_violated",
    "PB.PgConfProps.C208_atomic",
    "PB.PgConfProps.C208_apply",
    "PB.PgConfProps.C208_setting",
    "PB.PgConfProps.C208_quotes_violated"
   ],
   "note": "Proved for all values without quotes and all listed settings. recursive_worktable_factor and autovacuum are missing because of a missing comma (C208_missing_violated), quotes are not escaped (C208_quotes_violated)."
  },
  {
   "property": "C209",
   "status": "partial",
   "theorems": [
    "PB.ShifterProps.C209_ordered",
    "PB.ShifterProps.C209_count",
    "PB.ShifterProps.C209_request",
    "PB.ShifterProps.C209_random_partial",
    "PB.ShifterProps.C209_random_any",
    "PB.ShifterProps.C209_names_violated"
   ],
   "note": "Proved for ordered removals and for random removals whose key has an ordinary name; keys with the names sample_id and _pb_rand_val remove all rows (C209_names_violated)."
  },
  {
   "property": "C210",
   "status": "partial",
   "theorems": [
    "PB.ShifterProps.C210_transfer",
    "PB.ShifterProps.C210_exact_partial",
    "PB.ShifterProps.C210_null_violated",
    "PB.ShifterProps.C210_duplicates_violated",
    "PB.ShifterProps.C210_share_violated",
    "PB.ShifterProps.C210_import_violated"
   ],
   "note": "The transfer is proved in general, the exactness for unique columns without NULL. Violated for NULL, for duplicates, for shares of at most half a percent, and for imports that only name the marker table."
  },
  {
   "property": "C211",
   "status": "partial",
   "theorems": [
    "PB.ConnectProps.C211_new",
    "PB.ConnectProps.C211_reuse",
    "PB.ConnectProps.C211_stable",
    "PB.ConnectProps.C211_duckdb_violated",
    "PB.ConnectProps.C211_file_violated",
    "PB.ConnectProps.C211_mysql",
    "PB.ConnectProps.C211_live",
    "PB.ConnectProps.C211_any",
    "PB.ConnectProps.C211_current"
   ],
   "note": "Proved for Postgres. DuckDB replaces the registered connection on refresh, in contrast to its documentation (C211_duckdb_violated), and ignores the file and the private flag for known names (C211_file_violated)."
  },
  {
   "property": "C212",
   "status": "partial",
   "theorems": [
    "PB.ConnectProps.C212_params_partial",
    "PB.ConnectProps.C212_env_partial",
    "PB.ConnectProps.C212_order",
    "PB.ConnectProps.C212_quote_violated",
    "PB.ConnectProps.C212_backslash_violated"
   ],
   "note": "Proved for values without quotes and backslashes; quotes allow for additional parameters and backslashes are dropped (C212_quote_violated, C212_backslash_violated)."
  },
  {
   "property": "C213",
   "status": "partial",
   "theorems": [
    "PB.UesStatsProps.C213_exact_partial",
    "PB.UesStatsProps.C213_empty_violated",
    "PB.UesStatsProps.C213_uniform_violated",
    "PB.UesStatsProps.C213_catalog",
    "PB.UesStatsProps.C213_native",
    "PB.UesStatsProps.C213_wrapper_partial",
    "PB.UesStatsProps.C213_wrapper_violated"
   ],
   "note": "Exact for non-empty relations. Empty relations lead to a division by zero (C213_empty_violated), averages are used if the catalog has no common values (C213_uniform_violated), failed requests leave the estimator in another state (C213_wrapper_violated)."
  },
  {
   "property": "C214",
   "status": "partial",
   "theorems": [
    "PB.UesStatsProps.C214_binary",
    "PB.UesStatsProps.C214_star_partial"
   ],
   "note": "Proved for two tables and for star queries, as a composition of C213, C186 and C55. Other queries: C55_chain_violated."
  },
  {
   "property": "C215",
   "status": "partial",
   "theorems": [
    "PB.MoveSubProps.C215_result_partial",
    "PB.MoveSubProps.C215_defined_partial",
    "PB.MoveSubProps.C215_star_violated",
    "PB.MoveSubProps.C215_mixed_violated",
    "PB.MoveSubProps.C215_scope_violated",
    "PB.MoveSubProps.C215_explicit_violated",
    "PB.MoveSubProps.C215_tables_violated",
    "PB.MoveSubProps.C215_name_violated"
   ],
   "note": "Equal results (as multisets of rows) for queries over plain tables whose predicates are filters of one table or joins of two tables and do not repeat each other. Violated for SELECT *, ORs of joins and filters, filters over several tables, explicit joins and clashes of the default name; the FROM clause of the result reports no tables (C215_star/mixed/scope/explicit/name/tables_violated)."
  },
  {
   "property": "C216",
   "status": "partial",
   "theorems": [
    "PB.JsonTextProps.C216_loads",
    "PB.JsonTextProps.C216_roundtrip_partial",
    "PB.JsonTextProps.C216_injective",
    "PB.JsonTextProps.C216_ascii",
    "PB.JsonTextProps.C216_errors",
    "PB.JsonTextProps.C216_none_violated",
    "PB.JsonTextProps.C216_keys_violated",
    "PB.JsonTextProps.C216_nested_violated"
   ],
   "note": "Round trip for all values that json.loads can yield except None at the top, given that repr of finite floats has the documented shape and is inverted by float. to_json(None) is not a text, keys like 1 and \"1\" collide, and __json__ of nested data classes is ignored (C216_none/keys/nested_violated). Unpaired surrogates in strings are not modelled (characters are Unicode scalar values)."
  },
  {
   "property": "C217",
   "status": "partial",
   "theorems": [
    "PB.PlanJsonProps.C217_read_partial",
    "PB.PlanJsonProps.C217_plan_partial",
    "PB.PlanJsonProps.C217_schema_violated",
    "PB.PlanJsonProps.C217_lookup_violated",
    "PB.PlanJsonProps.C217_fails_violated",
    "PB.PlanJsonProps.C217_precision_violated",
    "PB.PlanJsonProps.C217_overflow_violated",
    "PB.PlanJsonProps.C217_operator_partial",
    "PB.PlanJsonProps.C217_operator_violated"
   ],
   "note": "Proved for plans without subplans, sort keys, schemas and expression lookup keys (C217_plan_partial); in general tables lose their schemas and lookup keys become dictionaries (C217_read_partial). Plans with a sort key, subplan or filter without tables can be written but never read (C217_fails_violated), cardinalities are written as floats (C217_precision/overflow_violated), and the text of a plain operator is not accepted (C217_operator_violated). The SQL parser is a parameter (C217 assumes that it reads the printed filter)."
  },
  {
   "property": "C218",
   "status": "partial",
   "theorems": [
    "PB.PlanBagProps.C218_history",
    "PB.PlanBagProps.C218_unique",
    "PB.PlanBagProps.C218_reads",
    "PB.PlanBagProps.C218_missing",
    "PB.PlanBagProps.C218_additional",
    "PB.PlanBagProps.C218_measured",
    "PB.PlanBagProps.C218_clone_partial",
    "PB.PlanBagProps.C218_method_violated",
    "PB.PlanBagProps.C218_clone_violated",
    "PB.PlanBagProps.C218_self_violated"
   ],
   "note": "Histories and reads are proved in full; values are immutable in the model (a shallow clone shares mutable values), and assigning `_params` itself is not modelled. Clones are proved equal unless special attributes were assigned; otherwise they can differ or fail (C218_clone/self_violated), and attributes hide methods of the same name (C218_method_violated)."
  },
  {
   "property": "C219",
   "status": "partial",
   "theorems": [
    "PB.PlanBagProps.C219_new_partial",
    "PB.PlanBagProps.C219_attributes",
    "PB.PlanBagProps.C219_structure",
    "PB.PlanBagProps.C219_cardinality_violated",
    "PB.PlanBagProps.C219_operator_violated",
    "PB.PlanBagProps.C219_children_violated",
    "PB.PlanBagProps.C219_subplan_violated",
    "PB.PlanBagProps.C219_update_violated"
   ],
   "note": "For arguments of the documented types. An actual cardinality next to measures and an operator next to an operator as node type are silently ignored, an iterator of children becomes the only child, a subplan may lack a root (C219_*_violated), and update_plan always raises a TypeError (C219_update_violated)."
  },
  {
   "property": "C220",
   "status": "partial",
   "theorems": [
    "PB.BenchPrepProps.C220_prepare_partial",
    "PB.BenchPrepProps.C220_deprecated",
    "PB.BenchPrepProps.C220_failing",
    "PB.BenchPrepProps.C220_rejected",
    "PB.BenchPrepProps.C220_output_violated"
   ],
   "note": "Statements, tables and clauses are opaque; warnings are not modelled. Set queries have no projection and are rejected, as are unknown projections (C220_rejected). Unknown outputs are silently ignored (C220_output_violated)."
  },
  {
   "property": "C221",
   "status": "partial",
   "theorems": [
    "PB.BenchPrepProps.C221_export",
    "PB.BenchPrepProps.C221_encoded_partial",
    "PB.BenchPrepProps.C221_encoded_violated",
    "PB.BenchPrepProps.C221_progressive_partial",
    "PB.BenchPrepProps.C221_hdf_violated",
    "PB.BenchPrepProps.C221_json_violated",
    "PB.BenchPrepProps.C221_suffix_violated"
   ],
   "note": "Values of a column are only encoded if the value of the first row is (C221_encoded_violated). HDF files keep only the last row, JSON files always raise an exception, and other suffixes are silently ignored, unless special writer arguments are given (C221_hdf/json/suffix_violated). The behaviour of pandas is an assumption of the model."
  },
  {
   "property": "C222",
   "status": "partial",
   "theorems": [
    "PB.BenchPrepProps.C222_sort_partial",
    "PB.BenchPrepProps.C222_columns_violated",
    "PB.BenchPrepProps.C222_tuple_violated"
   ],
   "note": "One column is proved. Further columns have no effect, because the ranks of the first column are distinct (C222_columns_violated), and tuples of columns, the default, raise a KeyError (C222_tuple_violated). The behaviour of pandas, numpy and natsort is an assumption of the model."
  },
  {
   "property": "C223",
   "status": "partial",
   "theorems": [
    "PB.PgToolsProps.C223_prewarm_partial",
    "PB.PgToolsProps.C223_cooldown_partial",
    "PB.PgToolsProps.C223_inactive",
    "PB.PgToolsProps.C223_virtual_violated",
    "PB.PgToolsProps.C223_schema_violated"
   ],
   "note": "For tables that exist and whose names are unique among all schemas. Virtual tables make cooldown_tables fail (C223_virtual_violated); tables of other schemas with the same name make both fail (C223_schema_violated). Quoted names are not modelled."
  },
  {
   "property": "C224",
   "status": "partial",
   "theorems": [
    "PB.PgToolsProps.C224_explainify",
    "PB.PgToolsProps.C224_explainify_violated",
    "PB.PgToolsProps.C224_shapes",
    "PB.PgToolsProps.C224_estimates"
   ],
   "note": "Estimates and shapes are proved in full. Texts with another form of EXPLAIN get a second EXPLAIN (C224_explainify_violated). Not modelled: configure_operator (it accesses `execute` on the method `cursor`, hence always raises) and uses_geqo (no implementation)."
  },
  {
   "property": "C225",
   "status": "partial",
   "theorems": [
    "PB.PgToolsProps.C225_settings",
    "PB.PgToolsProps.C225_libraries_partial",
    "PB.PgToolsProps.C225_usable",
    "PB.PgToolsProps.C225_disabled_violated",
    "PB.PgToolsProps.C225_remote_violated"
   ],
   "note": "Settings that are turned on and libraries of local servers are used as documented. pg_hint_plan is also used if it has been turned off but is loaded (C225_disabled_violated), and on all remote servers without an active backend (C225_remote_violated)."
  },
  {
   "property": "C226",
   "status": "partial",
   "theorems": [
    "PB.DuckExecProps.C226_done",
    "PB.DuckExecProps.C226_failed",
    "PB.DuckExecProps.C226_history_partial",
    "PB.DuckExecProps.C226_time_query",
    "PB.DuckExecProps.C226_cache",
    "PB.DuckExecProps.C226_late_partial",
    "PB.DuckExecProps.C226_interrupt_violated",
    "PB.DuckExecProps.C226_cached_violated"
   ],
   "note": "Without exceeded timeouts the history theorem is complete. Interrupted queries raise the exception of DuckDB instead of reporting a timeout, and keep an old runtime (C226_interrupt_violated); cached queries keep an old runtime (C226_cached_violated)."
  },
  {
   "property": "C227",
   "status": "partial",
   "theorems": [
    "PB.PipeUseProps.C227_textbook",
    "PB.PipeUseProps.C227_textbook_partial",
    "PB.PipeUseProps.C227_roles_violated",
    "PB.PipeUseProps.C227_multistage",
    "PB.PipeUseProps.C227_multistage_stages",
    "PB.PipeUseProps.C227_rejected",
    "PB.PipeUseProps.C227_incremental",
    "PB.PipeUseProps.C227_integrated_violated"
   ],
   "note": "Full characterisation for all sequences. A component with several roles only fills the first one (C227_roles_violated), and the integrated pipeline accepts components that cannot optimize queries (C227_integrated_violated)."
  },
  {
   "property": "C228",
   "status": "partial",
   "theorems": [
    "PB.PipeUseProps.C228_wrap_partial",
    "PB.PipeUseProps.C228_used",
    "PB.PipeUseProps.C228_incremental_violated",
    "PB.PipeUseProps.C228_database",
    "PB.PipeUseProps.C228_roles_violated"
   ],
   "note": "For stages with one role. Steps of incremental optimization are rejected (C228_incremental_violated); stages with several roles are used for one of them only (C228_roles_violated)."
  },
  {
   "property": "C229",
   "status": "partial",
   "theorems": [
    "PB.PipeUseProps.C229_feedback",
    "PB.PipeUseProps.C229_metrics_partial",
    "PB.PipeUseProps.C229_metrics_violated",
    "PB.PipeUseProps.C229_twice_violated",
    "PB.PipeUseProps.C229_trained_partial",
    "PB.PipeUseProps.C229_missing",
    "PB.PipeUseProps.C229_prepared",
    "PB.PipeUseProps.C229_cleanup_partial",
    "PB.PipeUseProps.C229_cleanup_violated"
   ],
   "note": "Training is complete if each training completes its kind and keeps the others. Metrics of stages with equal names are lost (C229_metrics_violated), a stage with two roles learns twice (C229_twice_violated), and an estimator is not cleaned up after an exception (C229_cleanup_violated)."
  },
  {
   "property": "C230",
   "status": "partial",
   "theorems": [
    "PB.TonicExploreProps.C230_all_partial",
    "PB.TonicExploreProps.C230_sample_partial",
    "PB.TonicExploreProps.C230_default_violated",
    "PB.TonicExploreProps.C230_empty_violated"
   ],
   "note": "Proved with an explicit limit and at least one allowed operator. The default limit makes every call fail (C230_default_violated); an empty set of allowed operators stands for all operators (C230_empty_violated)."
  },
  {
   "property": "C231",
   "status": "partial",
   "theorems": [
    "PB.WorkReadProps.C231_batch",
    "PB.WorkReadProps.C231_batch_partial",
    "PB.WorkReadProps.C231_duplicate_violated",
    "PB.WorkReadProps.C231_error",
    "PB.WorkReadProps.C231_empty_line_violated",
    "PB.WorkReadProps.C231_csv_partial",
    "PB.WorkReadProps.C231_labels_partial",
    "PB.WorkReadProps.C231_labels_violated",
    "PB.WorkReadProps.C231_fetch"
   ],
   "note": "Full characterisation for files whose lines are all queries (C231_batch). Repeated queries lose their first label (C231_duplicate_violated, C231_labels_violated). Empty lines are not skipped but raise an error (C231_empty_line_violated). The CSV parser of pandas is not modelled."
  },
  {
   "property": "C232",
   "status": "partial",
   "theorems": [
    "PB.RelMutateProps.C232_copy_partial",
    "PB.RelMutateProps.C232_as_root_partial",
    "PB.RelMutateProps.C232_again_partial",
    "PB.RelMutateProps.C232_created",
    "PB.RelMutateProps.C232_input_violated",
    "PB.RelMutateProps.C232_lost_violated",
    "PB.RelMutateProps.C232_duplicate_violated",
    "PB.RelMutateProps.C232_shared_violated"
   ],
   "note": "Proved for trees and graphs in which different nodes differ in content, for changes of attributes that are no inputs. Replacing an input can fail or lose the change (C232_input_violated, C232_lost_violated). Trees with equal nodes cannot be copied (C232_duplicate_violated), nor can trees that share nodes with a tree that has been mutated (C232_shared_violated). Relations with subqueries, semi joins and anti joins are not modelled."
  },
  {
   "property": "C233",
   "status": "partial",
   "theorems": [
    "PB.RelMutateProps.C233_hash_partial",
    "PB.RelMutateProps.C233_new",
    "PB.RelMutateProps.C233_hash_violated"
   ],
   "note": "Hash values are right if the root is changed (C233_hash_partial) and outdated whenever a node below the root is changed (C233_hash_violated, general), since nodes are rehashed before their inputs."
  },
  {
   "property": "C234",
   "status": "partial",
   "theorems": [
    "PB.RelMutateProps.C234_visit_partial",
    "PB.RelMutateProps.C234_visit_violated"
   ],
   "note": "Visitors receive themselves instead of the node for unions, intersections and differences (C234_visit_violated, for every tree that contains one)."
  },
  {
   "property": "C235",
   "status": "partial",
   "theorems": [
    "PB.NumOpsProps.C235_binary_partial",
    "PB.NumOpsProps.C235_bounded",
    "PB.NumOpsProps.C235_and_violated",
    "PB.NumOpsProps.C235_sub_partial",
    "PB.NumOpsProps.C235_sub_bounded_partial",
    "PB.NumOpsProps.C235_sub_violated",
    "PB.NumOpsProps.C235_pow_partial",
    "PB.NumOpsProps.C235_pow_bounded",
    "PB.NumOpsProps.C235_pow_violated",
    "PB.NumOpsProps.C235_modulus_violated"
   ],
   "note": "An int & an atomic integer is their sum (C235_and_violated), subtracting a non-negative bounded integer changes nothing (C235_sub_violated), an atomic integer to the power of itself waits forever (C235_pow_violated), the modulus of pow is ignored (C235_modulus_violated). True division and negative exponents are not modelled."
  },
  {
   "property": "C236",
   "status": "partial",
   "theorems": [
    "PB.NumOpsProps.C236_compare_partial",
    "PB.NumOpsProps.C236_greater_violated",
    "PB.NumOpsProps.C236_equal"
   ],
   "note": "Comparisons by > and >= with an int on the right, and by < and <= with an int on the left, raise a TypeError, as does ordering an atomic and a bounded integer (C236_compare_partial decides all cases, C236_greater_violated)."
  },
  {
   "property": "C237",
   "status": "partial",
   "theorems": [
    "PB.JoinPartsProps.C237_cross_partial",
    "PB.JoinPartsProps.C237_joins_partial",
    "PB.JoinPartsProps.C237_components",
    "PB.JoinPartsProps.C237_component_graphs",
    "PB.JoinPartsProps.C237_columns_violated",
    "PB.JoinPartsProps.C237_state_violated",
    "PB.JoinPartsProps.C237_lookup"
   ],
   "note": "Proved for joins over two columns. Joins over more columns are not part of the graph: their tables count as cross products and are separated (C237_columns_violated). Components forget the joins from the equivalence classes and which tables have been joined (C237_state_violated)."
  },
  {
   "property": "C238",
   "status": "partial",
   "theorems": [
    "PB.PlanTextProps.C238_ast_partial",
    "PB.PlanTextProps.C238_ast_determines",
    "PB.PlanTextProps.C238_ast_subplan_violated",
    "PB.PlanTextProps.C238_explain",
    "PB.PlanTextProps.C238_explain_determines_partial",
    "PB.PlanTextProps.C238_explain_subplan_violated",
    "PB.PlanTextProps.C238_explain_blank_violated",
    "PB.PlanTextProps.C238_fields",
    "PB.PlanTextProps.C238_fields_violated",
    "PB.PlanTextProps.C238_default"
   ],
   "note": "Proved for texts without line breaks. `ast` never shows subplans (C238_ast_subplan_violated), `explain` does not tell a subplan from a further child (C238_explain_subplan_violated) and prints an empty line before the subplan of a leaf (C238_explain_blank_violated); fields with two dots are errors (C238_fields_violated)."
  },
  {
   "property": "C239",
   "status": "partial",
   "theorems": [
    "PB.UesFreqProps.C239_updated_partial",
    "PB.UesFreqProps.C239_unchanged",
    "PB.UesFreqProps.C239_later_violated"
   ],
   "note": "Proved for the columns of the join condition and for columns of joins between tables that have been joined before, if all frequencies are at least one. Columns that are only used by later joins keep their frequency, although the join multiplies it (C239_later_violated)."
  },
  {
   "property": "C240",
   "status": "partial",
   "theorems": [
    "PB.MysqlProps.C240_lookup_partial",
    "PB.MysqlProps.C240_lookup_violated",
    "PB.MysqlProps.C240_details_partial",
    "PB.MysqlProps.C240_datatype_violated",
    "PB.MysqlProps.C240_keys_violated",
    "PB.MysqlProps.C240_keys_partial",
    "PB.MysqlProps.C240_unbound"
   ],
   "note": "Proved for tables whose names do not occur in other databases; the catalog queries do not restrict the database, so that tables of other databases are found and described (C240_lookup_violated, C240_datatype_violated). is_primary_key and has_secondary_index pass a text where the driver expects a tuple and always fail (C240_keys_violated)."
  },
  {
   "property": "C241",
   "status": "partial",
   "theorems": [
    "PB.MysqlProps.C241_literal_partial",
    "PB.MysqlProps.C241_nested_partial",
    "PB.MysqlProps.C241_quote_violated",
    "PB.MysqlProps.C241_null_violated",
    "PB.MysqlProps.C241_backslash_violated",
    "PB.MysqlProps.C241_cast_partial",
    "PB.MysqlProps.C241_cast_violated",
    "PB.MysqlProps.C241_explain_violated",
    "PB.MysqlProps.C241_connection_partial",
    "PB.MysqlProps.C241_types_violated",
    "PB.MysqlProps.C241_malformed",
    "PB.MysqlProps.C241_autocommit_violated"
   ],
   "note": "Literals without backslashes survive with ANSI_QUOTES; without it, double quotes break out of the literal and NULL becomes the text None. Parameters of types are dropped from casts, EXPLAIN with a format keeps the syntax of Postgres, AutoCommit makes each connection file fail, and ports remain texts (the violated theorems)."
  },
  {
   "property": "C242",
   "status": "partial",
   "theorems": [
    "PB.PgDatesProps.C242_load",
    "PB.PgDatesProps.C242_monotone",
    "PB.PgDatesProps.C242_python_roundtrip",
    "PB.PgDatesProps.C242_python_roundtrip_tz",
    "PB.PgDatesProps.C242_postgres_roundtrip_partial",
    "PB.PgDatesProps.C242_last_violated",
    "PB.PgDatesProps.C242_infinite_violated",
    "PB.PgDatesProps.C242_interval"
   ],
   "note": "The way from Python to Postgres and back is proved for all values; the other way for infinite dates and those strictly within the range. The last date of Python and all later ones are sent back as infinite (C242_last_violated); infinite timestamps with a time zone and infinite intervals are sent back as finite ones (C242_infinite_violated). Which dumper the library selects for a value is not modelled."
  },
  {
   "property": "C243",
   "status": "partial",
   "theorems": [
    "PB.QueryAstProps.C243_total_partial",
    "PB.QueryAstProps.C243_having_violated",
    "PB.QueryAstProps.C243_shows",
    "PB.QueryAstProps.C243_determines",
    "PB.QueryAstProps.C243_hidden_violated"
   ],
   "note": "Proved for all queries without HAVING clauses and without functions in FROM, with names that contain no line breaks; with them, ast fails (C243_having_violated, C243_total_partial is an equivalence). Join conditions, the operators of set operations and arithmetic expressions and some other parts do not show (C243_hidden_violated)."
  },
  {
   "property": "C244",
   "status": "proved",
   "theorems": [
    "PB.ReplacePredProps.C244_predicate",
    "PB.ReplacePredProps.C244_query",
    "PB.ReplacePredProps.C244_absent",
    "PB.ReplacePredProps.C244_truth"
   ],
   "note": "Predicates in subqueries, CTEs and explicit joins are not considered, as documented. The class of the query is kept if it fits its FROM clause, as for all queries made by the parser."
  },
  {
   "property": "C245",
   "status": "partial",
   "theorems": [
    "PB.HintQueryProps.C245_postgres_partial",
    "PB.HintQueryProps.C245_duckdb_partial",
    "PB.HintQueryProps.C245_mysql_partial",
    "PB.HintQueryProps.C245_format",
    "PB.HintQueryProps.C245_earlier_violated",
    "PB.HintQueryProps.C245_explain_partial",
    "PB.HintQueryProps.C245_format_violated",
    "PB.HintQueryProps.C245_limit_partial",
    "PB.HintQueryProps.C245_limit_violated"
   ],
   "note": "Holds for all queries whose class fits their FROM clause. Earlier hints are lost (C245_earlier_violated), EXPLAIN without format asks for the format None (C245_format_violated), and LIMIT 0 is dropped from the text (C245_limit_violated)."
  },
  {
   "property": "C246",
   "status": "partial",
   "theorems": [
    "PB.VisProps.C246_tree_partial",
    "PB.VisProps.C246_join_tree_partial",
    "PB.VisProps.C246_empty",
    "PB.VisProps.C246_self_violated"
   ],
   "note": "Proved for join trees over different tables; scans of the same table are drawn as one box (C246_self_violated)."
  },
  {
   "property": "C247",
   "status": "partial",
   "theorems": [
    "PB.VisProps.C247_nodes",
    "PB.VisProps.C247_labels_partial",
    "PB.VisProps.C247_operator_violated",
    "PB.VisProps.C247_merged_violated"
   ],
   "note": "The boxes and lines are exact for all plans (C247_nodes); labels are proved for plans without subplans and with different leaves. The operator of a node with a subplan is not shown (C247_operator_violated), and equal parts share a box (C247_merged_violated)."
  },
  {
   "property": "C248",
   "status": "partial",
   "theorems": [
    "PB.VisProps.C248_query_partial",
    "PB.VisProps.C248_query_violated",
    "PB.VisProps.C248_graph",
    "PB.VisProps.C248_annotations"
   ],
   "note": "Proved for join graphs and for queries with primary key/foreign key joins; the default call for queries always fails (C248_query_violated)."
  },
  {
   "property": "C249",
   "status": "partial",
   "theorems": [
    "PB.VisProps.C249_synopsis_partial",
    "PB.VisProps.C249_nested_violated",
    "PB.VisProps.C249_changes_violated",
    "PB.VisProps.C249_again"
   ],
   "note": "Proved for synopses without subqueries in subqueries, which are not drawn (C249_nested_violated). Drawing creates empty subqueries, which are written to JSON (C249_changes_violated), but the next picture is the same (C249_again). Random identifiers are assumed to be different."
  },
  {
   "property": "C250",
   "status": "partial",
   "theorems": [
    "PB.GridProps.C250_grid_partial",
    "PB.GridProps.C250_row_violated",
    "PB.GridProps.C250_column_violated"
   ],
   "note": "Proved for at least two columns and at least as many labels as columns. All other calls fail (C250_row_violated, C250_column_violated), because Matplotlib returns no nested arrays for single rows and columns."
  },
  {
   "property": "C251",
   "status": "partial",
   "theorems": [
    "PB.ProcProps.C251_run_partial",
    "PB.ProcProps.C251_errors",
    "PB.ProcProps.C251_directory_violated",
    "PB.ProcProps.C251_tuple_violated",
    "PB.ProcProps.C251_result",
    "PB.ProcProps.C251_equal_violated"
   ],
   "note": "Proved for commands given as texts or lists whose program can be executed. Otherwise the working directory is not restored (C251_directory_violated); tuples always fail (C251_tuple_violated), and results with the same output are equal (C251_equal_violated)."
  },
  {
   "property": "C252",
   "status": "partial",
   "theorems": [
    "PB.ProcProps.C252_shared_partial",
    "PB.ProcProps.C252_sound",
    "PB.ProcProps.C252_text_violated",
    "PB.ProcProps.C252_blank_violated"
   ],
   "note": "Proved for shared objects without blanks in their names; the listed names are characterised exactly (C252_sound). Other files are not listed (C252_text_violated) and names with blanks are cut off (C252_blank_violated)."
  },
  {
   "property": "C253",
   "status": "proved",
   "theorems": [
    "PB.ProcProps.C253_distances",
    "PB.ProcProps.C253_graph",
    "PB.ProcProps.C253_colors"
   ],
   "note": "Elements are assumed to be different, and the palette to have different colours for different numbers. The layout algorithms of NetworkX are not modelled."
  },
  {
   "property": "C254",
   "status": "partial",
   "theorems": [
    "PB.HashableProps.C254_form",
    "PB.HashableProps.C254_hashable",
    "PB.HashableProps.C254_idempotent",
    "PB.HashableProps.C254_order_violated",
    "PB.HashableProps.C254_skipped_violated"
   ],
   "note": "The form is exact at all levels and can be hashed. Equal dictionaries with another order of keys have different hashes (C254_order_violated), and values that cannot be hashed are skipped (C254_skipped_violated)."
  },
  {
   "property": "C255",
   "status": "partial",
   "theorems": [
    "PB.HashableProps.C255_simplify",
    "PB.HashableProps.C255_inverse_partial",
    "PB.HashableProps.C255_inverse_violated"
   ],
   "note": "The result of simplify is exact; it is the inverse of enlist for all values that enlist wraps, but not for lists with a single element (C255_inverse_violated)."
  },
  {
   "property": "C256",
   "status": "partial",
   "theorems": [
    "PB.PgCtlProps.C256_start_partial",
    "PB.PgCtlProps.C256_stop_partial",
    "PB.PgCtlProps.C256_running_partial",
    "PB.PgCtlProps.C256_nowhere",
    "PB.PgCtlProps.C256_path",
    "PB.PgCtlProps.C256_cycle_partial",
    "PB.PgCtlProps.C256_home_violated",
    "PB.PgCtlProps.C256_missing_violated"
   ],
   "note": "Proved for calls with a directory (argument or PGDATA) and, for is_running, without a home directory. Calls without a directory use the current one (C256_missing_violated) and is_running does not expand home directories (C256_home_violated). The behaviour of pg_ctl is a hypothesis."
  },
  {
   "property": "C257",
   "status": "proved",
   "theorems": [
    "PB.PgCtlProps.C257_configure"
   ],
   "note": "Proved for all sequences of calls."
  },
  {
   "property": "C258",
   "status": "partial",
   "theorems": [
    "PB.PgCtlProps.C258_hints_partial",
    "PB.PgCtlProps.C258_text_violated"
   ],
   "note": "Proved for parsed queries; hints for texts are ignored (C258_text_violated)."
  },
  {
   "property": "C259",
   "status": "partial",
   "theorems": [
    "PB.PgCtlProps.C259_fetch_partial",
    "PB.PgCtlProps.C259_native_violated"
   ],
   "note": "Proved for ASCII keys; the key of the native optimizer is only found in lower case (C259_native_violated)."
  },
  {
   "property": "C260",
   "status": "partial",
   "theorems": [
    "PB.CheckMsgProps.C260_message_partial",
    "PB.CheckMsgProps.C260_texts",
    "PB.CheckMsgProps.C260_hints_violated",
    "PB.CheckMsgProps.C260_supported",
    "PB.CheckMsgProps.C260_custom"
   ],
   "note": "Proved for reasons that are texts. Hints as reasons raise a type error unless the context is the database (C260_hints_violated)."
  },
  {
   "property": "C261",
   "status": "partial",
   "theorems": [
    "PB.FramesProps.C261_formats",
    "PB.FramesProps.C261_roundtrip_partial",
    "PB.FramesProps.C261_objects",
    "PB.FramesProps.C261_changes_violated",
    "PB.FramesProps.C261_missing_violated",
    "PB.FramesProps.C261_unsupported"
   ],
   "note": "Proved for data frames whose object columns contain texts only; Pandas itself is trusted to read what it wrote. Complex objects become JSON texts (C261_objects), also in the data frame of the caller (C261_changes_violated), and so do texts next to missing values (C261_missing_violated)."
  },
  {
   "property": "C262",
   "status": "proved",
   "theorems": [
    "PB.DictToolsProps.C262_single",
    "PB.DictToolsProps.C262_update",
    "PB.DictToolsProps.C262_reduce",
    "PB.DictToolsProps.C262_explode",
    "PB.DictToolsProps.C262_explode_generate",
    "PB.DictToolsProps.C262_numpy"
   ],
   "note": "Proved for all dictionaries; for arrays the keys are integers."
  },
  {
   "property": "C263",
   "status": "partial",
   "theorems": [
    "PB.NestedProps.C263_parse",
    "PB.NestedProps.C263_roundtrip_partial",
    "PB.NestedProps.C263_schema_violated",
    "PB.NestedProps.C263_tree"
   ],
   "note": "Proved for tables without schema that are not virtual; schema and virtuality are lost (C263_schema_violated)."
  },
  {
   "property": "C264",
   "status": "partial",
   "theorems": [
    "PB.LoggingProps.C264_logger_partial",
    "PB.LoggingProps.C264_pretty_violated",
    "PB.LoggingProps.C264_standard",
    "PB.LoggingProps.C264_main",
    "PB.LoggingProps.C264_devices",
    "PB.LoggingProps.C264_tee",
    "PB.LoggingProps.C264_flush_violated"
   ],
   "note": "Proved for loggers that are not pretty; pretty loggers drop the prefix and accept one argument only (C264_pretty_violated), and copied output cannot be flushed (C264_flush_violated)."
  },
  {
   "property": "C265",
   "status": "partial",
   "theorems": [
    "PB.FetchProps.C265_download_partial",
    "PB.FetchProps.C265_existing",
    "PB.FetchProps.C265_load",
    "PB.FetchProps.C265_crash_violated",
    "PB.FetchProps.C265_stuck_violated",
    "PB.FetchProps.C265_unknown_violated"
   ],
   "note": "Proved for downloads that are not interrupted. After an interruption the workload remains incomplete (C265_crash_violated, C265_stuck_violated), and unknown names leave an empty directory that the next call accepts (C265_unknown_violated)."
  },
  {
   "property": "C266",
   "status": "partial",
   "theorems": [
    "PB.ConnProps.C266_sound",
    "PB.ConnProps.C266_reset",
    "PB.ConnProps.C266_no_leak_partial",
    "PB.ConnProps.C266_leak_violated",
    "PB.ConnProps.C266_close",
    "PB.ConnProps.C266_local",
    "PB.ConnProps.C266_obtain",
    "PB.ConnProps.C266_reconnect_partial",
    "PB.ConnProps.C266_reconnect_violated",
    "PB.ConnProps.C266_settings",
    "PB.ConnProps.C266_closed_watchdog_violated",
    "PB.ConnProps.C266_watchdog",
    "PB.ConnProps.C266_duck",
    "PB.ConnProps.C266_duck_reconnect_violated",
    "PB.ConnProps.C266_mysql"
   ],
   "note": "Proved for all histories: sessions are told apart, resets give working sessions, clients keep theirs, closing ends all. Sessions leak when cancelling or closing raises during a reset (C266_leak_violated), when DuckDB reconnects (C266_duck_reconnect_violated) and when a query with a timeout is run on a closed interface (C266_closed_watchdog_violated); the pool hands out dead connections whose end was not noticed (C266_reconnect_violated)."
  },
  {
   "property": "C267",
   "status": "partial",
   "theorems": [
    "PB.WorkStoreProps.C267_store",
    "PB.WorkStoreProps.C267_read",
    "PB.WorkStoreProps.C267_roundtrip_partial",
    "PB.WorkStoreProps.C267_single_line",
    "PB.WorkStoreProps.C267_literal_violated",
    "PB.WorkStoreProps.C267_stale_violated",
    "PB.WorkStoreProps.C267_slash_violated",
    "PB.WorkStoreProps.C267_empty_label_violated",
    "PB.WorkStoreProps.C267_crash",
    "PB.WorkStoreProps.C267_lost_violated"
   ],
   "note": "Proved for directories without query files and parsers that accept blank lines. Line breaks in literals are doubled (C267_literal_violated), old query files become part of the workload (C267_stale_violated), labels with slashes or empty ones fail or change (C267_slash_violated, C267_empty_label_violated), and an interruption can lose a query (C267_lost_violated)."
  },
  {
   "property": "C268",
   "status": "partial",
   "theorems": [
    "PB.DuckOptProps.C268_explain",
    "PB.DuckOptProps.C268_format_violated",
    "PB.DuckOptProps.C268_query_plan",
    "PB.DuckOptProps.C268_parse",
    "PB.DuckOptProps.C268_parse_empty",
    "PB.DuckOptProps.C268_shapes_violated",
    "PB.DuckOptProps.C268_analyze_partial",
    "PB.DuckOptProps.C268_timeout_violated",
    "PB.DuckOptProps.C268_estimate"
   ],
   "note": "No raw result can be read by both query_plan and parse_plan (C268_shapes_violated), interrupted queries raise instead of giving None (C268_timeout_violated), EXPLAIN texts without the JSON format give no plan (C268_format_violated)."
  },
  {
   "property": "C269",
   "status": "partial",
   "theorems": [
    "PB.QepsTextProps.C269_faithful_partial",
    "PB.QepsTextProps.C269_nodes",
    "PB.QepsTextProps.C269_root_violated",
    "PB.QepsTextProps.C269_blank_violated"
   ],
   "note": "The costs and the subquery of the root (C269_root_violated) and subqueries without costs and children (C269_blank_violated) are not shown; apart from these, texts are equal exactly for equal synopses."
  },
  {
   "property": "C270",
   "status": "partial",
   "theorems": [
    "PB.PlanDiffProps.C270_true",
    "PB.PlanDiffProps.C270_kinds",
    "PB.PlanDiffProps.C270_text_partial",
    "PB.PlanDiffProps.C270_swapped_violated",
    "PB.PlanDiffProps.C270_distinct"
   ],
   "note": "A comparison with a swapped join has no report (C270_swapped_violated): the entry stores the plan nodes, whose inspection asks them for an identifier they do not have. C270_text_partial covers all other comparisons; C270_true and C270_kinds cover the entries of all comparisons."
  },
  {
   "property": "C271",
   "status": "partial",
   "theorems": [
    "PB.ExplodeProps.C271_actual_partial",
    "PB.ExplodeProps.C271_params_partial",
    "PB.ExplodeProps.C271_default_violated"
   ],
   "note": "C271_actual_partial covers the actual cardinalities. For the default source the join tree has the actual instead of the estimated cardinalities (C271_default_violated): the source is called 'estimated' here and 'estimates' by jointree_from_plan."
  },
  {
   "property": "C272",
   "status": "partial",
   "theorems": [
    "PB.UesPolicyProps.C272_bound",
    "PB.UesPolicyProps.C272_cross",
    "PB.UesPolicyProps.C272_subquery_partial",
    "PB.UesPolicyProps.C272_missing_violated",
    "PB.UesPolicyProps.C272_update"
   ],
   "note": "The branching decision fails with a KeyError if the foreign key table has no bound (C272_missing_violated); C272_subquery_partial covers all other states. C272_bound and C272_cross cover all bounds."
  }
 ]
}