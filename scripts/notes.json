{
 "C01": {
  "note": "The code violates the property; see the _violated theorems. < is the intended strict order, == and the finite case are proved."
 },
 "C02": {
  "note": "All four operations proved; non-negativity is violated by subtraction."
 },
 "C03": {
  "note": "Equality and order of tables and columns characterised exactly, laws proved; column < is a strict order but not a weak order on bound and unbound columns (C03_col_lt_weak_violated)."
 },
 "C04": {
  "note": "with_alias/update violate the expected law for virtual tables; proved exactly."
 },
 "C07": {
  "note": "pop of a falsy payload does not remove it (C07_fifo_violated); proved for truthy payloads."
 },
 "C08": {
  "note": "Capacity bound proved; SizedQueue.extend keeps the wrong elements for overlong input (violated)."
 },
 "C10": {
  "note": "invert_multi loses keys that share an equal value list."
 },
 "C65": {
  "note": "schema is lost on reading (writer uses 'schema', reader 'schemaname')."
 },
 "C66": {
  "note": "embedded double quotes are not escaped."
 },
 "C67": {
  "note": "hash depends on insertion order, equality does not."
 },
 "C12": {
  "note": "Iteration is not in dependency order for nodes with two or more dependencies (C12_order_violated). Proved: yields exactly all nodes, at most once per registration, after at least one dependency; full order if every node has at most one dependency."
 },
 "C14": {
  "note": "Linearisability and absence of lost increments proved for all schedules; +a deadlocks and a.value += n is not atomic (violated)."
 },
 "C69": {
  "note": "str(version) has a leading 'v' that the constructor rejects; the unprefixed form round-trips."
 },
 "C71": {
  "note": "Nodes can be yielded more than once and early stopping happens; soundness proved. The traversal ends and yields exactly the reachable nodes whose predecessors do not stop it (C71_exact_partial)."
 },
 "C16": {
  "note": "Lookup by a singleton set always misses (C16_singleton_violated); tables and sets of two or more tables proved for all histories."
 },
 "C18": {
  "note": "overwrite_fine_grained_selection never removes scan/join assignments (violated); global set and intermediates proved."
 },
 "C19": {
  "note": "merge_with drops execution_mode (violated); the other parameters and drop_workers proved."
 },
 "C72": {
  "note": "Worker counts and directions are lost (violated); everything else proved."
 },
 "C73": {
  "note": "Counts for scans are ignored or raise (violated); joins proved."
 },
 "C74": {
  "note": "nan default makes equality irreflexive (violated)."
 },
 "C22": {
  "note": "is_linear only inspects the root (C22_linear_violated); the empty tree claims to be a join. is_base_join proved."
 },
 "C60": {
  "note": "Empty and logical join trees do not round-trip (violated); generic non-empty trees proved."
 },
 "C75": {
  "note": "Equality and hashing proved; join_with and update_annotation of a logical join tree return a plain JoinTree (violated)."
 },
 "C23": {
  "note": "Extraction equals the specification relation Strip for plans whose scans have base tables; tables and leaf order are proved for well-formed plans (Clean)."
 },
 "C24": {
  "note": "Violated for parameterised inner joins (the inner join has the same tables key and overwrites the outer one) and for include_workers (not passed on). Proved for well-formed plans."
 },
 "C25": {
  "note": "canonical() drops subplans attached to auxiliary nodes (violated); the rest is proved."
 },
 "C26": {
  "note": "find_first_node skips subplans of nodes without two children and fails for three children (violated)."
 },
 "C61": {
  "note": "Violated for every join plan; proved for scans. Two scans are compared exactly (C61_scan_diff_partial); costs (C61_cost_violated) and unknown against known cardinalities (C61_known_violated) are not."
 },
 "C63": {
  "note": "Violated for every tree: the scans of the plan have no base table. The shape is preserved."
 },
 "C77": {
  "note": "The quotient is itself a Cardinality and rounded (violated); within 1/2 of the exact value and at least 1."
 },
 "C78": {
  "note": "ignore_nan has no effect, non-recursive scaling scales subplan roots, scaling actual cardinalities drops the cache counters (violated)."
 },
 "C81": {
  "note": "Only the root join is inspected and unary roots raise (violated). The answer for the root join is exact (C81_root_partial)."
 },
 "C82": {
  "note": "Soundness holds for all expressions. Completeness is proved where CASE and window expressions (whose direct parts are replaced by their children) and arithmetic with three or more operands do not occur; C82_columns_violated has a counterexample for each."
 },
 "C83": {
  "note": "Soundness holds for all expressions. Completeness is proved for expressions without CASE, window functions and filtered aggregates, whose parts are not reached by iterchildren (C83_collector_violated). Collectors that stop at matches return exactly the outermost matches (C83_collector_first_partial)."
 },
 "C31": {
  "note": "Filters and joins imply the WHERE predicate for every predicate; the converse is proved if no top-level disjunction mixes joins and filters. Mixed disjunctions are split into a filter and a join that are both required (C31_filters_joins_violated)."
 },
 "C32": {
  "note": "Exact for comparisons and unary predicates; for BETWEEN and IN proved if the tested expression contains a column. C32_violated: 5 BETWEEN t1.x AND t2.y is classified as a filter. CASE, window functions and FILTER conditions are excluded (see C83)."
 },
 "C33": {
  "note": "Proved if all base predicates are joins. join_partners() raises for conjunctions or disjunctions with a filter, and then QueryPredicates cannot be constructed (C33_violated)."
 },
 "C84": {
  "note": "create, create_and, create_or, and_ and base_predicates are modelled completely; create_not is the NOT case of create."
 },
 "C34": {
  "note": "joins_tables holds iff the tables are connected by joins (by induction over paths); raises only for the empty set.",
  "status": "proved"
 },
 "C35": {
  "note": "Completeness for joins that compare only the two tables and soundness for disjoint sets, for every construction order of the join map. Joins with further tables: see C88.",
  "status": "proved"
 },
 "C36": {
  "note": "Classes are the transitive closure. Generated predicates equivalent if equi-joins compare plain columns; violated for equi-joins over expressions (a.x + 1 = b.y yields a.x = b.y).",
  "status": "partial"
 },
 "C85": {
  "note": "All parts.",
  "status": "proved"
 },
 "C86": {
  "note": "join_graph() exact for regular predicates; merge_aliases=True violated (edges between columns).",
  "status": "partial"
 },
 "C87": {
  "note": "Exact for predicates without CASE, window functions and FILTER conditions; violated for CASE.",
  "status": "partial"
 },
 "C88": {
  "note": "Violated for joins over three tables; the strategies agree if each join has two tables.",
  "status": "partial"
 },
 "C37": {
  "note": "add_ec_predicates replaces all joins by equivalence-class predicates: violated as soon as a query has a join that is not an equality of two columns (it is dropped). Proved if all joins are column equalities."
 },
 "C38": {
  "note": "Violated: a nested AND that repeats a single OR is unpacked into its alternatives, one that repeats a NOT fails. Proved otherwise (truth value, flatness, exact conjuncts) for every set iteration order."
 },
 "C39": {
  "note": "Violated for ORs that are only partly covered (not implied) and for NOT (TypeError). Proved otherwise: exact base predicates, tables, equivalence to the covered conjuncts."
 },
 "C40": {
  "note": "Removing below OR/NOT changes the meaning, compound targets can survive (violated). Proved for conjunct occurrences and base predicates; replacement proved in full."
 },
 "C41": {
  "note": "FILTER of functions is dropped, n-ary arithmetic and simple CASE are rejected (violated). Proved for all other expressions: equals simultaneous substitution, evaluation lemma, identity."
 },
 "C89": {
  "note": "Flattening defects (C38) and queries without any condition are excluded / rejected."
 },
 "C42": {
  "note": "Clauses are modelled by their type and an opaque payload. replace_clause is proved in full. add_clause is proved for clauses that fit the kind of query; for others the code is wrong: adding EXCEPT to a UNION query is silently ignored (C42_add_violated). drop_clause is proved by exact type; dropping the abstract FROM type leaves implicit and explicit FROM clauses in place (C42_drop_violated)."
 },
 "C90": {
  "note": "Holds for all queries whose class fits the FROM clause. An explicit query without FROM clause comes back as implicit query (C90_rebuild_violated). Queries are built from every list of clauses without repeated classes (C90_build_total, C90_build_all_partial); two set operation clauses are C90_sets_violated."
 },
 "C91": {
  "note": "Clauses are modelled by their type and an opaque payload."
 },
 "C48": {
  "note": "The natural order of labels, random.sample and startswith are parameters. relabel/transform need unique new labels, as documented."
 },
 "C49": {
  "note": "first is proved in full, last for n > 0; last(0) returns the entire workload (C49_last_violated)."
 },
 "C50": {
  "note": "entries(), labels() and queries() follow the shuffled order. Iterating over the workload itself follows the underlying dictionary instead (C50_iteration_violated)."
 },
 "C51": {
  "note": "Proved for on_error=raise and for directories without errors. With warn/ignore an unparsable first file makes reading fail, and a later unparsable file receives the query of the preceding file (C51_lenient_violated, C51_lenient_wrong_query_violated)."
 },
 "C93": {
  "note": "Holds if no query occurs twice; otherwise only the last position of a query remains (C93_generate_violated)."
 },
 "C94": {
  "note": "The prefixes are computed but never used: files with equal names in different directories overwrite each other (C94_nested_violated). Proved: with unique names every file is provided, under its stem."
 },
 "C43": {
  "note": "Accepting queries and reporting reasons: proved for checks whose equality is faithful (equal checks behave equally) and a non-empty first argument. Violated for checks of the same class and name, for an empty first argument, and for database systems (a compound check accepts every system)."
 },
 "C44": {
  "note": "Proved for queries whose tables all occur in predicates and whose columns are bound. Violated for tables without predicates (cross product passes) and for queries without predicates (raises)."
 },
 "C45": {
  "note": "Proved for the joins the query reports. Since these are already split at conjunctions, disallowing conjunctions has no effect on conjunctions in WHERE (violated)."
 },
 "C95": {
  "note": "Violated for failed results with an empty list of reasons and for set queries (never raises)."
 },
 "C96": {
  "note": "Violated: the check compares an enum member with a string and hence rejects every explicit join it visits; it does not look into subqueries with implicit FROM clauses."
 },
 "C27": {
  "note": "Bushy join orders: sound and complete, each order once, for any iteration order of the graph, assuming distinct join orders have distinct hash values and no table is joined with itself. Left-deep and right-deep enumeration yields nothing (violated)."
 },
 "C97": {
  "note": "Proved if both scans and joins are included. Violated otherwise: the generator returns without yielding anything."
 },
 "C98": {
  "note": "Violated: all_plans_for passes a keyword-only argument by position and raises; the bound is zero for one table and too small in general."
 },
 "C28": {
  "note": "Index nested-loop joins are never considered: C28_index_nlj_violated. The partial theorems hold for the search space without them. Monotone costs are needed (C28_not_monotone_violated). C28_query_partial instantiates the connectedness test with the model of joins_tables."
 },
 "C29": {
  "note": "Proved: kept paths are candidates, one is kept as soon as a candidate has finite cost, cost domination up to 1 % for paths with at most one sort key, and exact minimality without sort keys. The sort-order part is violated: C29_sorted_lost_violated, C29_evicted_violated; the fuzz factor adds up for longer sort keys: C29_fuzz_violated."
 },
 "C99": {
  "note": "Violated for all predicates: no merge join is ever created (C99_merge_violated), because the number of partner pairs is compared with 2, and an existing sort order is never recognized (C99_sorted_violated), because column references are looked up in a set of expressions. Proved: merging sort keys."
 },
 "C100": {
  "note": "Without parallel workers, for finite costs, and for cost models other than the native one. C100_complete_partial assumes that the computation of cache keys and merge join columns raises no exception (it can for predicates with two partner pairs, see C99). C100_between_partial shows that joins_between satisfies the assumption for predicates that compare two tables."
 },
 "C58": {
  "note": "Proved for frequency_below: total, bounded, monotone, and for equi-depth histograms at most one (bound) or two (approx-uni) buckets too small. Violated: frequency_above is increasing for 'bound' and raises IndexError in the last bucket for 'approx-uni'; 'approx-uni' misses a whole bucket at bucket bounds; 'bound' is no upper bound; bucket frequencies are ignored."
 },
 "C59": {
  "note": "Values are numbers, lists have distinct values. Violated for top(0), whose bound for missing values is 0."
 },
 "C62": {
  "note": "Recoverability holds for scalar columns; violated for array columns (C62_arrays_violated)."
 },
 "C101": {
  "note": "Columns without NULL. Violated for the rows after the last complete bucket, which are lost (C101_rows_violated); C101_rows_partial bounds their number."
 },
 "C102": {
  "note": "Ascending bounds are proved if the common values are ascending; the catalog orders them by frequency (C102_order_violated). Rows of common values are counted twice (C102_rows_violated), and 0 is never the lower bound (C102_zero_violated). Frequencies of common values are those of the catalog (C102_freqs_partial)."
 },
 "C30": {
  "note": "All histories of mark_joined. Violated: composite join conditions can be reported as free n:m joins without an available n:m path; deep primary key joins can contain a table twice and can miss a table that is also joined in another way (C30_deep_pk_missed_violated; complete otherwise, C30_deep_pk_complete_partial).",
  "status": "partial"
 },
 "C103": {
  "note": "Monotonicity and free tables in full; soundness with respect to database contents for histories of primary key/foreign key joins. Violated for n:m joins (other keys of the partner stay valid), for joins of two primary keys, and for cross products.",
  "status": "partial"
 },
 "C55": {
  "note": "Two-table estimates, queries of two tables and star queries proved for all data. Violated for chains: the bound of a later n:m join uses base table sizes instead of the bound of the intermediate result, also with exact statistics."
 },
 "C104": {
  "note": "Star and binary optimizers proved. Default optimizer: complete and exact if there are no primary key indexes; otherwise the returned tree covers all tables, but the optimizer can give up, scan a table twice (two foreign key paths) or create a cross product in an eager subquery; queries with a single-table component raise."
 },
 "C46": {
  "note": "Proved for all histories: integrated pipelines optimise iff built since the last database change and the last algorithm supports the query; text book and multi-stage pipelines additionally reset on every change. Violations: integrated pipelines do not reset on use(); two different checks accept every database; set queries are never rejected by text book pipelines; multi-stage pipelines keep the checks of replaced stages.",
  "status": "partial"
 },
 "C47": {
  "note": "Integrity, atomicity of failed calls, order of steps proved for all histories; query checks only for plain queries (set queries are never rejected).",
  "status": "partial"
 },
 "C64": {
  "note": "Proved under the assumption that training completes (the stage then reports to be fitted); violations for stages that do not, for metrics of stages with equal names, and for partially trained pipelines when samples are missing.",
  "status": "partial"
 },
 "C54": {
  "note": "With cross products the result is proved to be exactly the non-empty subsets, each once; without, exactly the join-connected ones, provided all tables of the query occur in its predicates (joins_tables raises otherwise: two violations, for a table without predicates and for a query without predicates). The estimates stored for them and for a given join order are proved.",
  "status": "partial"
 },
 "C106": {
  "note": "Lookup and fallback are proved. Violated: error_on_missing_card has no effect; saved fallback estimates are never found and are appended on each call; the written file cannot be read again (or yields duplicates).",
  "status": "partial"
 },
 "C107": {
  "note": "Distortion is proved (exact arithmetic instead of floats). Precise estimates are proved if the data does not change; violated otherwise because the cache is used even when it is not enabled.",
  "status": "partial"
 },
 "C52": {
  "note": "Proved for all workloads, repetitions and outcomes that do not end the benchmark: all errors under 'log', no errors otherwise; ignored optimizations; the first error under 'raise'. Violated: ignored executions make the benchmark fail at the end and lose all results; exec_index has gaps after ignored optimizations; empty benchmarks raise; the result of failed executions is an empty list instead of None.",
  "status": "partial"
 },
 "C53": {
  "note": "Proved for all histories of uninterrupted log operations. Violated: two runs with the same name and start time; interleaved operations of two processes lose entries; benchmarks that raise while the result table is built are logged as completed (C52_ignore_violated, C52_empty_violated).",
  "status": "partial"
 },
 "C108": {
  "note": "Proved for benchmarks that nothing ends. Violated: failed executions are not written; after ignored failures the previous row is written and passed to the callback again; a timeout with online training ends the benchmark with an AssertionError.",
  "status": "partial"
 },
 "C56": {
  "note": "Proved for all update histories of a node (C56_costs, C56_reject, C56_recommendation). C56_frequency_violated shows that discounted sums are not averages: of two operators with constant costs, the cheaper one loses if it was observed more often.",
  "status": "proved"
 },
 "C57": {
  "note": "The property is false: C57_load_violated shows that loading fails for every saved synopsis, since the key subquery is always written (possibly as null) and always loaded. There is no case in which the round trip works, so nothing else is proved.",
  "status": "partial"
 },
 "C109": {
  "note": "Proved for linear plans whose scans are not deeper than the joins, and for left-deep join orders without self-joins, for each join but the topmost one, designated by its tables without aliases. The violated theorems show what fails otherwise: the topmost join never receives a recommendation; the recommendations of queries with aliases are for tables that the query does not contain; self-joins raise; a base table as outer input raises or is looked up at the wrong place; bushy joins are learned and recommended for different inputs; deep scans are learned at the wrong place; the detection of unknown costs raises."
 },
 "C110": {
  "note": "Proved for expressions in which no operand needs a bracket that is not set (predicate Fine, defined on the operators only). Refuted for the others: (a+b)*c, (a-b)/c, a-(b-c), a*(b%c), -(a+b), NOT (a AND b), -(-a) and unary predicates with an operator other than EXISTS. Missing: the texts of constructs that delimit themselves (function calls, CASE, subqueries ...) are single tokens; clauses and whole queries are not printed.",
  "status": "partial"
 },
 "C111": {
  "note": "Soundness is proved for all queries. Completeness is proved for queries without DISTINCT ON, with regular expressions, constant VALUES lists, named functions and join conditions that only refer to the joined tables. Disagreements: DISTINCT ON, WITH clauses of set queries, subqueries in join conditions and unnamed functions are ignored; unnamed FROM items add `None`."
 },
 "C112": {
  "note": "Soundness is proved for all queries, completeness for queries without JOIN syntax. Disagreements: JOIN syntax raises an exception; subqueries in DISTINCT ON, function arguments and VALUES lists of the FROM clause are overlooked."
 },
 "C113": {
  "note": "Proved for queries whose FROM items are tables and ordinary subqueries over tables, without shadowed names. Disagreements: exceptions for JOIN syntax, VALUES, functions and missing FROM clauses; every query with a FROM subquery is reported as dependent; names of nested FROM subqueries are reported as unbound; shadowed names and WITH queries with outer references are overlooked."
 },
 "C114": {
  "note": "Proved relative to the predicates of the nested queries. Disagreements: exceptions for queries without FROM clause or with nested set queries; `contains_cross_product` raises for every query with a FROM clause."
 },
 "C115": {
  "note": "Proved for SELECT clauses without stars and for all set operations. Disagreement: stars contribute no column. Simplification: no given name starts with `column_`."
 },
 "C116": {
  "note": "Reflexivity and transitivity are proved for all queries of any nesting depth; symmetry for queries whose class fits to their FROM clause (the ones `build_query` builds); consistency of the hash values under the rules in `hashRules`. Disagreements: base class objects equal objects of derived classes but not vice versa; IN value order, empty EXPLAIN formats, LATERAL, FETCH direction and table-valued WITH names are ignored by `==` but not by `hash`; comparing two EXCEPT or INTERSECT clauses always raises. Simplification: a hash value is the tuple that is hashed."
 },
 "C117": {
  "note": "Errors and classes are proved for all lists of clauses, the rest for lists with at most one clause of each kind (one set operation) whose sides are not EXPLAIN queries. Disagreements: if there are two set operations all but one are silently ignored; a base class query is not rebuilt as an equal query."
 },
 "C118": {
  "note": "Proved for pg_hint_plan, pg_lab, quack_lab and complete plans, and that the text determines the order. MySQL only lists the tables from left to right, which is enough for left-deep orders; right-deep orders are accepted but hinted like left-deep ones (C118_mysql_violated)."
 },
 "C119": {
  "note": "Proved for quack_lab, MySQL and complete plans. pg_hint_plan hints index scans as index-only scans (C119_index_scan_violated), all other operators are right. pg_lab loses the second parallel operator (C119_lab_violated); proved for at most one."
 },
 "C120": {
  "note": "pg_hint_plan: exact characterisation of the lines; at most one without parallel joins; parallel joins give one line per table (C120_joins_violated) and worker counts of intermediates give one line over several tables. Complete plans give at most one line with the right number, but possibly for the wrong node (C120_plan_violated). pg_lab ignores worker counts for single tables (C120_lab_scan_violated)."
 },
 "C121": {
  "note": "Proved for all backends that support cardinalities and for complete plans."
 },
 "C122": {
  "note": "Exact settings and failure conditions for all backends. MySQL drops settings if there are no other hints (C122_mysql_violated)."
 },
 "C123": {
  "note": "Proved in full."
 },
 "C124": {
  "note": "wrap_all/simplify raise AssertionError for filters without a column (1 = 2): C124_wrap_all_violated.",
  "status": "partial"
 },
 "C125": {
  "note": "the operator is not flipped for `5 < R.a` (C125_swapped_violated), casts are dropped (C125_cast_violated, documented), R.a = R.b reports one column (C125_columns_violated).",
  "status": "partial"
 },
 "C126": {
  "note": "can_wrap raises ValueError for computed operands (C126_can_wrap_violated); join_partners are not ordered like those of the predicate (C126_partners_violated).",
  "status": "partial"
 },
 "C127": {
  "note": "IN views: equality ignores the order, the hash does not (C127_in_violated); view == predicate is not symmetric (C127_predicate_violated). Equality of column joins and comparisons with values is exact (C127_exact).",
  "status": "partial"
 },
 "C128": {
  "note": "the string '*' becomes the star expression (C128_star_violated). Arguments nested deeper than one level and sequences as the operand of other operators are outside of the model.",
  "status": "partial"
 },
 "C129": {
  "note": "simplify raises for 1 = 2, all_simple raises for f(R.a) = S.b.",
  "status": "partial"
 },
 "C130": {
  "note": "set queries raise (C130_set_violated), DISTINCT ON columns are not renamed (C130_distinct_violated), VALUES lists in WITH vanish or only the last renaming counts (C130_values_violated).",
  "status": "partial"
 },
 "C131": {
  "note": "ORDER BY makes the renaming fail (C131_order_violated); dictionaries unbind the columns (C131_dict_violated) and lose tables for chains (C131_chain_violated). FROM clauses with subqueries, VALUES lists or functions are outside of the theorem.",
  "status": "partial"
 },
 "C132": {
  "note": "explicit joins raise (C132_join_violated).",
  "status": "partial"
 },
 "C133": {
  "note": "DISTINCT ON is not replaced (C133_distinct_violated), VALUES lists without name raise (C133_values_violated); sides of set queries must not have an EXPLAIN clause.",
  "status": "partial"
 },
 "C134": {
  "note": "targets over a proper subset of the tables are dropped, foreign t.* kept, DISTINCT ON becomes DISTINCT (C134_select_violated); tables of subqueries move into FROM (C134_subquery_violated); set queries ignore the projection and raise for one-sided tables (C134_set_violated); NOT raises (C39).",
  "status": "partial"
 },
 "C135": {
  "note": "The JSON reading itself (types of the values) is abstracted; sort keys are never set by the code.",
  "status": "proved"
 },
 "C136": {
  "note": "of several subplans only the last is kept (C136_subplans_violated); target names of subplans are always empty (C136_target_violated).",
  "status": "partial"
 },
 "C137": {
  "note": "hash covers more attributes than equality: nodes that differ in their filter are equal with different hashes (C137_hash_violated).",
  "status": "partial"
 },
 "C138": {
  "note": "equal children lose the outer one (C138_equal_violated); joins with a subplan raise (C138_subplan_violated).",
  "status": "partial"
 },
 "C139": {
  "note": "Text of the individual lines is not modelled.",
  "status": "proved"
 },
 "C140": {
  "note": "jaccard of two empty sets divides by zero (C140_jaccard_violated). Lower-casing is given per character.",
  "status": "partial"
 },
 "C141": {
  "note": "hash joins are the only recognised joins (C141_joins_violated).",
  "status": "partial"
 },
 "C142": {
  "note": "scans without filter of relations that are referenced several times are never bound (C142_unfiltered_violated).",
  "status": "partial"
 },
 "C143": {
  "note": "an unaliased table may be resolved to an aliased reference to the same relation (C143_lookup_violated).",
  "status": "partial"
 },
 "C144": {
  "note": "entries after the first operator are ignored (C144_rest_violated), materialized subqueries are lost or cannot be read (C144_materialized_violated, C144_block_violated), lists of subqueries cannot be read (C144_list_violated).",
  "status": "partial"
 },
 "C145": {
  "note": "zero rows and zero costs become unknown (C145_zero_violated).",
  "status": "partial"
 },
 "C146": {
  "note": "Probabilities are not modelled. Queries of which at most one table occurs in predicates get join orders without their other tables instead of an error (C146_cross_violated).",
  "status": "partial"
 },
 "C147": {
  "note": "Linear trees over connected orders, sound and complete.",
  "status": "proved"
 },
 "C148": {
  "note": "for single tables, duplicates are yielded (C148_single_violated). Hash collisions are not modelled.",
  "status": "partial"
 },
 "C149": {
  "note": "generation fails without usable operators (C149_empty_violated) or without join order (C149_noorder_violated); plans can never be generated (C149_plans_violated).",
  "status": "partial"
 },
 "C150": {
  "note": "Without subqueries. DISTINCT and LIMIT are ignored (C150_distinct_violated, C150_limit_violated) and conditions without tables can get lost (C150_constant_violated).",
  "status": "partial"
 },
 "C151": {
  "note": "The expressions of ORDER BY and GROUP BY are not computed (C151_sort_violated, C151_group_violated).",
  "status": "partial"
 },
 "C152": {
  "note": "conditions that mention exactly one table are dropped (C152_having_violated).",
  "status": "partial"
 },
 "C153": {
  "note": "Success depends on the order of a set for other conditions (C153_order_violated).",
  "status": "partial"
 },
 "C154": {
  "note": "OR over subqueries does not filter or duplicates rows, IN with values and a subquery requires both (C154_or_violated, C154_or_duplicates_violated, C154_in_violated).",
  "status": "partial"
 },
 "C155": {
  "note": "the second part contains a cross product with the tables of the first (C155_union_violated).",
  "status": "partial"
 },
 "C156": {
  "note": "A name must be used in one role in the statement. Wrong or missing tables for self-joins without alias, correlated columns without qualifier, columns with the name of a SELECT alias, renamed WITH queries, names that hide tables, column alias lists, functions; ambiguous columns are accepted (C156_..._violated).",
  "status": "partial"
 },
 "C158": {
  "note": "schemas of the same connection are equal, so changed tables are not noticed (C158_changed_table_violated).",
  "status": "partial"
 },
 "C159": {
  "note": "ORDER BY in aggregates, `*`, DISTINCT and frames of window functions, schemas of types and the case of quoted function names are lost; bpchar and intervals with precision become other types (C159_..._violated).",
  "status": "partial"
 },
 "C161": {
  "note": "USING, NATURAL, aliases of joins, column aliases, ONLY, WITH ORDINALITY, ORDER BY and LIMIT of VALUES, ALL of INTERSECT and EXCEPT, WITH TIES and FOR UPDATE are lost; LIMIT 0 OFFSET n becomes OFFSET n (C161_..._violated). The translation of expressions is assumed to keep their values (C159).",
  "status": "partial"
 },
 "C162": {
  "note": "FROM clauses with several joins and nothing else are rejected (C162_two_joins_violated).",
  "status": "partial"
 },
 "C164": {
  "note": "Comments inside of the query and even inside of string constants are taken as hints; queries with an unclosed /* in a string are rejected; nested comments are cut; /*/ counts as a complete comment; line comments after SET commands are lost (C164_..._violated).",
  "status": "partial"
 },
 "C165": {
  "note": "Quotes in values are not escaped, SET LOCAL becomes SET, only the first value of a list is kept, numbers are rejected, include_hints=False drops the commands (C165_..._violated).",
  "status": "partial"
 },
 "C166": {
  "note": "EXPLAIN (ANALYZE false) is parsed to a clause that executes the query (C166_analyze_false_violated).",
  "status": "partial"
 },
 "C167": {
  "note": "accept_set_query=False has no effect, bind_columns=False is ignored if a schema is passed (C167_..._violated). The acceptance is characterised completely (C167_accepted).",
  "status": "partial"
 },
 "C168": {
  "note": "Constraints of different tables with the same name are mixed up (C168_names_violated).",
  "status": "partial"
 },
 "C169": {
  "note": "The generic interface reports constraints rather than indexes: foreign keys count as indexed, CREATE INDEX is ignored (C169_constraints_violated); on Postgres a column in two indexes takes the kind of the last one (C169_both_violated). The list of indexes is complete (C169_indexes).",
  "status": "partial"
 },
 "C170": {
  "note": "Composite keys yield all combinations of columns, keys into other schemas are lost, same names are mixed up, the generic interface returns schema and table as table and column, DuckDB ignores composite keys (C170_..._violated).",
  "status": "partial"
 },
 "C171": {
  "note": "The first answer is cached and returned for all later arguments (C171_cache_violated).",
  "status": "partial"
 },
 "C172": {
  "note": "is_view ignores the schema (C172_view_violated). Columns, data types and nullability are complete (C172_column_info, C172_columns).",
  "status": "partial"
 },
 "C173": {
  "note": "More than five candidates are visited in the order of a set; the generic interface never finds the table of an unbound column (C173_..._violated).",
  "status": "partial"
 },
 "C174": {
  "note": "A single composite primary key makes the graph fail (C174_composite_violated).",
  "status": "partial"
 },
 "C175": {
  "note": "Stated for any interface that provides tables, columns and foreign keys; the answers of the concrete interfaces are the subject of C170-C172.",
  "status": "proved"
 },
 "C176": {
  "note": "Results are stale after changes of the data, cached updates are not repeated, reset_cache does not discard the file, DuckDB ignores the connection-wide flag (C176_..._violated). Transparency is proved for servers that do not change the data, for Postgres, MySQL and DuckDB.",
  "status": "partial"
 },
 "C177": {
  "note": "Single arrays, and single rows from the cache file, cannot be told from columns (C177_..._violated).",
  "status": "partial"
 },
 "C178": {
  "note": "SET LOCAL settings, which the hints of PostBOUND use, have no effect; SET settings stay in force; DuckDB executes the characters of the statements (C178_..._violated).",
  "status": "partial"
 },
 "C179": {
  "note": "Tuples become lists, a single decimal number destroys the cache, dictionaries with a key $date become dates (C179_..._violated).",
  "status": "partial"
 },
 "C180": {
  "note": "UPDATE, DELETE and INSERT commands are executed and reported as errors (C180_update_violated).",
  "status": "partial"
 },
 "C181": {
  "note": "A worker that is killed makes the call hang or is reported as a timeout, cached results are not simplified, commands without rows fail, and a query may be committed in spite of the timeout (C181_..._violated).",
  "status": "partial"
 },
 "C182": {
  "note": "A failing query discards the results of the others, the callback gets pairs, and draining twice repeats the old results (C182_..._violated). The schedule of the pool is complete (C182_schedule).",
  "status": "partial"
 },
 "C183": {
  "note": "Unrelated tables lead to cross products or errors (C183_cross_violated, C183_unrelated_violated). Connectedness is proved for connected schemas; the bounds on tables and the join predicates are proved without restriction.",
  "status": "partial"
 },
 "C184": {
  "note": "A query never has exactly one filter: a single filter is replaced by the joins or leads to an error; values may be NULL (C184_..._violated).",
  "status": "partial"
 },
 "C185": {
  "note": "Equal bounds on the filters or tables without filterable columns make the generator loop forever; zero filters means no limit (C185_..._violated).",
  "status": "partial"
 },
 "C186": {
  "note": "Proved while the data does not change (or without the cache) and if no value is exactly as frequent as NULL; cached results are never updated, histograms use the cached row count even without caching, and a tie with NULL raises an error (C186_..._violated).",
  "status": "partial"
 },
 "C187": {
  "note": "Proved for exact estimates; floating point ratios may lose one value, relations that have never been analyzed have -1 rows, perfect_n_distinct has no effect before the next update and is then kept although the data changes (C187_..._violated).",
  "status": "partial"
 },
 "C188": {
  "note": "The MySQL statistics interface cannot be created (C188_mysql_violated).",
  "status": "partial"
 },
 "C189": {
  "note": "Proved for templates and values without <<, texts without quotes and predicates other than LIKE; quotes are not escaped, LIKE patterns are quoted twice, placeholders in values are replaced, columns without table raise (C189_..._violated).",
  "status": "partial"
 },
 "C190": {
  "note": "Scalar predicates in full, IN predicates for weighted sampling; uniform sampling for IN cannot be written into a query, minimum sizes above one and weight columns are never accepted (C190_..._violated).",
  "status": "partial"
 },
 "C191": {
  "note": "Proved if nothing is drawn twice and each predicate has at most one dependency; values are drawn again without their other dependents, and predicates with two dependencies fail (C191_..._violated).",
  "status": "partial"
 },
 "C192": {
  "note": "Uniqueness in full; completeness if enough queries appear within the tries and titles are unique; otherwise queries may be missing silently (C192_..._violated).",
  "status": "partial"
 },
 "C193": {
  "note": "Proved for keys unless a single row of the fact table satisfies the filters: then there is an error (C193_single_violated); columns that are no keys give wrong numbers (C193_key_violated).",
  "status": "partial"
 },
 "C194": {
  "note": "Top-down: defined, not negative and symmetric for all join trees; scores exceed 1 (C194_range_violated). Bottom-up: always raises (C194_bottomup_violated). The score is positive exactly for trees with common tables, and at most 1 without reinforcement (C194_shared_partial).",
  "status": "partial"
 },
 "C195": {
  "note": "Only single tables and empty join trees work; every join raises (C195_join_violated).",
  "status": "partial"
 },
 "C196": {
  "note": "Proved for texts with the same number of lines; surplus lines are lost and an empty left text raises (C196_..._violated).",
  "status": "partial"
 },
 "C197": {
  "note": "Proved except for the order of the features, which stays that of the dataset (C197_order_violated).",
  "status": "partial"
 },
 "C198": {
  "note": "Proved if columns are named like the features, in particular for from_df; other columns are not renamed (C198_renamed_violated).",
  "status": "partial"
 },
 "C199": {
  "note": "Proved if columns are named like the features and the first dataset has no more features than the others; otherwise merging raises or loses values (C199_..._violated).",
  "status": "partial"
 },
 "C200": {
  "note": "First and all in full; merged if at least two datasets match and the first has no more features than the others (C200_..._violated otherwise).",
  "status": "partial"
 },
 "C201": {
  "note": "Proved for all queries whose literals contain no line breaks (C201_literal_violated), without limits of zero rows, which are dropped (C201_zero_violated), without joins between joins, which lose their parentheses (C201_parentheses_violated), and except for RECURSIVE and MATERIALIZED of a single list of values (C201_values_violated). Expressions are given by their texts; casts are not modelled.",
  "status": "partial"
 },
 "C202": {
  "note": "Proved for all queries without set operations, whose texts have no parentheses and no spaces between clauses (C202_set_violated, C202_glue_violated, C202_explain_violated), and without joins on the right-hand side of joins (C202_join_violated).",
  "status": "partial"
 },
 "C203": {
  "note": "Proved for queries that can be written in both ways and have no limits; C203_limit_violated shows that limits are written differently.",
  "status": "partial"
 },
 "C204": {
  "note": "Proved for all plans whose root is no intermediate operator. Sorts always raise an error (C204_sort_violated), materializations and memoizations never obtain a finite cost (C204_intermediate_violated), and their errors are never raised (C204_raise_violated).",
  "status": "partial"
 },
 "C205": {
  "note": "Proved for join orders and operators; the parameterization never returns parameters (C205_parameters_violated).",
  "status": "partial"
 },
 "C206": {
  "note": "Proved for all systems that follow hints and ignore empty hints. The hints of PostBOUND for empty stages are computed in C206_hints: the genetic optimizer is disabled for large queries (C206_geqo_violated) and the mode of pg_lab is changed (C206_lab_violated).",
  "status": "partial"
 },
 "C207": {
  "note": "Proved for all histories of changes by name. PostgresSetting objects are stored under their entire SET command (C207_objects_violated), item assignments break the configuration (C207_items_violated).",
  "status": "partial"
 },
 "C208": {
  "note": "Proved for all values without quotes and all listed settings. recursive_worktable_factor and autovacuum are missing because of a missing comma (C208_missing_violated), quotes are not escaped (C208_quotes_violated).",
  "status": "partial"
 },
 "C209": {
  "note": "Proved for ordered removals and for random removals whose key has an ordinary name; keys with the names sample_id and _pb_rand_val remove all rows (C209_names_violated).",
  "status": "partial"
 },
 "C210": {
  "note": "The transfer is proved in general, the exactness for unique columns without NULL. Violated for NULL, for duplicates, for shares of at most half a percent, and for imports that only name the marker table.",
  "status": "partial"
 },
 "C211": {
  "note": "Proved for Postgres. DuckDB replaces the registered connection on refresh, in contrast to its documentation (C211_duckdb_violated), and ignores the file and the private flag for known names (C211_file_violated).",
  "status": "partial"
 },
 "C212": {
  "note": "Proved for values without quotes and backslashes; quotes allow for additional parameters and backslashes are dropped (C212_quote_violated, C212_backslash_violated).",
  "status": "partial"
 },
 "C213": {
  "note": "Exact for non-empty relations. Empty relations lead to a division by zero (C213_empty_violated), averages are used if the catalog has no common values (C213_uniform_violated), failed requests leave the estimator in another state (C213_wrapper_violated).",
  "status": "partial"
 },
 "C214": {
  "note": "Proved for two tables and for star queries, as a composition of C213, C186 and C55. Other queries: C55_chain_violated.",
  "status": "partial"
 },
 "C215": {
  "note": "Equal results (as multisets of rows) for queries over plain tables whose predicates are filters of one table or joins of two tables and do not repeat each other. Violated for SELECT *, ORs of joins and filters, filters over several tables, explicit joins and clashes of the default name; the FROM clause of the result reports no tables (C215_star/mixed/scope/explicit/name/tables_violated).",
  "status": "partial"
 },
 "C216": {
  "note": "Round trip for all values that json.loads can yield except None at the top, given that repr of finite floats has the documented shape and is inverted by float. to_json(None) is not a text, keys like 1 and \"1\" collide, and __json__ of nested data classes is ignored (C216_none/keys/nested_violated). Unpaired surrogates in strings are not modelled (characters are Unicode scalar values).",
  "status": "partial"
 },
 "C217": {
  "note": "Proved for plans without subplans, sort keys, schemas and expression lookup keys (C217_plan_partial); in general tables lose their schemas and lookup keys become dictionaries (C217_read_partial). Plans with a sort key, subplan or filter without tables can be written but never read (C217_fails_violated), cardinalities are written as floats (C217_precision/overflow_violated), and the text of a plain operator is not accepted (C217_operator_violated). The SQL parser is a parameter (C217 assumes that it reads the printed filter).",
  "status": "partial"
 },
 "C218": {
  "note": "Histories and reads are proved in full; values are immutable in the model (a shallow clone shares mutable values), and assigning `_params` itself is not modelled. Clones are proved equal unless special attributes were assigned; otherwise they can differ or fail (C218_clone/self_violated), and attributes hide methods of the same name (C218_method_violated).",
  "status": "partial"
 },
 "C219": {
  "note": "For arguments of the documented types. An actual cardinality next to measures and an operator next to an operator as node type are silently ignored, an iterator of children becomes the only child, a subplan may lack a root (C219_*_violated), and update_plan always raises a TypeError (C219_update_violated).",
  "status": "partial"
 },
 "C220": {
  "note": "Statements, tables and clauses are opaque; warnings are not modelled. Set queries have no projection and are rejected, as are unknown projections (C220_rejected). Unknown outputs are silently ignored (C220_output_violated).",
  "status": "partial"
 },
 "C221": {
  "note": "Values of a column are only encoded if the value of the first row is (C221_encoded_violated). HDF files keep only the last row, JSON files always raise an exception, and other suffixes are silently ignored, unless special writer arguments are given (C221_hdf/json/suffix_violated). The behaviour of pandas is an assumption of the model.",
  "status": "partial"
 },
 "C222": {
  "note": "One column is proved. Further columns have no effect, because the ranks of the first column are distinct (C222_columns_violated), and tuples of columns, the default, raise a KeyError (C222_tuple_violated). The behaviour of pandas, numpy and natsort is an assumption of the model.",
  "status": "partial"
 },
 "C223": {
  "note": "For tables that exist and whose names are unique among all schemas. Virtual tables make cooldown_tables fail (C223_virtual_violated); tables of other schemas with the same name make both fail (C223_schema_violated). Quoted names are not modelled.",
  "status": "partial"
 },
 "C224": {
  "note": "Estimates and shapes are proved in full. Texts with another form of EXPLAIN get a second EXPLAIN (C224_explainify_violated). Not modelled: configure_operator (it accesses `execute` on the method `cursor`, hence always raises) and uses_geqo (no implementation).",
  "status": "partial"
 },
 "C225": {
  "note": "Settings that are turned on and libraries of local servers are used as documented. pg_hint_plan is also used if it has been turned off but is loaded (C225_disabled_violated), and on all remote servers without an active backend (C225_remote_violated).",
  "status": "partial"
 },
 "C226": {
  "note": "Without exceeded timeouts the history theorem is complete. Interrupted queries raise the exception of DuckDB instead of reporting a timeout, and keep an old runtime (C226_interrupt_violated); cached queries keep an old runtime (C226_cached_violated).",
  "status": "partial"
 },
 "C227": {
  "note": "Full characterisation for all sequences. A component with several roles only fills the first one (C227_roles_violated), and the integrated pipeline accepts components that cannot optimize queries (C227_integrated_violated).",
  "status": "partial"
 },
 "C228": {
  "note": "For stages with one role. Steps of incremental optimization are rejected (C228_incremental_violated); stages with several roles are used for one of them only (C228_roles_violated).",
  "status": "partial"
 },
 "C229": {
  "note": "Training is complete if each training completes its kind and keeps the others. Metrics of stages with equal names are lost (C229_metrics_violated), a stage with two roles learns twice (C229_twice_violated), and an estimator is not cleaned up after an exception (C229_cleanup_violated).",
  "status": "partial"
 },
 "C230": {
  "note": "Proved with an explicit limit and at least one allowed operator. The default limit makes every call fail (C230_default_violated); an empty set of allowed operators stands for all operators (C230_empty_violated).",
  "status": "partial"
 },
 "C231": {
  "note": "Full characterisation for files whose lines are all queries (C231_batch). Repeated queries lose their first label (C231_duplicate_violated, C231_labels_violated). Empty lines are not skipped but raise an error (C231_empty_line_violated). The CSV parser of pandas is not modelled.",
  "status": "partial"
 },
 "C232": {
  "note": "Proved for trees and graphs in which different nodes differ in content, for changes of attributes that are no inputs. Replacing an input can fail or lose the change (C232_input_violated, C232_lost_violated). Trees with equal nodes cannot be copied (C232_duplicate_violated), nor can trees that share nodes with a tree that has been mutated (C232_shared_violated). Relations with subqueries, semi joins and anti joins are not modelled.",
  "status": "partial"
 },
 "C233": {
  "note": "Hash values are right if the root is changed (C233_hash_partial) and outdated whenever a node below the root is changed (C233_hash_violated, general), since nodes are rehashed before their inputs.",
  "status": "partial"
 },
 "C234": {
  "note": "Visitors receive themselves instead of the node for unions, intersections and differences (C234_visit_violated, for every tree that contains one).",
  "status": "partial"
 },
 "C235": {
  "note": "An int & an atomic integer is their sum (C235_and_violated), subtracting a non-negative bounded integer changes nothing (C235_sub_violated), an atomic integer to the power of itself waits forever (C235_pow_violated), the modulus of pow is ignored (C235_modulus_violated). True division and negative exponents are not modelled.",
  "status": "partial"
 },
 "C236": {
  "note": "Comparisons by > and >= with an int on the right, and by < and <= with an int on the left, raise a TypeError, as does ordering an atomic and a bounded integer (C236_compare_partial decides all cases, C236_greater_violated).",
  "status": "partial"
 },
 "C237": {
  "note": "Proved for joins over two columns. Joins over more columns are not part of the graph: their tables count as cross products and are separated (C237_columns_violated). Components forget the joins from the equivalence classes and which tables have been joined (C237_state_violated).",
  "status": "partial"
 },
 "C238": {
  "note": "Proved for texts without line breaks. `ast` never shows subplans (C238_ast_subplan_violated), `explain` does not tell a subplan from a further child (C238_explain_subplan_violated) and prints an empty line before the subplan of a leaf (C238_explain_blank_violated); fields with two dots are errors (C238_fields_violated).",
  "status": "partial"
 },
 "C239": {
  "note": "Proved for the columns of the join condition and for columns of joins between tables that have been joined before, if all frequencies are at least one. Columns that are only used by later joins keep their frequency, although the join multiplies it (C239_later_violated).",
  "status": "partial"
 },
 "C240": {
  "note": "Proved for tables whose names do not occur in other databases; the catalog queries do not restrict the database, so that tables of other databases are found and described (C240_lookup_violated, C240_datatype_violated). is_primary_key and has_secondary_index pass a text where the driver expects a tuple and always fail (C240_keys_violated).",
  "status": "partial"
 },
 "C241": {
  "note": "Literals without backslashes survive with ANSI_QUOTES; without it, double quotes break out of the literal and NULL becomes the text None. Parameters of types are dropped from casts, EXPLAIN with a format keeps the syntax of Postgres, AutoCommit makes each connection file fail, and ports remain texts (the violated theorems).",
  "status": "partial"
 },
 "C242": {
  "note": "The way from Python to Postgres and back is proved for all values; the other way for infinite dates and those strictly within the range. The last date of Python and all later ones are sent back as infinite (C242_last_violated); infinite timestamps with a time zone and infinite intervals are sent back as finite ones (C242_infinite_violated). Which dumper the library selects for a value is not modelled.",
  "status": "partial"
 },
 "C243": {
  "note": "Proved for all queries without HAVING clauses and without functions in FROM, with names that contain no line breaks; with them, ast fails (C243_having_violated, C243_total_partial is an equivalence). Join conditions, the operators of set operations and arithmetic expressions and some other parts do not show (C243_hidden_violated).",
  "status": "partial"
 },
 "C244": {
  "note": "Predicates in subqueries, CTEs and explicit joins are not considered, as documented. The class of the query is kept if it fits its FROM clause, as for all queries made by the parser.",
  "status": "proved"
 },
 "C245": {
  "note": "Holds for all queries whose class fits their FROM clause. Earlier hints are lost (C245_earlier_violated), EXPLAIN without format asks for the format None (C245_format_violated), and LIMIT 0 is dropped from the text (C245_limit_violated).",
  "status": "partial"
 },
 "C246": {
  "note": "Proved for join trees over different tables; scans of the same table are drawn as one box (C246_self_violated).",
  "status": "partial"
 },
 "C247": {
  "note": "The boxes and lines are exact for all plans (C247_nodes); labels are proved for plans without subplans and with different leaves. The operator of a node with a subplan is not shown (C247_operator_violated), and equal parts share a box (C247_merged_violated).",
  "status": "partial"
 },
 "C248": {
  "note": "Proved for join graphs and for queries with primary key/foreign key joins; the default call for queries always fails (C248_query_violated).",
  "status": "partial"
 },
 "C249": {
  "note": "Proved for synopses without subqueries in subqueries, which are not drawn (C249_nested_violated). Drawing creates empty subqueries, which are written to JSON (C249_changes_violated), but the next picture is the same (C249_again). Random identifiers are assumed to be different.",
  "status": "partial"
 },
 "C250": {
  "note": "Proved for at least two columns and at least as many labels as columns. All other calls fail (C250_row_violated, C250_column_violated), because Matplotlib returns no nested arrays for single rows and columns.",
  "status": "partial"
 },
 "C251": {
  "note": "Proved for commands given as texts or lists whose program can be executed. Otherwise the working directory is not restored (C251_directory_violated); tuples always fail (C251_tuple_violated), and results with the same output are equal (C251_equal_violated).",
  "status": "partial"
 },
 "C252": {
  "note": "Proved for shared objects without blanks in their names; the listed names are characterised exactly (C252_sound). Other files are not listed (C252_text_violated) and names with blanks are cut off (C252_blank_violated).",
  "status": "partial"
 },
 "C253": {
  "note": "Elements are assumed to be different, and the palette to have different colours for different numbers. The layout algorithms of NetworkX are not modelled.",
  "status": "proved"
 },
 "C254": {
  "note": "The form is exact at all levels and can be hashed. Equal dictionaries with another order of keys have different hashes (C254_order_violated), and values that cannot be hashed are skipped (C254_skipped_violated).",
  "status": "partial"
 },
 "C255": {
  "note": "The result of simplify is exact; it is the inverse of enlist for all values that enlist wraps, but not for lists with a single element (C255_inverse_violated).",
  "status": "partial"
 },
 "C256": {
  "note": "Proved for calls with a directory (argument or PGDATA) and, for is_running, without a home directory. Calls without a directory use the current one (C256_missing_violated) and is_running does not expand home directories (C256_home_violated). The behaviour of pg_ctl is a hypothesis.",
  "status": "partial"
 },
 "C257": {
  "note": "Proved for all sequences of calls.",
  "status": "proved"
 },
 "C258": {
  "note": "Proved for parsed queries; hints for texts are ignored (C258_text_violated).",
  "status": "partial"
 },
 "C259": {
  "note": "Proved for ASCII keys; the key of the native optimizer is only found in lower case (C259_native_violated).",
  "status": "partial"
 },
 "C260": {
  "note": "Proved for reasons that are texts. Hints as reasons raise a type error unless the context is the database (C260_hints_violated).",
  "status": "partial"
 },
 "C261": {
  "note": "Proved for data frames whose object columns contain texts only; Pandas itself is trusted to read what it wrote. Complex objects become JSON texts (C261_objects), also in the data frame of the caller (C261_changes_violated), and so do texts next to missing values (C261_missing_violated).",
  "status": "partial"
 },
 "C262": {
  "note": "Proved for all dictionaries; for arrays the keys are integers.",
  "status": "proved"
 },
 "C263": {
  "note": "Proved for tables without schema that are not virtual; schema and virtuality are lost (C263_schema_violated).",
  "status": "partial"
 },
 "C264": {
  "note": "Proved for loggers that are not pretty; pretty loggers drop the prefix and accept one argument only (C264_pretty_violated), and copied output cannot be flushed (C264_flush_violated).",
  "status": "partial"
 },
 "C265": {
  "note": "Proved for downloads that are not interrupted. After an interruption the workload remains incomplete (C265_crash_violated, C265_stuck_violated), and unknown names leave an empty directory that the next call accepts (C265_unknown_violated).",
  "status": "partial"
 },
 "C266": {
  "note": "Proved for all histories: sessions are told apart, resets give working sessions, clients keep theirs, closing ends all. Sessions leak when cancelling or closing raises during a reset (C266_leak_violated), when DuckDB reconnects (C266_duck_reconnect_violated) and when a query with a timeout is run on a closed interface (C266_closed_watchdog_violated); the pool hands out dead connections whose end was not noticed (C266_reconnect_violated).",
  "status": "partial"
 },
 "C267": {
  "note": "Proved for directories without query files and parsers that accept blank lines. Line breaks in literals are doubled (C267_literal_violated), old query files become part of the workload (C267_stale_violated), labels with slashes or empty ones fail or change (C267_slash_violated, C267_empty_label_violated), and an interruption can lose a query (C267_lost_violated).",
  "status": "partial"
 },
 "C268": {
  "note": "No raw result can be read by both query_plan and parse_plan (C268_shapes_violated), interrupted queries raise instead of giving None (C268_timeout_violated), EXPLAIN texts without the JSON format give no plan (C268_format_violated).",
  "status": "partial"
 },
 "C269": {
  "note": "The costs and the subquery of the root (C269_root_violated) and subqueries without costs and children (C269_blank_violated) are not shown; apart from these, texts are equal exactly for equal synopses.",
  "status": "partial"
 },
 "C270": {
  "note": "A comparison with a swapped join has no report (C270_swapped_violated): the entry stores the plan nodes, whose inspection asks them for an identifier they do not have. C270_text_partial covers all other comparisons; C270_true and C270_kinds cover the entries of all comparisons.",
  "status": "partial"
 },
 "C271": {
  "note": "C271_actual_partial covers the actual cardinalities. For the default source the join tree has the actual instead of the estimated cardinalities (C271_default_violated): the source is called 'estimated' here and 'estimates' by jointree_from_plan.",
  "status": "partial"
 },
 "C272": {
  "note": "The branching decision fails with a KeyError if the foreign key table has no bound (C272_missing_violated); C272_subquery_partial covers all other states. C272_bound and C272_cross cover all bounds.",
  "status": "partial"
 }
}