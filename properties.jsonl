{"id": "C01", "title": "Cardinality comparison and equality are lawful", "statement": "Comparing two Cardinality values never crashes; == is reflexive and symmetric; < and > are mirror images (a<b iff b>a), < is irreflexive and transitive, a finite cardinality is smaller than the infinite one and never greater, and equal cardinalities hash alike.", "quantifier": "all Cardinality values (finite integers, infinite, unknown/NaN), all pairs and triples", "why_tests_cant": "The order laws range over all pairs and triples of an infinite value domain including the infinite and unknown values; a test picks a few literals.", "anchors": ["postbound/_core.py:Cardinality.__eq__", "postbound/_core.py:Cardinality.__lt__", "postbound/_core.py:Cardinality.__gt__", "postbound/_core.py:Cardinality.__ge__", "postbound/_core.py:Cardinality.__hash__"]}
{"id": "C02", "title": "Cardinality arithmetic propagates unknown and infinite values", "statement": "Addition, subtraction, multiplication and division of cardinalities agree with integer arithmetic on finite values (rounding as documented); an unknown operand makes the result unknown; with an infinite operand the result follows the arithmetic of the extended reals, where undetermined forms such as inf - inf and 0 * inf are unknown; a cardinality is never negative.", "quantifier": "all pairs of Cardinality values and all operations", "why_tests_cant": "Unbounded value domain with special values; every combination of operand kinds has to be covered.", "anchors": ["postbound/_core.py:Cardinality.__add__", "postbound/_core.py:Cardinality.__mul__", "postbound/_core.py:Cardinality.__sub__", "postbound/_core.py:Cardinality.__truediv__", "postbound/_core.py:Cardinality.__neg__", "postbound/_core.py:Cardinality.__abs__"]}
{"id": "C03", "title": "Table references are usable as dictionary keys and sort keys", "statement": "Equality of table references is an equivalence relation, equal references have equal hashes, and < is a strict weak order compatible with equality; the virtual flag influences neither.", "quantifier": "all table references over all (quoted or unquoted) names, aliases, schemas", "why_tests_cant": "Laws over all pairs and triples of arbitrary strings.", "anchors": ["postbound/_core.py:TableReference.__eq__", "postbound/_core.py:TableReference.__hash__", "postbound/_core.py:TableReference.__lt__", "postbound/_core.py:normalize"]}
{"id": "C04", "title": "Re-aliasing a table keeps the table", "statement": "with_alias, drop_alias, make_virtual and update change exactly the attribute they name and keep every other attribute (in particular the schema) of the table reference.", "quantifier": "all table references and all new values of the changed attribute", "why_tests_cant": "Quantifies over all references, including those with schema and without full name.", "anchors": ["postbound/_core.py:TableReference.with_alias", "postbound/_core.py:TableReference.drop_alias", "postbound/_core.py:TableReference.update", "postbound/_core.py:TableReference.make_virtual"]}
{"id": "C05", "title": "powerset enumerates every sub-collection exactly once", "statement": "powerset(l) yields 2^n sub-sequences in order of increasing size; a sub-sequence is produced iff it can be obtained by deleting elements of l, and for duplicate-free l no result is repeated.", "quantifier": "all finite collections", "why_tests_cant": "Statement over all list lengths and contents.", "anchors": ["postbound/util/collections.py:powerset", "postbound/util/collections.py:pairs"]}
{"id": "C06", "title": "sliding_window and pairs cover their input", "statement": "sliding_window(l, size, step) yields exactly the contiguous windows l[i:i+size] of full length for i = 0, step, 2*step, ...; pairs(l) yields every unordered pair of distinct positions exactly once; set_union yields the union of all its arguments.", "quantifier": "all lists and window sizes", "why_tests_cant": "All list lengths and window sizes, including windows longer than the list.", "anchors": ["postbound/util/collections.py:sliding_window", "postbound/util/collections.py:pairs", "postbound/util/collections.py:set_union"]}
{"id": "C07", "title": "Queue behaves as a FIFO queue for every operation history", "statement": "For every sequence of append/extend/push/pop operations the elements leave a Queue in the order in which they were added and every successful pop removes exactly the head.", "quantifier": "all finite histories of queue operations over arbitrary payloads (including falsy payloads)", "why_tests_cant": "Ranges over unbounded operation histories and payload values.", "anchors": ["postbound/util/collections.py:Queue"]}
{"id": "C08", "title": "SizedQueue never exceeds its capacity and keeps the most recent elements", "statement": "After every history of operations a SizedQueue created with at most capacity elements contains at most capacity elements; appending to a full queue evicts the oldest element.", "quantifier": "all capacities and finite operation histories", "why_tests_cant": "Invariant over unbounded histories.", "anchors": ["postbound/util/collections.py:SizedQueue"]}
{"id": "C09", "title": "Dictionary helpers satisfy the set-algebra laws on keys", "statement": "difference/intersection/merge of dictionaries: the key set of the result is the set difference/intersection/union, every retained entry is taken from the left operand (difference, intersection) or is the updated/merged value (merge); generate_multi lists under each key exactly the values paired with it, in order.", "quantifier": "all finite dictionaries and merge functions", "why_tests_cant": "All dictionaries, all key overlaps.", "anchors": ["postbound/util/dicts.py:difference", "postbound/util/dicts.py:intersection", "postbound/util/dicts.py:merge", "postbound/util/dicts.py:generate_multi", "postbound/util/dicts.py:invert_multi"]}
{"id": "C10", "title": "Inverting a multi-dictionary loses nothing", "statement": "After inverting a dictionary of value collections, a key k is listed under value v iff v was listed under k.", "quantifier": "all finite multi-dictionaries", "why_tests_cant": "All dictionaries with arbitrary sharing of values among keys.", "anchors": ["postbound/util/dicts.py:invert_multi"]}
{"id": "C11", "title": "Version comparison is a total order", "statement": "Versions are totally ordered: exactly one of a<b, a==b, a>b holds, < is transitive, and <= / >= are the unions with equality.", "quantifier": "all non-empty version numbers of arbitrary length", "why_tests_cant": "Trichotomy and transitivity over all sequences of integers.", "anchors": ["postbound/util/misc.py:Version"]}
{"id": "C12", "title": "DependencyGraph iterates in dependency order", "statement": "Iterating a dependency graph yields every node once and never before all of its dependencies have been yielded.", "quantifier": "all finite acyclic dependency graphs", "why_tests_cant": "All graphs; orders depend on graph shape.", "anchors": ["postbound/util/misc.py:DependencyGraph.__iter__"]}
{"id": "C13", "title": "BoundedInt always stays within its bounds", "statement": "For every sequence of arithmetic updates, a BoundedInt's value stays within its configured bounds.", "quantifier": "all bounds, all initial values accepted by the constructor, all finite update histories", "why_tests_cant": "Invariant over unbounded histories.", "anchors": ["postbound/util/num.py:BoundedInt"]}
{"id": "C14", "title": "AtomicInt updates are not lost under any thread schedule", "statement": "For any number of threads each performing any sequence of increments/updates on a shared AtomicInt, for every interleaving the final value is the initial value plus the sum of all increments; no operation deadlocks.", "quantifier": "all numbers of threads, programs and schedules", "why_tests_cant": "Schedules are exponentially many and not controllable from a test.", "anchors": ["postbound/util/num.py:AtomicInt"]}
{"id": "C15", "title": "Graph walks visit connected nodes first and every node once", "statement": "nx_random_walk yields every node of the graph exactly once; each yielded node is adjacent to a previously yielded one unless no unvisited node is adjacent to the visited ones.", "quantifier": "all finite undirected graphs and all random choices", "why_tests_cant": "All graphs and random outcomes.", "anchors": ["postbound/util/nx.py:nx_random_walk"]}
{"id": "C16", "title": "Operator assignments behave like maps keyed by intermediates", "statement": "After any history of set_join_operator/set_scan_operator/add calls, looking up a table or set of tables returns the last assignment made for it, and lookups of other keys are unaffected; assigning an operator clears nothing else.", "quantifier": "all histories of assignment operations and all lookup keys", "why_tests_cant": "Unbounded histories over arbitrary table sets.", "anchors": ["postbound/_hints.py:PhysicalOperatorAssignment.set_join_operator", "postbound/_hints.py:PhysicalOperatorAssignment.set_scan_operator", "postbound/_hints.py:PhysicalOperatorAssignment.add", "postbound/_hints.py:PhysicalOperatorAssignment.get", "postbound/_hints.py:PhysicalOperatorAssignment.__getitem__"]}
{"id": "C17", "title": "Merging operator assignments is right-biased and non-destructive", "statement": "merge_with returns an assignment in which every key assigned in the other operand has the other's value, every other key has the left operand's value, and neither operand changes; cloning yields an independent equal assignment.", "quantifier": "all pairs of assignments and keys", "why_tests_cant": "All overlap patterns of two maps; aliasing is invisible on a few samples.", "anchors": ["postbound/_hints.py:PhysicalOperatorAssignment.merge_with", "postbound/_hints.py:PhysicalOperatorAssignment.clone"]}
{"id": "C18", "title": "Globally disabling an operator", "statement": "After set_operator_enabled_globally(op, b, overwrite_fine_grained_selection=False) the set of globally enabled operators contains op iff b and is otherwise unchanged; with overwrite_fine_grained_selection=True and b=False no scan, join or intermediate assignment uses op any more.", "quantifier": "all assignments, operators and flags", "why_tests_cant": "All assignment states.", "anchors": ["postbound/_hints.py:PhysicalOperatorAssignment.set_operator_enabled_globally", "postbound/_hints.py:PhysicalOperatorAssignment.get_globally_enabled_operators"]}
{"id": "C19", "title": "Merging plan parameters loses no parameter", "statement": "PlanParameterization.merge_with keeps every cardinality, worker count, system setting and the execution mode of both operands, right operand winning on conflicts; drop_workers removes exactly the worker hints.", "quantifier": "all pairs of parameterizations", "why_tests_cant": "All overlap patterns.", "anchors": ["postbound/_hints.py:PlanParameterization.merge_with", "postbound/_hints.py:PlanParameterization.drop_workers"]}
{"id": "C20", "title": "Join trees: tables, traversal and lookup agree", "statement": "For a join tree without repeated tables, tables() is exactly the set of its leaves, iternodes() yields every node once, iterjoins() yields every join after its children, and lookup(tables) returns the subtree whose tables are exactly those, if there is one.", "quantifier": "all join trees and all table sets", "why_tests_cant": "Structural induction over unbounded trees.", "anchors": ["postbound/_hints.py:JoinTree.tables", "postbound/_hints.py:JoinTree.iternodes", "postbound/_hints.py:JoinTree.iterjoins", "postbound/_hints.py:JoinTree.lookup"]}
{"id": "C21", "title": "Join-tree extension", "statement": "Joining a non-empty join tree with a table or another tree yields a tree whose leaves are the leaves of both in order; the annotations requested are stored; joining the empty tree yields the partner.", "quantifier": "all trees, partners and annotations", "why_tests_cant": "Structural statement over all trees.", "anchors": ["postbound/_hints.py:JoinTree.join_with", "postbound/opt/_helpers.py:jointree_from_sequence"]}
{"id": "C22", "title": "Join tree shape predicates", "statement": "is_linear / is_bushy / is_base_join describe the whole join tree: a tree is linear iff every join has a base table as at least one input.", "quantifier": "all join trees", "why_tests_cant": "Shape predicates over unbounded trees.", "anchors": ["postbound/_hints.py:JoinTree.is_linear", "postbound/_hints.py:JoinTree.is_bushy", "postbound/_hints.py:JoinTree.is_base_join"]}
{"id": "C23", "title": "Extracting the join order from a plan preserves tables and nesting", "statement": "jointree_from_plan yields, for every plan consisting of scans, joins and unary auxiliary operators, the join tree obtained by deleting the auxiliary operators; its tables are exactly the plan's tables in the same order.", "quantifier": "all query plans", "why_tests_cant": "Structural induction over unbounded plans.", "anchors": ["postbound/_hints.py:jointree_from_plan"]}
{"id": "C24", "title": "Operator and parameter extraction covers the plan", "statement": "operators_from_plan assigns to every scanned table and every join of the plan exactly the plan's operator; parameters_from_plan records for every intermediate the plan's estimated or actual cardinality.", "quantifier": "all query plans with distinct intermediates", "why_tests_cant": "Unbounded plans.", "anchors": ["postbound/_hints.py:operators_from_plan", "postbound/_hints.py:parameters_from_plan"]}
{"id": "C25", "title": "Plan canonicalisation is idempotent and keeps scans and joins", "statement": "canonical() removes exactly the auxiliary operators: the result contains only scans and joins, has the same base tables, the same joins in the same nesting, and canonicalising again changes nothing.", "quantifier": "all query plans", "why_tests_cant": "Unbounded plans.", "anchors": ["postbound/_qep.py:QueryPlan.canonical"]}
{"id": "C26", "title": "Plan search finds a node iff one exists", "statement": "find_all_nodes(p) returns exactly the nodes satisfying p in traversal order; find_first_node(p) returns a node satisfying p iff one exists.", "quantifier": "all plans (with subplans) and predicates", "why_tests_cant": "Unbounded plans and arbitrary predicates.", "anchors": ["postbound/_qep.py:QueryPlan.find_first_node", "postbound/_qep.py:QueryPlan.find_all_nodes"]}
{"id": "C27", "title": "Exhaustive join-order enumeration is sound and complete", "statement": "Enumerating the join orders of a query yields only cross-product-free join trees over exactly the query's tables, and every cross-product-free bushy join tree is produced.", "quantifier": "all connected join graphs", "why_tests_cant": "Number of join trees grows super-exponentially; all graph shapes.", "anchors": ["postbound/opt/enumeration.py:_enumerate_join_graph", "postbound/opt/enumeration.py:ExhaustiveJoinOrderEnumerator"]}
{"id": "C28", "title": "Dynamic programming returns a cheapest plan", "statement": "The dynamic programming enumerator returns a plan that scans each table of the query exactly once, uses only supported operators and contains no cross product; it fails exactly if the tables are not connected by join predicates, a table cannot be scanned, or no join operator is available. For a cost function in which the cost of a join is monotone in the cost of its inputs, no cross-product-free (bushy) plan built from supported operators is cheaper.", "quantifier": "all connected join graphs and monotone cost models", "why_tests_cant": "Optimality quantifies over all plans of all queries.", "anchors": ["postbound/opt/dynprog.py:DynamicProgrammingEnumerator"]}
{"id": "C29", "title": "Path pruning never discards the only good path", "statement": "After adding any sequence of candidate paths to a relation, every candidate is dominated (within the configured cost fuzz factor, and at least as well sorted) by a kept path, and the kept set is never empty once a path was added.", "quantifier": "all sequences of candidate paths", "why_tests_cant": "All insertion orders and cost/sort combinations.", "anchors": ["postbound/opt/dynprog.py:standard_add_path", "postbound/opt/dynprog.py:_sorting_subsumes"]}
{"id": "C30", "title": "Join graph bookkeeping", "statement": "At every point of every optimisation run, consumed and free tables partition the query's tables; marking a table joined moves exactly that table; initial() holds iff nothing is consumed; available join paths are exactly the joins of the query from a consumed to a free table once the graph is not initial (all joins before), so that connected queries have no dead ends; join kinds (primary key/foreign key, n:m) and partners follow the predicates of the query and the valid indexes; there are free n:m joins iff there is an available n:m join path; deep primary key joins form a tree that contains each table once.", "quantifier": "all queries, all histories of mark_joined calls", "why_tests_cant": "Unbounded histories.", "anchors": ["postbound/opt/_joingraph.py:JoinGraph.mark_joined", "postbound/opt/_joingraph.py:JoinGraph.available_join_paths", "postbound/opt/_joingraph.py:JoinGraph.contains_free_tables"]}
{"id": "C31", "title": "Filters and joins together are equivalent to the WHERE predicate", "statement": "The conjunction of the filters and joins of a query's predicates is satisfied by exactly the same rows as the original WHERE predicate.", "quantifier": "all predicate trees and all rows", "why_tests_cant": "Semantic equivalence over all predicates and all databases.", "anchors": ["postbound/qal/_qal.py:_collect_filter_predicates", "postbound/qal/_qal.py:_collect_join_predicates", "postbound/qal/_qal.py:QueryPredicates.filters", "postbound/qal/_qal.py:QueryPredicates.joins"]}
{"id": "C32", "title": "Filter/join classification", "statement": "Every predicate is either a join or a filter, never both; a base predicate is a join iff it references columns of at least two different tables; join_partners of a join contains exactly the cross-table column pairs.", "quantifier": "all predicates", "why_tests_cant": "All predicate shapes.", "anchors": ["postbound/qal/_qal.py:AbstractPredicate.is_join", "postbound/qal/_qal.py:BinaryPredicate.is_join", "postbound/qal/_qal.py:BetweenPredicate.is_join", "postbound/qal/_qal.py:_generate_join_pairs"]}
{"id": "C33", "title": "join_partners never fails on a join predicate", "statement": "join_partners() of every predicate for which is_join() holds returns without raising, and contains the partners of each join below it.", "quantifier": "all compound predicates", "why_tests_cant": "All nesting shapes.", "anchors": ["postbound/qal/_qal.py:CompoundPredicate.join_partners", "postbound/qal/_qal.py:BinaryPredicate.join_partners"]}
{"id": "C34", "title": "joins_tables means connectivity", "statement": "joins_tables(T) holds iff the tables in T are connected by join predicates of the query.", "quantifier": "all predicate sets, all table sets", "why_tests_cant": "Reachability over arbitrary graphs.", "anchors": ["postbound/qal/_qal.py:QueryPredicates.joins_tables", "postbound/qal/_qal.py:QueryPredicates._join_tables_check"]}
{"id": "C35", "title": "joins_between finds every join predicate connecting the two sides", "statement": "joins_between(A, B) contains every join predicate of the query that connects a table of A with a table of B and touches no other table.", "quantifier": "all queries and table sets", "why_tests_cant": "All join predicate shapes, including multi-table ones.", "anchors": ["postbound/qal/_qal.py:QueryPredicates.joins_between", "postbound/qal/_qal.py:QueryPredicates._init_join_predicate_map"]}
{"id": "C36", "title": "Join equivalence classes are the transitive closure", "statement": "Two columns are in the same join equivalence class iff they are connected by a chain of equi-join predicates; the predicates generated from a class are implied by the original predicates and imply them.", "quantifier": "all sets of predicates and rows", "why_tests_cant": "Transitive closure over arbitrary chains.", "anchors": ["postbound/qal/_qal.py:determine_join_equivalence_classes", "postbound/qal/_qal.py:generate_predicates_for_equivalence_classes"]}
{"id": "C37", "title": "Adding equivalence-class predicates preserves the query", "statement": "add_ec_predicates returns a query whose WHERE condition accepts exactly the same rows as the original one.", "quantifier": "all queries and rows", "why_tests_cant": "Semantic equivalence over all predicates.", "anchors": ["postbound/transform.py:add_ec_predicates"]}
{"id": "C38", "title": "Flattening conjunctions preserves meaning", "statement": "flatten_and_predicate returns a predicate without nested conjunctions that accepts exactly the same rows as its input.", "quantifier": "all predicate trees and rows", "why_tests_cant": "Semantic equivalence over all trees.", "anchors": ["postbound/transform.py:flatten_and_predicate"]}
{"id": "C39", "title": "Query fragments are sound relaxations", "statement": "The WHERE condition of a query fragment over a subset of tables references only those tables and is implied by the original WHERE condition.", "quantifier": "all predicates, table subsets and rows", "why_tests_cant": "Semantic implication over all trees.", "anchors": ["postbound/transform.py:_get_predicate_fragment", "postbound/transform.py:extract_query_fragment"]}
{"id": "C40", "title": "Removing and replacing predicates", "statement": "remove_predicate removes every occurrence of the predicate; for a conjunction the original condition is equivalent to the reduced one AND the removed predicate. Replacing a predicate by an equivalent one preserves the accepted rows.", "quantifier": "all predicate trees and rows", "why_tests_cant": "Semantic statements over all trees.", "anchors": ["postbound/transform.py:remove_predicate", "postbound/transform.py:_perform_predicate_replacement", "postbound/transform.py:replace_predicate"]}
{"id": "C41", "title": "Column renaming is capture-free substitution", "statement": "Renaming columns with the identity renaming changes nothing, renaming replaces exactly the mapped columns everywhere simultaneously, and evaluating the renamed predicate on a row equals evaluating the original on the row pulled back along the renaming.", "quantifier": "all expressions, predicates, renamings and rows", "why_tests_cant": "Structural induction over all expression trees.", "anchors": ["postbound/transform.py:rename_columns_in_expression", "postbound/transform.py:rename_columns_in_predicate"]}
{"id": "C42", "title": "Clause editing", "statement": "add_clause puts the clause into the query and keeps all clauses of other types; drop_clause removes exactly the given clauses; replace_clause replaces clauses that are present and never adds a clause.", "quantifier": "all queries and clause lists", "why_tests_cant": "All clause combinations.", "anchors": ["postbound/transform.py:add_clause", "postbound/transform.py:drop_clause", "postbound/transform.py:replace_clause"]}
{"id": "C43", "title": "A merged pre-check accepts exactly what all its parts accept", "statement": "A check merged from any (nested) collection of checks accepts a query iff every part accepts it, accepts a database system iff every part accepts it, and reports the failures of the failing parts.", "quantifier": "all nested collections of checks, all queries and databases", "why_tests_cant": "All nesting and all check behaviours.", "anchors": ["postbound/validation.py:merge_checks", "postbound/validation.py:CompoundCheck", "postbound/validation.py:PreCheckResult.merge"]}
{"id": "C44", "title": "Cross-product check", "statement": "The cross-product pre-check passes iff the tables of the query are connected by join predicates.", "quantifier": "all queries", "why_tests_cant": "Reachability over arbitrary join graphs.", "anchors": ["postbound/validation.py:CrossProductPreCheck"]}
{"id": "C45", "title": "Equi-join check", "statement": "The equi-join pre-check passes iff all join predicates are equi-joins between two columns, conjunctions being allowed iff so configured.", "quantifier": "all queries and configurations", "why_tests_cant": "All predicate nestings.", "anchors": ["postbound/validation.py:EquiJoinPreCheck"]}
{"id": "C46", "title": "No optimisation without a successful build", "statement": "For every history of pipeline configuration calls, a query is only optimised if the stages currently configured were accepted by a build() since the last change, i.e. every configured stage supports the target database and the query.", "quantifier": "all finite histories of setup/build/optimize calls", "why_tests_cant": "Unbounded API call histories.", "anchors": ["postbound/_pipelines.py:IntegratedOptimizationPipeline", "postbound/_pipelines.py:TextBookOptimizationPipeline", "postbound/_pipelines.py:MultiStageOptimizationPipeline"]}
{"id": "C47", "title": "Incremental pipeline integrity", "statement": "At every point of every configuration history all stages of an incremental pipeline support its target database, and optimisation applies exactly the configured steps in order to the initial plan.", "quantifier": "all finite histories", "why_tests_cant": "Unbounded histories.", "anchors": ["postbound/_pipelines.py:IncrementalOptimizationPipeline"]}
{"id": "C48", "title": "Workload set algebra", "statement": "Union, difference and intersection of workloads act on labels like the set operations, keep the queries of the left operand on conflicts, and filtering, relabelling, taking prefixes and picking keep label-query pairs intact.", "quantifier": "all workloads", "why_tests_cant": "All overlap patterns.", "anchors": ["postbound/workloads.py:Workload"]}
{"id": "C49", "title": "first(n) and last(n)", "statement": "first(n) contains the first n and last(n) the last n labels in the workload's order, for every n >= 0.", "quantifier": "all workloads and n", "why_tests_cant": "All sizes, including n = 0 and n larger than the workload.", "anchors": ["postbound/workloads.py:Workload.first", "postbound/workloads.py:Workload.last"]}
{"id": "C50", "title": "Shuffling permutes a workload", "statement": "shuffle() yields a workload with the same label-query pairs whose iteration order is a permutation of the original labels; ordered() restores the sorted order.", "quantifier": "all workloads and random outcomes", "why_tests_cant": "All permutations.", "anchors": ["postbound/workloads.py:Workload.shuffle", "postbound/workloads.py:Workload.ordered"]}
{"id": "C51", "title": "Reading a workload with lenient error handling", "statement": "Reading a workload directory with on_error=warn/ignore yields exactly the files that could be parsed, each under its own label with its own query.", "quantifier": "all sequences of files, parseable or not", "why_tests_cant": "All patterns of failures.", "anchors": ["postbound/workloads.py:Workload.read", "postbound/workloads.py:read_workload"]}
{"id": "C52", "title": "Benchmark result table is complete", "statement": "Benchmarking a workload with n repetitions per query and w workload repetitions yields one row per execution; all result columns have the same length, whatever queries fail, time out or are ignored; exec_index is unique and consecutive.", "quantifier": "all workloads, repetition counts, error policies and failure patterns", "why_tests_cant": "Every pattern of success/timeout/failure over all executions.", "anchors": ["postbound/bench.py:_ResultSample", "postbound/bench.py:_ExecutionResults", "postbound/bench.py:_exec_ctl_loop", "postbound/bench.py:_workload_ctl_loop"]}
{"id": "C53", "title": "Benchmark log state machine", "statement": "At every point of every history, finishing or failing a benchmark changes exactly the log entry of that run; entries of other runs are unaffected; a crashed run stays marked running.", "quantifier": "all histories and crash points", "why_tests_cant": "All interleavings of runs and crash points.", "anchors": ["postbound/bench.py:_init_benchmark_log", "postbound/bench.py:_finalize_benchmark_log", "postbound/bench.py:_failed_benchmark_log"]}
{"id": "C54", "title": "Intermediate generation", "statement": "generate_intermediates yields exactly the non-empty subsets of the query's tables that are connected by join predicates (all non-empty subsets when cross products are allowed), each once.", "quantifier": "all queries", "why_tests_cant": "Exponentially many subsets, all graph shapes.", "anchors": ["postbound/_stages.py:CardinalityEstimator.generate_intermediates", "postbound/_stages.py:CardinalityEstimator.estimate_cardinalities", "postbound/_stages.py:CardinalityEstimator.generate_plan_parameters"]}
{"id": "C55", "title": "UES join bounds are upper bounds", "statement": "Given correct table cardinalities and maximum column frequencies, the UES bound of an n:m or primary-key/foreign-key equi-join of two tables is at least the true join cardinality, and the cardinality annotated on the root of a returned join order is at least the size of the query result.", "quantifier": "all table contents", "why_tests_cant": "All database contents.", "anchors": ["postbound/opt/ues.py:UESBoundEstimator._estimate_n_m_join", "postbound/opt/ues.py:UESBoundEstimator._estimate_pk_fk_join"]}
{"id": "C56", "title": "TONIC costs are discounted sums and the recommendation is cheapest", "statement": "After any history of cost updates the stored cost of an operator is the gamma-discounted sum of its costs, and the recommended operator is one with the smallest stored cost, given only if at least two operators are known.", "quantifier": "all update histories", "why_tests_cant": "Unbounded histories.", "anchors": ["postbound/opt/tonic.py:QEPsNode.update_costs", "postbound/opt/tonic.py:QEPsNode.current_recommendation", "postbound/util/dicts.py:argmin"]}
{"id": "C57", "title": "TONIC models survive saving and loading", "statement": "Loading a saved TONIC model yields the same synopsis.", "quantifier": "all synopses", "why_tests_cant": "Unbounded trees.", "anchors": ["postbound/opt/tonic.py:_load_qeps_from_json", "postbound/opt/tonic.py:QEPsNode.__json__"]}
{"id": "C58", "title": "Histogram frequencies are monotone and complementary", "statement": "frequency_below is monotonically increasing and frequency_above monotonically decreasing in the value; both lie between 0 and the number of rows.", "quantifier": "all histograms and values", "why_tests_cant": "All histograms and values.", "anchors": ["postbound/db/_db.py:Histogram.frequency_below", "postbound/db/_db.py:Histogram.frequency_above"]}
{"id": "C59", "title": "Most-common-value lists", "statement": "The entries are sorted by descending frequency, top(k)/below(k) partition the list, min_freq/max_freq bound every frequency, and lookups of missing values with bound_missing give an upper bound for the frequency of any value cut off by top(k).", "quantifier": "all MCV lists and k", "why_tests_cant": "All lists.", "anchors": ["postbound/db/_db.py:MostCommonValues"]}
{"id": "C60", "title": "Join-tree JSON round trip", "statement": "Reading back the JSON representation of a join tree yields an equal join tree.", "quantifier": "all join trees", "why_tests_cant": "Unbounded trees.", "anchors": ["postbound/opt/_helpers.py:read_jointree_json", "postbound/_hints.py:JoinTree.__json__"]}
{"id": "C61", "title": "A plan compared with itself has no differences", "statement": "compare_query_plans(p, p) reports no difference.", "quantifier": "all query plans", "why_tests_cant": "Unbounded plans.", "anchors": ["postbound/opt/_analysis.py:compare_query_plans"]}
{"id": "C62", "title": "Simplifying result sets", "statement": "simplify_result_set unwraps single columns and single rows only: any result set with at least two rows and two columns is returned unchanged, and the row values are recoverable.", "quantifier": "all result sets", "why_tests_cant": "All shapes.", "anchors": ["postbound/db/_db.py:simplify_result_set"]}
{"id": "C63", "title": "Building a plan from a join tree keeps its tables and join order", "statement": "to_query_plan followed by jointree_from_plan returns the original join tree, and the plan's tables are the tree's tables.", "quantifier": "all join trees", "why_tests_cant": "Unbounded trees.", "anchors": ["postbound/opt/_helpers.py:to_query_plan", "postbound/opt/_helpers.py:_make_simple_plan"]}
{"id": "C64", "title": "Stages are trained at most once", "statement": "Training a pipeline trains exactly those stages that require training and have not been fitted, in order, and training again changes nothing.", "quantifier": "all pipelines and histories of training calls", "why_tests_cant": "Unbounded histories.", "anchors": ["postbound/_pipelines.py:OptimizationPipeline"]}
{"id": "C65", "title": "Table and column references survive JSON", "statement": "Writing a table or column reference to JSON and loading it again yields an equal reference, including its schema.", "quantifier": "all table and column references", "why_tests_cant": "All combinations of name, alias, schema and virtual flag; the writer and reader live in different modules.", "anchors": ["postbound/_core.py:TableReference.__json__", "postbound/_core.py:ColumnReference.__json__", "postbound/parser.py:load_table_json", "postbound/parser.py:load_column_json"]}
{"id": "C66", "title": "Quoting yields a SQL token for the same identifier", "statement": "quote(identifier) is a SQL token that a SQL lexer reads back as exactly this identifier; in particular different identifiers never get the same token.", "quantifier": "all strings", "why_tests_cant": "All identifiers, including reserved words, upper case letters and special characters.", "anchors": ["postbound/_core.py:quote"]}
{"id": "C67", "title": "Equal frozen dictionaries have equal hashes", "statement": "If two frozen (hashable) dictionaries compare equal, their hashes are equal.", "quantifier": "all finite dictionaries and insertion orders", "why_tests_cant": "All dictionaries and all insertion histories.", "anchors": ["postbound/util/dicts.py:hash_dict", "postbound/util/dicts.py:frozendict", "postbound/util/dicts.py:HashableDict"]}
{"id": "C68", "title": "argmin returns a minimal key", "statement": "argmin fails exactly on empty mappings and otherwise returns the first key whose value is minimal.", "quantifier": "all finite mappings to numbers", "why_tests_cant": "All mappings and tie patterns.", "anchors": ["postbound/util/dicts.py:argmin"]}
{"id": "C69", "title": "Version texts are read back as the same version", "statement": "The textual and JSON forms of a version are accepted by the Version constructor and yield an equal version.", "quantifier": "all versions", "why_tests_cant": "All component sequences.", "anchors": ["postbound/util/misc.py:Version.__init__", "postbound/util/misc.py:Version.__str__", "postbound/util/misc.py:Version.__json__", "postbound/util/misc.py:Version.formatted"]}
{"id": "C70", "title": "Frontier walks are exactly the exploration orders of a graph", "statement": "nx_frontier_walks yields a walk for every order of the nodes in which each node is adjacent to an earlier one (or starts a new component after the current one is exhausted), and no other walks.", "quantifier": "all finite undirected graphs, connected or not", "why_tests_cant": "All graphs; completeness is a statement about all orders of nodes.", "anchors": ["postbound/util/nx.py:nx_frontier_walks", "postbound/util/nx.py:_walk_frontier"]}
{"id": "C71", "title": "Breadth-first traversal yields each matching node once", "statement": "nx_bfs_tree yields every node that is reachable from the start node and satisfies the condition, exactly once; children of nodes that fail the condition are still explored.", "quantifier": "all finite undirected graphs, start nodes and conditions", "why_tests_cant": "All graphs and conditions.", "anchors": ["postbound/util/nx.py:nx_bfs_tree"]}
{"id": "C72", "title": "Operator assignments survive a JSON round trip", "statement": "Writing a physical operator assignment to JSON and reading it back yields the same global settings, intermediate operators, scan operators and join operators, including worker counts and join directions.", "quantifier": "all assignments", "why_tests_cant": "All assignments over arbitrary table sets; lost attributes only show for particular contents.", "anchors": ["postbound/_hints.py:PhysicalOperatorAssignment.__json__", "postbound/opt/_helpers.py:read_operator_assignment_json"]}
{"id": "C73", "title": "Integrating worker counts", "statement": "integrate_workers_from gives every operator for which the parameters contain a worker count exactly this count and changes nothing else; with fail_on_missing it fails iff some count belongs to an intermediate without operator.", "quantifier": "all assignments, worker maps and flags", "why_tests_cant": "All combinations of assigned and parallelised intermediates.", "anchors": ["postbound/_hints.py:PhysicalOperatorAssignment.integrate_workers_from"]}
{"id": "C74", "title": "Equality of scan assignments is reflexive", "statement": "A scan operator assignment equals itself, and two of them are equal iff operator, table and worker count agree.", "quantifier": "all pairs of scan operator assignments", "why_tests_cant": "All attribute combinations, including the not-a-number default.", "anchors": ["postbound/_hints.py:ScanOperatorAssignment.__eq__"]}
{"id": "C75", "title": "Join-tree equality and classes", "statement": "Two join trees are equal iff they have the same class, shape and tables; equality is an equivalence consistent with hashing, and the operations of a logical join tree return logical join trees.", "quantifier": "all pairs of join trees", "why_tests_cant": "All trees; class changes surface only after particular operations.", "anchors": ["postbound/_hints.py:JoinTree.__eq__", "postbound/_hints.py:JoinTree.__hash__", "postbound/_hints.py:LogicalJoinTree.join_with", "postbound/_hints.py:LogicalJoinTree.update_annotation"]}
{"id": "C76", "title": "Join-tree depth and node counts", "statement": "plan_depth() is the number of nodes on a longest root-to-leaf chain; a tree over n leaves has n-1 joins and 2n-1 nodes.", "quantifier": "all join trees", "why_tests_cant": "Unbounded shapes.", "anchors": ["postbound/_hints.py:JoinTree.plan_depth", "postbound/_hints.py:JoinTree.iternodes", "postbound/_hints.py:JoinTree.iterjoins"]}
{"id": "C77", "title": "The q-error of an executed operator", "statement": "For an executed plan node with known cardinalities, qerror() is (max(estimate, actual)+1)/(min(estimate, actual)+1), at least 1.", "quantifier": "all pairs of cardinalities", "why_tests_cant": "Ranges over all cardinalities; rounding shows only for close values.", "anchors": ["postbound/_qep.py:QueryPlan.qerror"]}
{"id": "C78", "title": "Updating the estimates of a plan changes exactly what was asked for", "statement": "with_estimates replaces the given estimates of the root only; with_actual_card turns the actual cardinality of every node into its estimate and removes all measurements, taking over unknown values iff ignore_nan is off; scale_cardinality scales only the root, or all nodes if recursive, and touches no other measurement.", "quantifier": "all plans, factors and flags", "why_tests_cant": "Unbounded plans with subplans.", "anchors": ["postbound/_qep.py:QueryPlan.with_estimates", "postbound/_qep.py:QueryPlan.with_actual_card", "postbound/_qep.py:QueryPlan.scale_cardinality"]}
{"id": "C79", "title": "Navigating a plan", "statement": "tables() are exactly the tables mentioned by some node; iternodes() lists exactly the nodes; lookup(tables) returns a node with these tables iff there is one; plan_depth() is the length of the longest path.", "quantifier": "all plans", "why_tests_cant": "Unbounded plans.", "anchors": ["postbound/_qep.py:QueryPlan.tables", "postbound/_qep.py:QueryPlan.iternodes", "postbound/_qep.py:QueryPlan.lookup", "postbound/_qep.py:QueryPlan.plan_depth"]}
{"id": "C80", "title": "Plan equality is an equivalence and agrees with hashing", "statement": "Two plans are equal iff they have the same node types and base tables at the same positions; this is an equivalence relation and equal plans have equal hashes.", "quantifier": "all pairs and triples of plans", "why_tests_cant": "Unbounded plans.", "anchors": ["postbound/_qep.py:QueryPlan.__eq__", "postbound/_qep.py:QueryPlan.__hash__"]}
{"id": "C81", "title": "Shape tests of plans", "statement": "is_linear, is_bushy, is_left_deep and is_right_deep hold iff all (respectively, for bushy, some) joins of the plan have the documented form; is_scan_branch holds iff the plan contains no join and then fetch_base_table() returns the only table.", "quantifier": "all plans", "why_tests_cant": "Unbounded plans; the defect needs three levels of joins.", "anchors": ["postbound/_qep.py:QueryPlan.is_linear", "postbound/_qep.py:QueryPlan.is_bushy", "postbound/_qep.py:QueryPlan.is_scan_branch", "postbound/_qep.py:QueryPlan.fetch_base_table"]}
{"id": "C82", "title": "Reported columns and tables of an expression are exactly those that occur", "statement": "For every expression or predicate, columns() and itercolumns() report exactly the columns that occur anywhere in it (including those reported by its subqueries), and tables() reports exactly the tables of these columns, of star expressions and of the subqueries.", "quantifier": "all expressions and predicates, of any nesting, and any subqueries", "why_tests_cant": "Expressions nest without bound; the omissions only occur below CASE, window functions and longer arithmetic.", "anchors": ["postbound/qal/_qal.py:SqlExpression.columns", "postbound/qal/_qal.py:SqlExpression.itercolumns", "postbound/qal/_qal.py:SqlExpression.tables"]}
{"id": "C83", "title": "The expression collector finds exactly the matching subexpressions", "statement": "ExpressionCollector returns only subexpressions that satisfy its matcher; with continue_after_match it returns all of them, otherwise it returns, for each matching subexpression, one in which it is contained.", "quantifier": "all expressions and all matchers", "why_tests_cant": "Unbounded nesting and arbitrary matchers.", "anchors": ["postbound/qal/_qal.py:ExpressionCollector", "postbound/qal/_qal.py:SqlExpression.iterchildren"]}
{"id": "C84", "title": "Compound predicates mean AND, OR and NOT of their parts", "statement": "create_and, create_or, create and QueryPredicates.and_ fail only for an illegal number of parts and otherwise have, on every row, the truth value (in SQL's three-valued logic) of the conjunction, disjunction or negation of their parts; the truth value of a predicate depends only on its base predicates.", "quantifier": "all lists of predicates and all rows", "why_tests_cant": "Arbitrarily nested predicates, arbitrary numbers of parts and arbitrary rows.", "anchors": ["postbound/qal/_qal.py:CompoundPredicate.create", "postbound/qal/_qal.py:CompoundPredicate.create_and", "postbound/qal/_qal.py:CompoundPredicate.create_or", "postbound/qal/_qal.py:CompoundPredicate.base_predicates", "postbound/qal/_qal.py:QueryPredicates.and_"]}
{"id": "C85", "title": "filters_for and joins_for return exactly the predicates of a table", "statement": "filters_for(t) is the conjunction of the filters that mention t (None iff there are none); joins_for(t) never raises, partitions the joins that mention t by the tables they compare t with and returns the conjunction of each part, so that together they accept exactly the rows accepted by all joins that mention t.", "quantifier": "all query predicates, tables and rows", "why_tests_cant": "Arbitrary predicates, groupings and rows.", "anchors": ["postbound/qal/_qal.py:QueryPredicates.filters_for", "postbound/qal/_qal.py:QueryPredicates.joins_for"]}
{"id": "C86", "title": "The join graph contains exactly the joins", "statement": "join_graph() does not raise; its nodes are the tables mentioned in the predicates, and two tables are connected by an edge iff some join compares columns of both. The same holds for merge_aliases=True after dropping aliases.", "quantifier": "all query predicates", "why_tests_cant": "Arbitrary predicates, joins and tables.", "anchors": ["postbound/qal/_qal.py:QueryPredicates.join_graph"]}
{"id": "C87", "title": "required_tables are the tables that must be provided from outside", "statement": "required_tables of a predicate are the tables of its columns outside of subqueries together with the tables that its subqueries use but do not provide.", "quantifier": "all predicates and subqueries", "why_tests_cant": "Arbitrarily nested predicates.", "anchors": ["postbound/qal/_qal.py:AbstractPredicate.required_tables"]}
{"id": "C88", "title": "Both strategies of joins_between return the same joins", "statement": "joins_between(a, b) returns all joins between a and b with either search strategy, including joins that involve further tables.", "quantifier": "all query predicates, pairs of tables and rows", "why_tests_cant": "Arbitrary predicates and rows.", "anchors": ["postbound/qal/_qal.py:QueryPredicates.joins_between", "postbound/qal/_qal.py:QueryPredicates._legacy_joins_between"]}
{"id": "C89", "title": "Explicit joins can be rewritten to an implicit FROM clause", "statement": "explicit_to_implicit returns a query over the same tables whose WHERE condition accepts exactly the rows that satisfy the original WHERE condition and every ON condition of the inner joins; other table sources are rejected.", "quantifier": "all nestings of tables and inner joins, all WHERE conditions and rows", "why_tests_cant": "Semantic equivalence over all join trees.", "anchors": ["postbound/transform.py:explicit_to_implicit", "postbound/transform.py:flatten_and_predicate"]}
{"id": "C90", "title": "Rebuilding a query from its clauses returns the same query", "statement": "build_query(query.clauses()) yields a query of the same class with the same clause in every position; whatever build_query accepts is a well-formed query whose class matches its FROM clause.", "quantifier": "all queries (ordinary and set queries, any subset of optional clauses) and all clause lists given to build_query", "why_tests_cant": "a query has 2^12 combinations of clauses and the list given to build_query is arbitrary", "anchors": ["postbound/qal/_qal.py:build_query", "postbound/qal/_qal.py:SqlQuery.clauses", "postbound/qal/_qal.py:SetQuery.clauses"]}
{"id": "C91", "title": "Changing one clause leaves the rest of the query alone", "statement": "as_star_query, as_count_star_query and as_explain return a query with the new SELECT/EXPLAIN clause and otherwise the clauses of the input; drop_hints removes the hints (or only the preparatory statements) and nothing else; the SELECT variants reject set queries.", "quantifier": "all queries and all clauses", "why_tests_cant": "the frame condition ranges over every combination of the other clauses", "anchors": ["postbound/transform.py:as_star_query", "postbound/transform.py:as_count_star_query", "postbound/transform.py:as_explain", "postbound/transform.py:drop_hints"]}
{"id": "C92", "title": "label_of finds a label of the query", "statement": "label_of(query) returns a label under which the workload contains the query (the only one if the query occurs once), and raises iff the query is not part of the workload.", "quantifier": "all workloads and queries", "why_tests_cant": "the mapping is built from the dictionary once and must agree with it for all contents, including duplicated queries", "anchors": ["postbound/workloads.py:Workload.label_of"]}
{"id": "C93", "title": "Generated workloads number all queries", "statement": "generate_workload(queries) contains every given query under its position (counting from 1).", "quantifier": "all lists of queries", "why_tests_cant": "ranges over all lists, including those with repeated queries", "anchors": ["postbound/workloads.py:generate_workload"]}
{"id": "C94", "title": "Reading nested directories keeps all files apart", "statement": "read_workload with recurse_subdirectories provides every query file below the root under a label made of the prefix, the directory names and the file name.", "quantifier": "all directory trees", "why_tests_cant": "ranges over all directory trees", "anchors": ["postbound/workloads.py:read_workload"]}
{"id": "C95", "title": "Results of checks are combined and enforced faithfully", "statement": "Merging check results passes iff all results passed and otherwise reports exactly the reasons of the failed ones; ensure_all_passed raises iff the check failed, whatever the context.", "quantifier": "all lists of results, all contexts", "why_tests_cant": "All lists of results.", "anchors": ["postbound/validation.py:PreCheckResult.merge", "postbound/validation.py:PreCheckResult.ensure_all_passed"]}
{"id": "C96", "title": "Inner-join check", "statement": "The inner-join pre-check passes iff the query, including its subqueries in FROM, contains inner joins only.", "quantifier": "all FROM clauses with arbitrarily nested joins and subqueries", "why_tests_cant": "Arbitrary nesting.", "anchors": ["postbound/validation.py:InnerJoinPreCheck"]}
{"id": "C97", "title": "Operator enumeration", "statement": "Enumerating the operator assignments of a join order yields exactly the combinations of allowed operators for the included scans and joins, each once.", "quantifier": "all join orders, all sets of operators and all settings", "why_tests_cant": "Combinatorially many assignments.", "anchors": ["postbound/opt/enumeration.py:ExhaustiveOperatorEnumerator"]}
{"id": "C98", "title": "Plan enumeration and its bound", "statement": "Enumerating the plans of a query yields a plan for every join order and operator assignment, and possible_plans_bound is at least the number of these plans.", "quantifier": "all queries and operator sets", "why_tests_cant": "All queries.", "anchors": ["postbound/opt/enumeration.py:ExhaustivePlanEnumerator", "postbound/opt/_analysis.py:possible_plans_bound"]}
{"id": "C99", "title": "Merge joins are considered", "statement": "If sort-merge joins are supported, the Postgres-style enumerator creates a merge join for every equi-join predicate between two intermediates, and uses existing sort orders of its inputs.", "quantifier": "all join predicates and all pairs of intermediates", "why_tests_cant": "Whether a join key is recognized depends on the shape of the predicate and the sort keys of the candidate paths.", "anchors": ["postbound/opt/dynprog.py:_sort_inner_outer", "postbound/opt/dynprog.py:_extract_join_columns", "postbound/opt/dynprog.py:_is_sorted_by", "postbound/_qep.py:SortKey"]}
{"id": "C100", "title": "The Postgres-style enumerator returns a valid, cheapest plan", "statement": "The Postgres-style dynamic programming enumerator returns a plan that scans each table exactly once, without cross products and with supported operators only, for every query whose tables are connected by join predicates; with monotone costs and without index scans no plan in its search space is cheaper.", "quantifier": "all join graphs, cost models, supported operators and index configurations", "why_tests_cant": "Quantifies over all join graphs and all plans.", "anchors": ["postbound/opt/dynprog.py:PostgresDynProg"]}
{"id": "C101", "title": "Emulated histograms describe the column", "statement": "The histogram that is computed from the groups of a column has ascending bounds that are values of the column, its buckets contain exactly the rows up to their bounds, and all rows are in a bucket.", "quantifier": "all columns and numbers of bins", "why_tests_cant": "All column contents and all bin counts.", "anchors": ["postbound/db/_db.py:_infer_histogram_bounds", "postbound/db/_db.py:DatabaseStatistics._calculate_histogram"]}
{"id": "C102", "title": "Histograms from the Postgres catalog", "statement": "The histogram built from the catalog's histogram bounds and most common values has ascending bounds, describes as many rows as the table has, and starts at the smallest value.", "quantifier": "all catalog contents", "why_tests_cant": "All interleavings of bounds and common values.", "anchors": ["postbound/postgres.py:PostgresStatisticsInterface._retrieve_histogram_from_stats"]}
{"id": "C103", "title": "Valid indexes of the join graph are keys of the intermediate result", "statement": "Indexes of a join graph never become valid again; indexes of free tables are those of the schema; a primary key index of a consumed table that is still considered valid is a key of the intermediate result, i.e. each value appears at most once in the join of all consumed tables.", "quantifier": "all queries, schemas, database contents and histories of mark_joined calls", "why_tests_cant": "Quantifies over all histories and database contents.", "anchors": ["postbound/opt/_joingraph.py:JoinGraph.mark_joined", "postbound/opt/_joingraph.py:IndexInfo"]}
{"id": "C104", "title": "UES join orders cover the query", "statement": "For every connected query, the UES optimizer returns a join tree that contains each table exactly once and joins only subtrees that are connected by a join predicate; each step selects a candidate with the lowest bound, and the number of steps is at most the number of tables.", "quantifier": "all queries (tables, join predicates, indexes), statistics and strategies", "why_tests_cant": "All queries and index configurations; the result depends on a long sequence of greedy decisions.", "anchors": ["postbound/opt/ues.py:UESJoinOrderOptimizer", "postbound/opt/ues.py:UESJoinOrderOptimizer._default_ues_optimizer", "postbound/opt/ues.py:UESJoinOrderOptimizer._star_query_optimizer", "postbound/opt/ues.py:UESJoinOrderOptimizer._binary_join_optimization"]}
{"id": "C105", "title": "Training interfaces are complete", "statement": "Creating an optimisation stage succeeds iff its class implements each kind of training completely or not at all, so that training a pipeline never fails with NotImplementedError.", "quantifier": "all stage classes", "why_tests_cant": "All combinations of overridden methods of user-defined classes.", "anchors": ["postbound/_stages.py:OptimizationStage.__new__", "postbound/_stages.py:_missing_method_impls"]}
{"id": "C106", "title": "Pre-computed cardinalities", "statement": "An estimator over a table of pre-computed cardinalities returns the stored cardinality if exactly one row matches the query and the tables, raises an error if several do, and otherwise uses the default or the live fallback. With error_on_missing_card a cardinality that cannot be determined raises an error. Fallback estimates that are saved are found by later calls and after loading the file again.", "quantifier": "all lookup tables, queries, sets of tables and call histories", "why_tests_cant": "All tables and histories of estimates.", "anchors": ["postbound/opt/_cardinalities.py:PreComputedCardinalities"]}
{"id": "C107", "title": "Precise and distorted cardinalities", "statement": "PreciseCardinalities returns the result of the count query on the current data, unless its cache is enabled. A distorted cardinality is the original one times the factor, rounded; with a random factor it lies between the original one and the original one times the given factor, up to rounding; unknown cardinalities stay unknown.", "quantifier": "all histories of estimates, cardinalities and factors", "why_tests_cant": "Histories with changing data, real-valued factors.", "anchors": ["postbound/opt/_cardinalities.py:PreciseCardinalities", "postbound/opt/_cardinalities.py:CardinalityDistortion"]}
{"id": "C108", "title": "Progressive output, callbacks and online training", "statement": "Each execution of a benchmark is written to the progressive output exactly once, the callback is called exactly once per completed execution, and the pipeline learns from each completed execution, all in the order of the executions.", "quantifier": "all workloads, repetition counts, error policies and failure patterns", "why_tests_cant": "Every pattern of success, timeout and failure over all executions.", "anchors": ["postbound/bench.py:_exec_ctl_loop", "postbound/bench.py:_workload_ctl_loop", "postbound/bench.py:_ResultSample.write_progressive"]}
{"id": "C109", "title": "TONIC recommends what it has learned", "statement": "Integrating a query plan adds the costs of exactly its joins to the synopsis, each at the join path of its tables. Afterwards, the operators recommended for a join order are, for each join, one of the operators that were observed for its join path, with the smallest discounted costs, provided that at least two were observed.", "quantifier": "all histories of query plans, all queries and all join orders", "why_tests_cant": "Histories, plans and join orders are unbounded, and the claim relates two different traversals.", "anchors": ["postbound/opt/tonic.py:QEPsNode.integrate_costs", "postbound/opt/tonic.py:QEPsNode.recommend_operators", "postbound/opt/tonic.py:QEPsNode.detect_unknown_costs", "postbound/opt/tonic.py:_iterate_query_plan", "postbound/opt/tonic.py:_iterate_join_tree", "postbound/opt/tonic.py:QepsIdentifier"]}
{"id": "C110", "title": "The text of an expression means the same as the expression", "statement": "Converting an expression or predicate to text yields SQL that can be read by the usual precedence rules in exactly one way, and the expression that is read has the same meaning as the one that was printed: brackets are set wherever they are needed.", "quantifier": "all expressions and predicates of any nesting depth, all interpretations of operators in which +, * and || are associative", "why_tests_cant": "There are infinitely many nestings of operators, and the absence of ambiguity of the grammar is a property of all texts.", "anchors": ["postbound/qal/_qal.py:MathExpression.__str__", "postbound/qal/_qal.py:MathExpression._requires_brackets", "postbound/qal/_qal.py:CompoundPredicate.__str__", "postbound/qal/_qal.py:BinaryPredicate.__str__", "postbound/qal/_qal.py:UnaryPredicate.__str__"]}
{"id": "C111", "title": "Tables and columns of whole queries", "statement": "`tables()` and `columns()` of a query (ordinary or set query, with WITH, JOIN, derived tables and arbitrarily nested subqueries) report exactly the tables and columns that occur in the query or one of its subqueries.", "quantifier": "all queries of all nesting depths", "why_tests_cant": "Unit tests cover the benchmark queries; the clauses and nesting levels combine without bound.", "anchors": ["postbound/qal/_qal.py: SqlQuery.tables", "postbound/qal/_qal.py: SqlQuery.columns", "postbound/qal/_qal.py: SetQuery.tables", "postbound/qal/_qal.py: TableSource.tables"]}
{"id": "C112", "title": "Subqueries of a query", "statement": "`subqueries()` returns exactly the queries that are nested directly in a clause other than WITH.", "quantifier": "all queries and all positions of subqueries", "why_tests_cant": "Subqueries can occur in every clause, expression and FROM item.", "anchors": ["postbound/qal/_qal.py: SqlQuery.subqueries", "postbound/qal/_qal.py: collect_subqueries_in_expression", "postbound/qal/_qal.py: _collect_subqueries_in_table_source"]}
{"id": "C113", "title": "Unbound tables and dependent queries", "statement": "`unbound_tables()` returns exactly the tables that the query refers to but that have to be provided by an outer query according to the scoping rules of SQL, and `is_dependent()` tells whether there are any.", "quantifier": "all queries of all nesting depths", "why_tests_cant": "Scoping depends on all enclosing and nested queries; tests only cover single correlated subqueries.", "anchors": ["postbound/qal/_qal.py: SqlQuery.bound_tables", "postbound/qal/_qal.py: SqlQuery.unbound_tables", "postbound/qal/_qal.py: SqlQuery.is_dependent", "postbound/qal/_qal.py: _collect_bound_tables"]}
{"id": "C114", "title": "Predicates of a query", "statement": "`predicates()` contains the predicates of the WITH queries, the WHERE clause and the FROM clause (join conditions and FROM subqueries) and no others; `contains_cross_product()` can be computed for every query.", "quantifier": "all queries and all combinations of clauses", "why_tests_cant": "The conditions are collected from all clauses and nested queries.", "anchors": ["postbound/qal/_qal.py: SqlQuery.predicates", "postbound/qal/_qal.py: From.predicates", "postbound/qal/_qal.py: JoinTableSource.predicates", "postbound/qal/_qal.py: SqlQuery.contains_cross_product"]}
{"id": "C115", "title": "Output columns", "statement": "`output_columns()` lists the columns of the result in the order of the SELECT clause: given names, names of plain columns and numbered generic names; for set queries names of the left side take precedence over names of the right side.", "quantifier": "all SELECT clauses and all trees of set operations", "why_tests_cant": "The numbering of anonymous columns depends on all preceding projections and on the whole tree of set operations.", "anchors": ["postbound/qal/_qal.py: SqlQuery.output_columns", "postbound/qal/_qal.py: SetQuery.output_columns"]}
{"id": "C116", "title": "Equality and hash values of queries", "statement": "`==` on queries, and on all their clauses, table sources and expressions, is an equivalence relation; queries built by `build_query` from plain clauses are equal exactly if they have the same structure; equal queries have equal hash values, so that they can be used as dictionary keys and in sets.", "quantifier": "all pairs and triples of queries of any nesting depth, with all kinds of clauses, table sources and expressions", "why_tests_cant": "Equality and hashing are defined separately for each of about forty classes; consistency has to hold for all combinations of nested parts.", "anchors": ["postbound/qal/_qal.py: SqlQuery.__eq__", "postbound/qal/_qal.py: SetQuery.__eq__", "postbound/qal/_qal.py: SqlExpression.__hash__", "postbound/qal/_qal.py: InPredicate.__eq__", "postbound/qal/_qal.py: WithQuery.__eq__", "postbound/qal/_qal.py: SubqueryTableSource.__eq__", "postbound/qal/_qal.py: Limit.__eq__", "postbound/qal/_qal.py: Explain.__eq__"]}
{"id": "C117", "title": "Building queries from clauses", "statement": "`build_query` raises an error exactly if the clauses contain neither a SELECT clause nor a set operation, or mix a set operation with clauses of a plain query; the query contains exactly the given clauses, independent of their order; its class fits to its FROM clause; building a query from its own clauses gives the query back.", "quantifier": "all lists of clauses and all queries", "why_tests_cant": "Which parts get lost depends on the combination and on the order of the clauses.", "anchors": ["postbound/qal/_qal.py: build_query", "postbound/qal/_qal.py: SqlQuery.clauses", "postbound/qal/_qal.py: SetQuery.clauses", "postbound/qal/_qal.py: SetQuery.__init__"]}
{"id": "C118", "title": "Join order hints denote the given join order", "statement": "For every join order, the hint generated for pg_hint_plan, pg_lab, quack_lab (at least two, two and three tables) and MySQL has exactly the nesting and the tables of the join order, and no other join order is hinted; the text of the hint determines the nesting. For a complete query plan the hinted order is the one of the plan.", "quantifier": "all join trees of any shape and size, all plans, all combinations with operators and parameters", "why_tests_cant": "The structure of the generated hint must be right for every tree shape; tests look at a few trees.", "anchors": ["postbound/postgres.py: _generate_pghintplan_hints, _generate_pglab_hints, _generate_pglab_plan, PostgresHintService.generate_hints", "postbound/duckdb.py: DuckDBHintService.generate_hints", "postbound/mysql.py: MysqlHintService.generate_hints"]}
{"id": "C119", "title": "Operator hints are exactly the requested operators", "statement": "For every operator assignment, the generated hint block contains an operator hint for a set of tables if and only if this operator was requested for these tables, with the name that the backend uses for it; for a complete plan, exactly the operators of its nodes are hinted.", "quantifier": "all operator assignments, plans and backends", "why_tests_cant": "A lost or renamed operator for some combination silently changes the experiment; the combinations cannot be enumerated by tests.", "anchors": ["postbound/postgres.py: _generate_pghintplan_hints, _generate_pglab_hints, _generate_pglab_plan, PostgresHintService.generate_hints", "postbound/duckdb.py: DuckDBHintService.generate_hints", "postbound/mysql.py: MysqlHintService.generate_hints"]}
{"id": "C120", "title": "Parallel workers are hinted once, for the operator that asked for them", "statement": "The generated hints ask for parallel workers at most once per query, with the requested number of workers, for the intermediate that the request names.", "quantifier": "all operator assignments, worker counts and plans", "why_tests_cant": "Depends on the combination and order of all requests for workers.", "anchors": ["postbound/postgres.py: _generate_pghintplan_hints, _generate_pglab_hints, _generate_pglab_plan, PostgresHintService.generate_hints", "postbound/duckdb.py: DuckDBHintService.generate_hints", "postbound/mysql.py: MysqlHintService.generate_hints"]}
{"id": "C121", "title": "Cardinality hints are exactly the known cardinalities", "statement": "The generated hint block contains a cardinality hint for an intermediate if and only if the parameters hold a known and finite cardinality for it, with this value; for complete plans the actual cardinality of each node is used, or the estimate if there is none.", "quantifier": "all plan parameters and plans", "why_tests_cant": "Must hold for every set of intermediates and all special cardinalities.", "anchors": ["postbound/postgres.py: _generate_pghintplan_hints, _generate_pglab_hints, _generate_pglab_plan, PostgresHintService.generate_hints", "postbound/duckdb.py: DuckDBHintService.generate_hints", "postbound/mysql.py: MysqlHintService.generate_hints"]}
{"id": "C122", "title": "Settings reach the database and unsupported requests fail", "statement": "Global operator settings and system settings appear exactly as requested in the hint block or in the statements before the query; the generation raises an error exactly for the requests that the backend does not support, and never drops parts silently.", "quantifier": "all assignments, parameters and backends", "why_tests_cant": "Needs an exact description of success and failure over all inputs.", "anchors": ["postbound/postgres.py: _generate_pghintplan_hints, _generate_pglab_hints, _generate_pglab_plan, PostgresHintService.generate_hints", "postbound/duckdb.py: DuckDBHintService.generate_hints", "postbound/mysql.py: MysqlHintService.generate_hints"]}
{"id": "C123", "title": "The plan traversal for hints visits every node once, level by level", "statement": "The traversal that generates hints for a complete plan visits each node exactly once, starting at the root, level by level from left to right.", "quantifier": "all plans of any shape", "why_tests_cant": "Induction over arbitrary plans.", "anchors": ["postbound/postgres.py: _iter_plan_bfs"]}
{"id": "C124", "title": "Filter views represent exactly the simple filters", "statement": "SimpleFilter.wrap succeeds exactly for filters of the form column op value, value op column, column BETWEEN a AND b and column IN (values), up to casts, and exposes the column, operator and value(s); can_wrap says whether wrap succeeds; wrap_all provides the views of exactly the representable predicates in order and ignores the others.", "quantifier": "every predicate, every list of predicates", "why_tests_cant": "predicates form an infinite family of trees", "anchors": ["postbound/qal/_qal.py:SimpleFilter", "postbound/qal/_qal.py:_attempt_filter_unwrap", "postbound/qal/_qal.py:_unwrap_expression"]}
{"id": "C125", "title": "Filter views mean what their predicate means", "statement": "Column, operator and value of a filter view describe a condition with the truth value of the predicate on every row, and columns() of the view are the columns of the predicate.", "quantifier": "every predicate with a view, every row, every comparison semantics", "why_tests_cant": "ranges over all rows and all comparison functions", "anchors": ["postbound/qal/_qal.py:SimpleFilter", "postbound/qal/_qal.py:_attempt_filter_unwrap"]}
{"id": "C126", "title": "Join views represent exactly the simple equi joins", "statement": "SimpleJoin.wrap succeeds exactly for equi joins of two columns (up to casts); can_wrap says whether wrap succeeds; wrap_all keeps exactly the representable predicates; the columns belong to different tables; joins/partner_of describe the pair (the partner of the partner is the original, no partner iff not joined); columns and join partners are those of the predicate.", "quantifier": "every predicate, every list of predicates, every table and column", "why_tests_cant": "predicates form an infinite family of trees", "anchors": ["postbound/qal/_qal.py:SimpleJoin"]}
{"id": "C127", "title": "Equality and hash values of simplified views are consistent", "statement": "Equal views have equal hash values and the same components; equality between views and predicates is symmetric.", "quantifier": "every pair of views", "why_tests_cant": "ranges over all pairs of predicates", "anchors": ["postbound/qal/_qal.py:SimpleFilter.__eq__", "postbound/qal/_qal.py:SimpleJoin.__eq__"]}
{"id": "C128", "title": "as_predicate builds the predicate its arguments describe", "statement": "as_predicate(column, op, *args) builds column op value, BETWEEN with two bounds or IN with the flattened values; other argument counts raise ValueError; operators can be given as strings in any case; the view of the result has the same column, operator and value.", "quantifier": "every column, operator, operator string and argument list", "why_tests_cant": "ranges over all argument lists", "anchors": ["postbound/qal/_qal.py:as_predicate", "postbound/qal/_qal.py:as_expression"]}
{"id": "C129", "title": "Simplifying the predicates of a query", "statement": "all_simple returns whether every filter and join has a view; if so simplify provides exactly one view per filter and join; in general it drops exactly the predicates without a view.", "quantifier": "every set of filters and joins", "why_tests_cant": "ranges over all predicate sets", "anchors": ["postbound/qal/_qal.py:QueryPredicates.simplify", "postbound/qal/_qal.py:QueryPredicates.all_simple"]}
{"id": "C130", "title": "Renaming columns in a query", "statement": "rename_columns_in_query replaces each column that has an entry in the renaming by its new name, in all clauses and all subqueries on all levels, and changes nothing else.", "quantifier": "every query of any depth of nesting and every renaming", "why_tests_cant": "queries form an infinite family of nested trees", "anchors": ["postbound/transform.py:rename_columns_in_query", "postbound/transform.py:_rename_columns_in_clause", "postbound/transform.py:_rename_columns_in_table_source"]}
{"id": "C131", "title": "Renaming a table in a query", "statement": "rename_table replaces a table by another one in all clauses and all subqueries; its columns belong to the new table, with their names unchanged (or prefixed with the old table name on request); all other tables and columns are kept, and no FROM clause lists a table twice.", "quantifier": "every query of any depth of nesting, every pair of tables, every renaming dictionary", "why_tests_cant": "queries form an infinite family of nested trees", "anchors": ["postbound/transform.py:rename_table", "postbound/transform.py:_TableReferenceRenamer"]}
{"id": "C132", "title": "Merging tables", "statement": "merge_tables replaces each of the given tables by the target table in all clauses and subqueries, columns keep their names, each FROM clause lists the target once, and the order of processing the tables does not matter.", "quantifier": "every query of any depth of nesting, every set of tables and every target", "why_tests_cant": "queries form an infinite family; the order of the iteration over a set is arbitrary", "anchors": ["postbound/transform.py:merge_tables"]}
{"id": "C133", "title": "Replacing expressions", "statement": "replace_expressions applies the replacement to every target, grouping and ordering expression and every argument of a predicate, in the query and in the queries of its WITH and FROM clauses; everything else is kept; the identity replacement returns an equal query.", "quantifier": "every query of any depth of nesting and every replacement function", "why_tests_cant": "ranges over all functions on expressions", "anchors": ["postbound/transform.py:replace_expressions", "postbound/transform.py:_replace_expressions_in_clause"]}
{"id": "C134", "title": "Query fragments", "statement": "extract_query_fragment returns None iff the query does not contain all given tables; otherwise the fragment has exactly the given tables in its FROM clause and consists of exactly the targets, predicates, grouping and ordering expressions and WITH queries that reference (a subset of) them, together with the LIMIT clause.", "quantifier": "every query, every set of tables, every projection mode", "why_tests_cant": "queries and subsets of tables form infinite families", "anchors": ["postbound/transform.py:extract_query_fragment"]}
{"id": "C135", "title": "EXPLAIN output becomes a query plan", "statement": "A PostgresExplainNode is normalised (as_qep) to a query plan exactly if all parent relationships are known; every plan node carries type, operator, table, index, cost, time, workers and buffers of the EXPLAIN node at the same place, the estimated rows times the number of processes of the outermost parallel node above, and the actual rows times the loops; children are outer, inner, members in this order.", "quantifier": "every EXPLAIN tree of any shape and depth", "why_tests_cant": "EXPLAIN trees form an infinite family", "anchors": ["postbound/postgres.py:PostgresExplainNode.as_qep", "postbound/postgres.py:PostgresExplainNode._generate_qep", "postbound/postgres.py:PostgresExplainNode.parse_table"]}
{"id": "C136", "title": "No part of an EXPLAIN tree is lost", "statement": "The nodes of the normalised plan correspond one to one to the nodes of the EXPLAIN tree, its tables are those of the EXPLAIN tree, and subplans keep the name of the CTE they compute.", "quantifier": "every EXPLAIN tree of any shape and depth", "why_tests_cant": "EXPLAIN trees form an infinite family", "anchors": ["postbound/postgres.py:PostgresExplainNode._generate_qep"]}
{"id": "C137", "title": "Equality and hashing of EXPLAIN nodes", "statement": "Equality of EXPLAIN nodes is an equivalence relation determined by shape, node types, relations and aliases, and equal nodes have equal hashes.", "quantifier": "all pairs of EXPLAIN trees", "why_tests_cant": "pairs of trees form an infinite family", "anchors": ["postbound/postgres.py:PostgresExplainNode.__eq__", "postbound/postgres.py:PostgresExplainNode.__hash__"]}
{"id": "C138", "title": "Inner and outer children of an EXPLAIN node", "statement": "inner_outer_children returns the inner and then the outer child of a join node, and the available children of other nodes.", "quantifier": "every EXPLAIN node with any children", "why_tests_cant": "children are arbitrary trees", "anchors": ["postbound/postgres.py:PostgresExplainNode.inner_outer_children"]}
{"id": "C139", "title": "EXPLAIN documents", "statement": "PostgresExplainPlan accepts an object or a list (using its first element), fails if there is no plan, reports times in seconds and whether the plan was executed; inspect lists each node once, indented by level.", "quantifier": "every EXPLAIN document with a tree of any shape", "why_tests_cant": "documents contain arbitrary trees", "anchors": ["postbound/postgres.py:PostgresExplainPlan", "postbound/postgres.py:PostgresExplainNode.inspect", "postbound/postgres.py:PostgresExplainNode.is_analyze"]}
{"id": "C140", "title": "Text similarity", "statement": "jaccard is symmetric, lies between 0 and 1, and is 1 exactly for equal and 0 exactly for disjoint sets; trigrams yields all windows of three characters of the padded text in order.", "quantifier": "all pairs of finite sets; all texts", "why_tests_cant": "sets and texts form infinite families", "anchors": ["postbound/util/stats.py:jaccard", "postbound/util/stats.py:trigrams"]}
{"id": "C141", "title": "DuckDB plans", "statement": "parse_duckdb_plan succeeds exactly if wrapper nodes have one child; the plan contains the remaining nodes in the same arrangement with their operators, estimated and actual cardinalities; the time of each node is the sum of the timings at and below it.", "quantifier": "every DuckDB plan of any shape and depth, with or without query", "why_tests_cant": "plans form an infinite family", "anchors": ["postbound/duckdb.py:parse_duckdb_plan"]}
{"id": "C142", "title": "Tables of DuckDB scans", "statement": "A scan is bound to a table of the query with the scanned relation; if the query references the relation several times, to the one whose filter is the most similar, if it is clearly more similar than all others; binding never fails.", "quantifier": "every query and every scan node", "why_tests_cant": "filters are arbitrary texts", "anchors": ["postbound/duckdb.py:_bind_node_to_table"]}
{"id": "C143", "title": "Lookup of tables in MySQL plans", "statement": "The name in a MySQL plan is resolved to the table of the query with this alias or, if there is none, with this full name, independently of the order of the tables; the lookup fails exactly if there is no such table.", "quantifier": "all lists of tables and all names", "why_tests_cant": "lists are unbounded", "anchors": ["postbound/mysql.py:_lookup_table"]}
{"id": "C144", "title": "MySQL plans", "statement": "A nested loop over table entries becomes the left-deep plan joining them in order, with access method, join algorithm and estimates of each entry; grouping, ordering and similar operations become nodes above it; nothing in the document is lost.", "quantifier": "every EXPLAIN document of any depth, with or without query", "why_tests_cant": "documents form an infinite family", "anchors": ["postbound/mysql.py:parse_mysql_explain_plan", "postbound/mysql.py:MysqlExplainNode.as_qep"]}
{"id": "C145", "title": "Estimates of MySQL plans", "statement": "Scan costs are the sum of reading and evaluation costs, join costs the prefix costs, scan cardinalities the examined rows times the filter percentage, join cardinalities the produced rows; missing values are unknown.", "quantifier": "all values of the cost and row entries", "why_tests_cant": "numbers are unbounded", "anchors": ["postbound/mysql.py:_parse_cost_info", "postbound/mysql.py:_parse_cardinality_info"]}
{"id": "C146", "title": "Random bushy join orders", "statement": "For a connected join graph and whatever the random choices are, the bushy generator yields a join order that contains each table exactly once and no cross product (with a base table: in which this table is joined first with one of its partners); every such join order is possible; cross products are rejected.", "quantifier": "all join graphs, all sequences of random choices", "why_tests_cant": "graphs and choice sequences are unbounded", "anchors": ["postbound/opt/randomized.py:RandomJoinOrderGenerator.random_join_orders_for", "postbound/opt/randomized.py:_sample_join_graph"]}
{"id": "C147", "title": "Random linear join orders", "statement": "The left-deep and right-deep generators yield exactly the left-deep resp. right-deep join orders in which each table is joined with an earlier one, beginning with the base table if one is given.", "quantifier": "all join graphs, all sequences of random choices", "why_tests_cant": "graphs and choice sequences are unbounded", "anchors": ["postbound/opt/randomized.py:RandomJoinOrderGenerator._linear_join_orders"]}
{"id": "C148", "title": "Elimination of duplicate join orders", "statement": "If duplicates are to be eliminated, the generated join orders are pairwise different, and every sampled join order is yielded.", "quantifier": "all sequences of samples of any length", "why_tests_cant": "sequences are unbounded", "anchors": ["postbound/opt/randomized.py:RandomJoinOrderGenerator.random_join_orders_for"]}
{"id": "C149", "title": "Random operators and plans", "statement": "The operator generator assigns exactly one allowed and supported operator to each join and each table of the join order and nothing else; the plan generator yields plans with this join order and these operators.", "quantifier": "all join orders, all operator lists, all sequences of random choices", "why_tests_cant": "join orders and choices are unbounded", "anchors": ["postbound/opt/randomized.py:RandomOperatorGenerator", "postbound/opt/randomized.py:RandomPlanGenerator.random_plans_for"]}
{"id": "C150", "title": "Rows computed by the relational algebra", "statement": "If a query is translated to relational algebra, the tree computes the rows of the query: the combinations of tuples of the FROM tables that satisfy the WHERE clause, grouped, ordered and projected as the query says, whatever the iteration order of sets is.", "quantifier": "all queries, all databases, all iteration orders of sets", "why_tests_cant": "queries and databases are unbounded", "anchors": ["postbound/relalg.py:parse_relalg", "postbound/relalg.py:_ImplicitRelalgParser"]}
{"id": "C151", "title": "Expressions are available where they are used", "statement": "Each operator of a translated tree only uses expressions that its inputs provide: columns of tables below or results of mappings and groupings below.", "quantifier": "all queries that are translated, all operators of the tree", "why_tests_cant": "trees are unbounded", "anchors": ["postbound/relalg.py:_ImplicitRelalgParser", "postbound/relalg.py:Map", "postbound/relalg.py:RelNode.provided_expressions"]}
{"id": "C152", "title": "HAVING in the relational algebra", "statement": "The condition of a HAVING clause is applied to the groups.", "quantifier": "all queries with a HAVING clause, all databases", "why_tests_cant": "queries and databases are unbounded", "anchors": ["postbound/relalg.py:_ImplicitRelalgParser.generate_relnode", "postbound/relalg.py:EvaluationPhase"]}
{"id": "C153", "title": "Which queries are translated", "statement": "Each query over tables with a conjunction of comparisons of columns and constants is translated, even with cross products, and whether the translation succeeds does not depend on the iteration order of sets.", "quantifier": "all queries, all iteration orders of sets", "why_tests_cant": "queries and orders are unbounded", "anchors": ["postbound/relalg.py:_ImplicitRelalgParser", "postbound/relalg.py:_filter_by_phase", "postbound/relalg.py:_split_filter_predicate"]}
{"id": "C154", "title": "Subqueries in predicates in the relational algebra", "statement": "A predicate with subqueries keeps the rows of the input for which it holds, each as often as in the input.", "quantifier": "all predicates, inputs and databases", "why_tests_cant": "predicates and databases are unbounded", "anchors": ["postbound/relalg.py:_ImplicitRelalgParser._convert_predicate"]}
{"id": "C155", "title": "Set queries in the relational algebra", "statement": "The tree of a set query is the operator applied to the trees of both parts.", "quantifier": "all set queries", "why_tests_cant": "queries are unbounded", "anchors": ["postbound/relalg.py:_ImplicitRelalgParser", "postbound/relalg.py:parse_relalg"]}
{"id": "C156", "title": "Tables of columns", "statement": "When a statement is parsed with a schema, each column gets the table that it refers to by the rules of SQL: qualified columns the table or alias in the innermost FROM clause that has it, other columns the table of the FROM clause that has a column with this name; likewise for t.* and for the tables, WITH queries and subqueries in FROM clauses.", "quantifier": "all statements, nested in any way, all schemas", "why_tests_cant": "statements are unbounded", "anchors": ["postbound/parser.py:QueryNamespace", "postbound/parser.py:_pglast_parse_colref", "postbound/parser.py:_pglast_parse_from_entry", "postbound/parser.py:_pglast_parse_ctes"]}
{"id": "C157", "title": "The column cache is invisible", "statement": "The cache of resolved columns in the name resolution never changes the result of parsing, whatever tables and subqueries are opened between two lookups.", "quantifier": "all statements and schemas", "why_tests_cant": "the interleavings of lookups and registrations are unbounded", "anchors": ["postbound/parser.py:QueryNamespace.lookup_column", "postbound/parser.py:QueryNamespace.register_table", "postbound/parser.py:QueryNamespace.open_nested"]}
{"id": "C158", "title": "The schema cache is invisible", "statement": "The columns used to parse a statement are those of the schema passed for this statement, whatever statements were parsed with which schemas before.", "quantifier": "all sequences of statements, schemas and lookups", "why_tests_cant": "histories are unbounded", "anchors": ["postbound/parser.py:SchemaCache", "postbound/parser.py:parse_query"]}
{"id": "C159", "title": "Parsed expressions keep their meaning", "statement": "The expression that the parser creates has, for every meaning of columns, constants, operators, functions and subqueries, the value of the parsed SQL expression: operators, operands and their order, negations, lists, function arguments, filters, window partitions, casts, cases and array accesses are those of the text; conditions become predicates.", "quantifier": "all expressions, nested in any way, all interpretations of the operations", "why_tests_cant": "expressions are unbounded and the interpretation is arbitrary", "anchors": ["postbound/parser.py:_pglast_parse_expression", "postbound/parser.py:_pglast_parse_operator", "postbound/parser.py:_pglast_parse_type", "postbound/parser.py:_pglast_parse_predicate"]}
{"id": "C160", "title": "Which expressions are accepted", "statement": "The parser accepts an expression exactly if all its parts are supported constructs (supported operators with the right number of operands, IN and BETWEEN, LIKE, comparisons with ANY/ALL of arrays, functions with DISTINCT and FILTER only for the known aggregates, casts, CASE, EXISTS, IN and scalar subqueries, array accesses); otherwise it raises an error.", "quantifier": "all expressions, nested in any way", "why_tests_cant": "expressions are unbounded", "anchors": ["postbound/parser.py:_pglast_parse_expression", "postbound/qal/_qal.py:FunctionExpression", "postbound/qal/_qal.py:CompoundPredicate"]}
{"id": "C161", "title": "Parsed statements keep their meaning", "statement": "The statement that the parser creates has, for every meaning of the constructs of SQL, the meaning of the parsed text: WITH queries, DISTINCT, targets and aliases, FROM entries with join types and conditions, WHERE, GROUP BY, HAVING, ORDER BY with directions and nulls, LIMIT and OFFSET, set operations, nested subqueries and VALUES.", "quantifier": "all statements, nested in any way, all interpretations of the constructs", "why_tests_cant": "statements are unbounded and the interpretation is arbitrary", "anchors": ["postbound/parser.py:_pglast_parse_query", "postbound/parser.py:_pglast_parse_setop", "postbound/parser.py:_pglast_parse_from_entry", "postbound/parser.py:_pglast_parse_ctes", "postbound/parser.py:_pglast_parse_limit", "postbound/parser.py:_pglast_parse_orderby", "postbound/parser.py:_pglast_parse_select", "postbound/parser.py:_pglast_parse_values"]}
{"id": "C162", "title": "Class of a parsed statement", "statement": "A parsed statement is an implicit query exactly if all its FROM entries are tables, an explicit query exactly if the only FROM entry is a join, and a mixed query otherwise.", "quantifier": "all statements", "why_tests_cant": "FROM clauses are unbounded", "anchors": ["postbound/parser.py:_pglast_parse_from", "postbound/qal/_qal.py:ExplicitFromClause", "postbound/qal/_qal.py:build_query"]}
{"id": "C163", "title": "Which statements are accepted", "statement": "The parser accepts a SELECT statement exactly if its expressions can be translated and its clauses are supported (joins with a condition or inner joins, constant LIMIT and OFFSET that are written with the usual words, no grouping sets, no ORDER BY USING, not several joins as the only FROM entries); otherwise it raises an error.", "quantifier": "all statements, nested in any way", "why_tests_cant": "statements are unbounded", "anchors": ["postbound/parser.py:_pglast_parse_query", "postbound/parser.py:_pglast_parse_from", "postbound/parser.py:_pglast_parse_limit", "postbound/parser.py:_pglast_parse_groupby"]}
{"id": "C164", "title": "The hint block consists of the leading comments", "statement": "The hint block of a parsed query consists of exactly the comments that precede the query, in their order and as they were written; a query without comments and SET commands has no hint block.", "quantifier": "all query texts, all numbers and kinds of leading comments", "why_tests_cant": "texts are unbounded; the scanner works on raw text, so every position of a comment mark matters", "anchors": ["postbound/parser.py:_parse_hint_block", "postbound/parser.py:parse_query"]}
{"id": "C165", "title": "SET commands are kept as preparatory statements", "statement": "The SET commands that precede a parsed query become its preparatory statements, in their order, and assign the same values to the same variables.", "quantifier": "all sequences of SET commands, all variables and values", "why_tests_cant": "sequences and values are unbounded", "anchors": ["postbound/parser.py:_pglast_parse_set_commands", "postbound/parser.py:parse_query"]}
{"id": "C166", "title": "EXPLAIN options are kept", "statement": "The parsed EXPLAIN clause executes the query exactly if the text says so, and requests the output format of the text.", "quantifier": "all lists of options", "why_tests_cant": "lists are unbounded; repeated options override each other", "anchors": ["postbound/parser.py:_pglast_parse_explain", "postbound/qal/_qal.py:Explain"]}
{"id": "C167", "title": "Options of parse_query", "statement": "parse_query accepts exactly single SELECT statements, possibly explained and preceded by SET commands; it uses the schema that its options select for live binding, and set queries only if they are requested.", "quantifier": "all texts, all statements, all combinations of options and registered databases", "why_tests_cant": "combinations of texts, statement lists and options are unbounded", "anchors": ["postbound/parser.py:parse_query", "postbound/parser.py:_apply_extra_clauses"]}
{"id": "C168", "title": "Primary keys are recognised", "statement": "The schema interface reports a column as primary key exactly if it belongs to the primary key of its table; the primary key column of a table is its only one.", "quantifier": "all catalogs (any schemas, tables, constraints and indexes), all references", "why_tests_cant": "catalogs are unbounded; wrong answers appear only for particular combinations of names, schemas and constraints", "anchors": ["postbound/db/_db.py:DatabaseSchema.is_primary_key", "postbound/db/_db.py:DatabaseSchema.primary_key_column", "postbound/postgres.py:PostgresSchemaInterface.is_primary_key"]}
{"id": "C169", "title": "Secondary indexes are recognised", "statement": "The schema interface reports a secondary index on a column exactly if there is an index on it that does not belong to the primary key, and lists exactly the indexes of the column.", "quantifier": "all catalogs (any schemas, tables, constraints and indexes), all references", "why_tests_cant": "catalogs are unbounded; wrong answers appear only for particular combinations of names, schemas and constraints", "anchors": ["postbound/db/_db.py:DatabaseSchema.has_secondary_index", "postbound/postgres.py:PostgresSchemaInterface.has_secondary_index", "postbound/postgres.py:PostgresSchemaInterface.indexes_on"]}
{"id": "C170", "title": "Foreign keys", "statement": "foreign_keys_on yields exactly the columns that a column references.", "quantifier": "all catalogs (any schemas, tables, constraints and indexes), all references", "why_tests_cant": "catalogs are unbounded; wrong answers appear only for particular combinations of names, schemas and constraints", "anchors": ["postbound/db/_db.py:DatabaseSchema.foreign_keys_on", "postbound/postgres.py:PostgresSchemaInterface.foreign_keys_on", "postbound/duckdb.py:DuckDBSchema.foreign_keys_on"]}
{"id": "C171", "title": "Tables of a schema", "statement": "tables() yields exactly the tables of the requested schema, no matter which calls came before.", "quantifier": "all catalogs, all sequences of calls with any arguments", "why_tests_cant": "sequences of calls are unbounded; the answer is cached", "anchors": ["postbound/postgres.py:PostgresSchemaInterface.tables"]}
{"id": "C172", "title": "Columns, data types, nullability and views", "statement": "columns, datatype, is_nullable and is_view describe the table that the reference denotes.", "quantifier": "all catalogs (any schemas, tables, constraints and indexes), all references", "why_tests_cant": "catalogs are unbounded; wrong answers appear only for particular combinations of names, schemas and constraints", "anchors": ["postbound/db/_db.py:DatabaseSchema.columns", "postbound/db/_db.py:DatabaseSchema.datatype", "postbound/db/_db.py:DatabaseSchema.is_nullable", "postbound/db/_db.py:DatabaseSchema.is_view"]}
{"id": "C173", "title": "Lookup of columns", "statement": "lookup_column yields the first candidate table that has the column, and nothing if there is none.", "quantifier": "all catalogs, all columns, all lists of candidates of any length", "why_tests_cant": "lists of candidates are unbounded; beyond five candidates another path is taken", "anchors": ["postbound/db/_db.py:DatabaseSchema.lookup_column", "postbound/postgres.py:PostgresSchemaInterface.lookup_column"]}
{"id": "C174", "title": "The schema graph", "statement": "The schema graph has exactly the base tables as nodes; an edge exists exactly if there is a foreign key, and carries exactly the foreign keys between the two tables.", "quantifier": "all catalogs", "why_tests_cant": "catalogs are unbounded; edges collect any number of foreign keys", "anchors": ["postbound/db/_db.py:DatabaseSchema.as_graph"]}
{"id": "C175", "title": "Join equivalence classes", "statement": "Two columns are in the same join equivalence class exactly if a chain of foreign keys, in any direction, connects them.", "quantifier": "all catalogs, all columns", "why_tests_cant": "chains of foreign keys are unbounded", "anchors": ["postbound/db/_db.py:DatabaseSchema.join_equivalence_keys", "postbound/db/_db.py:DatabaseSchema.join_equivalence_classes"]}
{"id": "C176", "title": "The query cache is transparent", "statement": "The results of execute_query are the same with and without the query cache.", "quantifier": "all servers, all sequences of calls with any queries, cache flags and raw flags, all contents of the cache and its file", "why_tests_cant": "histories of calls are unbounded; the cache is shared between calls and between sessions", "anchors": ["postbound/db/_db.py:Database._inflate_query_cache", "postbound/db/_db.py:Database.reset_cache", "postbound/postgres.py:PostgresInterface.execute_query", "postbound/duckdb.py:DuckDBInterface.execute_query", "postbound/mysql.py:MysqlInterface.execute_query"]}
{"id": "C177", "title": "Simplification of result sets", "statement": "simplify_result_set unwraps single values, single rows and single columns and loses no data.", "quantifier": "all result sets of any size", "why_tests_cant": "result sets are unbounded", "anchors": ["postbound/db/_db.py:simplify_result_set", "postbound/mysql.py:MysqlInterface.execute_query"]}
{"id": "C178", "title": "Settings of a query", "statement": "The settings in the preparatory statements of a query are in force while it is executed, and only then.", "quantifier": "all servers, all settings, all queries, all session states", "why_tests_cant": "settings and session states are unbounded", "anchors": ["postbound/postgres.py:PostgresInterface.execute_query", "postbound/postgres.py:_apply_preparatory_statements", "postbound/duckdb.py:DuckDBInterface.execute_query"]}
{"id": "C179", "title": "The cache file", "statement": "Writing the query cache to its file and reading it again yields the same cache.", "quantifier": "all caches with any values", "why_tests_cant": "caches and nested values are unbounded", "anchors": ["postbound/db/_db.py:_DBCacheJsonEncoder", "postbound/db/_db.py:_DBCacheJsonDecoder", "postbound/db/_db.py:Database._store_query_cache", "postbound/db/_db.py:Database._inflate_query_cache"]}
{"id": "C180", "title": "Failed calls", "statement": "If execute_query raises an error, the data has not been changed.", "quantifier": "all servers, all queries, all states", "why_tests_cant": "states and queries are unbounded", "anchors": ["postbound/postgres.py:PostgresInterface.execute_query"]}
{"id": "C181", "title": "Timeouts", "statement": "With a timeout, execute_query yields the same result as without one if the query finishes in time, and raises TimeoutError otherwise; it always returns, and the backend of a query that timed out is cancelled.", "quantifier": "all servers, queries and sessions, all failures of the worker at any stage, all orders of events and timeouts", "why_tests_cant": "the worker is a separate process: failures, kills and timeouts can happen at any point of the protocol", "anchors": ["postbound/postgres.py:TimeoutQueryExecutor.execute_query", "postbound/postgres.py:_timeout_query_worker", "postbound/postgres.py:_timeout_worker_ctl"]}
{"id": "C182", "title": "Parallel execution", "statement": "All queued queries are executed exactly once, and each query is assigned its own result, in whatever order they are completed.", "quantifier": "all numbers of threads, all queues, all schedules and orders of completion", "why_tests_cant": "the number of schedules is unbounded", "anchors": ["postbound/postgres.py:ParallelQueryExecutor"]}
{"id": "C183", "title": "Tables and joins of generated queries", "statement": "Each query of the random query generator has as many tables as the user allows, none of them excluded, joins any two related tables by one of their foreign keys, and contains no cross products.", "quantifier": "all schemas, all options, all random choices, all iterations", "why_tests_cant": "the choices are random and schemas are unbounded; tests see a few draws", "anchors": ["postbound/experiments/querygen.py:generate_query", "postbound/experiments/querygen.py:_generate_join_predicates", "postbound/util/nx.py:nx_random_walk"]}
{"id": "C184", "title": "Filters of generated queries", "statement": "The filters of a generated query are on allowed columns of its tables, use values of the column, and are as many as the user wants.", "quantifier": "all schemas, data, options and random choices", "why_tests_cant": "the choices are random and schemas are unbounded", "anchors": ["postbound/experiments/querygen.py:generate_query", "postbound/experiments/querygen.py:_generate_filter"]}
{"id": "C185", "title": "The query generator answers", "statement": "For each combination of options that can be satisfied, the generator yields a query.", "quantifier": "all schemas, options and random choices, any number of iterations", "why_tests_cant": "non-termination cannot be observed by tests", "anchors": ["postbound/experiments/querygen.py:generate_query"]}
{"id": "C186", "title": "Emulated statistics describe the data", "statement": "The statistics that are computed by queries (rows, distinct values, minimum and maximum, most common values) are those of the data that the database has at the time of the call.", "quantifier": "all tables and columns, all data, all configurations and histories of calls, all k", "why_tests_cant": "data and histories are unbounded; the caches only matter when data changes between calls", "anchors": ["postbound/db/_db.py:DatabaseStatistics", "postbound/db/_db.py:DatabaseStatistics._calculate_total_rows", "postbound/db/_db.py:DatabaseStatistics._calculate_distinct_values", "postbound/db/_db.py:DatabaseStatistics._calculate_min_max_values", "postbound/db/_db.py:DatabaseStatistics._calculate_most_common_values"]}
{"id": "C187", "title": "Statistics of the Postgres catalog", "statement": "After an update of the statistics, the Postgres interface reports the number of rows and the (estimated, or on request perfect) number of distinct values.", "quantifier": "all data, all estimates of Postgres, all sequences of updates", "why_tests_cant": "estimates, ratios and data are unbounded", "anchors": ["postbound/postgres.py:PostgresStatisticsInterface", "postbound/postgres.py:PostgresStatisticsInterface.update_statistics"]}
{"id": "C188", "title": "Emulation or catalog", "statement": "Emulated statistics are always computed from the data, native statistics never (unless as an allowed fallback), and each supported system can answer.", "quantifier": "all systems, all configurations, all statistics", "why_tests_cant": "combinations of configuration, system and available catalog data", "anchors": ["postbound/db/_db.py:DatabaseStatistics", "postbound/postgres.py:PostgresStatisticsInterface", "postbound/duckdb.py:DuckDBStatistics", "postbound/mysql.py:MysqlStatisticsInterface"]}
{"id": "C189", "title": "Texts of templated queries", "statement": "A query that is generated from a template is the text of the template in which each placeholder is replaced by an SQL literal that denotes the value chosen for it.", "quantifier": "all templates, all keys and values, any number of placeholders", "why_tests_cant": "texts and values are unbounded", "anchors": ["postbound/experiments/ceb.py:QueryTemplate.substitute_placeholders", "postbound/experiments/ceb.py:QueryTemplate.generate_raw_query", "postbound/experiments/ceb.py:QueryTemplate._escape_col_value"]}
{"id": "C190", "title": "Values of templated predicates", "statement": "The values of a predicate are among its options or the rows of its query; IN predicates get as many values as the template allows.", "quantifier": "all predicates, all databases, all random choices, all histories of draws", "why_tests_cant": "the draws are random and the candidates unbounded", "anchors": ["postbound/experiments/ceb.py:PredicateGenerator.choose_predicate_values", "postbound/experiments/ceb.py:PredicateGenerator._draw_scalar_value", "postbound/experiments/ceb.py:PredicateGenerator._draw_multi_values", "postbound/experiments/ceb.py:PredicateGenerator._value_passes_constraints"]}
{"id": "C191", "title": "Dependent predicates", "statement": "In each generated query, the values of a predicate are a row of its query for the values that the query contains for the predicates it depends on.", "quantifier": "all templates with acyclic dependencies, all databases, all random choices", "why_tests_cant": "depends on the order of selections and on repeated draws", "anchors": ["postbound/experiments/ceb.py:QueryTemplate.generate_raw_query", "postbound/experiments/ceb.py:PredicateGenerator._collect_candidate_values_from_sql", "postbound/util/misc.py:DependencyGraph"]}
{"id": "C192", "title": "Templated workloads", "statement": "A generated workload contains the requested number of queries for each template, all of them different, or the generation fails.", "quantifier": "all sets of templates, all sequences of generated queries", "why_tests_cant": "sequences of random queries are unbounded", "anchors": ["postbound/experiments/ceb.py:generate_raw_workload"]}
{"id": "C193", "title": "Cardinality of star queries", "statement": "star_query_cardinality returns the number of rows of the result of the star query.", "quantifier": "all fact tables, all numbers of dimension tables and their contents, all join predicates and filters", "why_tests_cant": "sizes of tables and number of joins are unbounded", "anchors": ["postbound/opt/_analysis.py:star_query_cardinality", "postbound/db/_db.py:simplify_result_set"]}
{"id": "C194", "title": "Similarity of join trees", "statement": "The similarity scores of join trees are defined for all join trees, lie between 0 and 1, and do not depend on the order of the arguments.", "quantifier": "all pairs of join trees, all reinforcement factors", "why_tests_cant": "the shapes of join trees are unbounded", "anchors": ["postbound/opt/_analysis.py:jointree_similarity_topdown", "postbound/opt/_analysis.py:jointree_similarity_bottomup", "postbound/_hints.py:JoinTree.tables"]}
{"id": "C195", "title": "Depths of joins", "statement": "join_depth returns for each table the documented depth of its first join.", "quantifier": "all join trees", "why_tests_cant": "the shapes of join trees are unbounded", "anchors": ["postbound/opt/_analysis.py:join_depth", "postbound/opt/_analysis.py:_traverse_join_tree_depth"]}
{"id": "C196", "title": "Side-by-side texts", "statement": "text_diff contains all lines of both texts, with the lines of the same number beside each other.", "quantifier": "all texts and separators", "why_tests_cant": "texts are unbounded", "anchors": ["postbound/opt/_analysis.py:text_diff"]}
{"id": "C197", "title": "Restricting training data", "statement": "A dataset can be restricted to a spec exactly if it provides its features; the result provides exactly these features in the order of the spec, with the same values.", "quantifier": "all datasets and specs", "why_tests_cant": "datasets and specs are unbounded", "anchors": ["postbound/train/_train.py:TrainingSpec.satisfies", "postbound/train/_train.py:TrainingData.conform_to"]}
{"id": "C198", "title": "Training data as data frames", "statement": "The data frame of a dataset for a spec has one column for each feature, named by the feature, in the order of the spec, containing the values of the feature.", "quantifier": "all datasets with any mapping of features to columns, all specs", "why_tests_cant": "datasets and mappings are unbounded", "anchors": ["postbound/train/_train.py:TrainingData.as_df", "postbound/train/_train.py:TrainingData.from_df", "postbound/train/_train.py:TrainingData.__getitem__"]}
{"id": "C199", "title": "Merging training data", "statement": "Datasets that satisfy a spec can be merged; the result provides exactly the features of the spec, with the values of all datasets.", "quantifier": "all lists of datasets, all specs", "why_tests_cant": "number and size of datasets are unbounded", "anchors": ["postbound/train/_train.py:TrainingData.merge", "postbound/train/_train.py:TrainingData.merge_with"]}
{"id": "C200", "title": "Retrieving training data", "statement": "The repository retrieves the first, all or the merged datasets that satisfy a spec, in the order of their registration and with exactly the features of the spec, or nothing if there are none.", "quantifier": "all histories of registrations, all specs", "why_tests_cant": "histories are unbounded", "anchors": ["postbound/train/_train.py:TrainingDataRepository.retrieve_first", "postbound/train/_train.py:TrainingDataRepository.retrieve_all", "postbound/train/_train.py:TrainingDataRepository.retrieve_merged", "postbound/train/_train.py:TrainingDataRepository.register"]}
{"id": "C201", "title": "Formatted text of queries", "statement": "format_quick, which produces the text sent to the database systems, contains exactly the words, literals and punctuation of the query in the order of the SQL grammar; line breaks and indentation never change them. A semicolon is only added at the end, if requested.", "quantifier": "all queries: all clauses, all expressions, nested queries in WITH, FROM and expressions to any depth, set operations, both dialects, hints at the start or inlined", "why_tests_cant": "the queries, their nesting and the contents of their literals are unbounded", "anchors": ["postbound/qal/_formatter.py:format_quick", "postbound/qal/_formatter.py:_quick_format_cte", "postbound/qal/_formatter.py:_quick_format_select", "postbound/qal/_formatter.py:_quick_format_tablesource", "postbound/qal/_formatter.py:_quick_format_limit", "postbound/qal/_formatter.py:_quick_format_set_query", "postbound/qal/_formatter.py:_increase_indentation", "postbound/qal/_formatter.py:FormattingSubqueryExpression"]}
{"id": "C202", "title": "Plain text of queries", "statement": "The text of a query (str) contains exactly the words, literals and punctuation of the query in the order of the SQL grammar, so that different queries have different texts.", "quantifier": "all queries with all clauses and nested queries to any depth", "why_tests_cant": "the queries and their nesting are unbounded", "anchors": ["postbound/qal/_qal.py:SqlQuery.stringify", "postbound/qal/_qal.py:SetQuery.stringify", "postbound/qal/_qal.py:JoinTableSource.__str__", "postbound/qal/_qal.py:Limit.__str__", "postbound/qal/_qal.py:UnionClause.__str__"]}
{"id": "C203", "title": "Formatting changes the layout only", "statement": "The formatted text of a query has the same tokens as its plain text.", "quantifier": "all queries", "why_tests_cant": "the queries and their nesting are unbounded", "anchors": ["postbound/qal/_formatter.py:format_quick", "postbound/qal/_qal.py:SqlQuery.stringify"]}
{"id": "C204", "title": "Native costs", "statement": "NativeCostModel.estimate_cost yields the cost that the database system assigns to the plan for the part of the query that the plan computes. If the system cannot estimate the plan, the cost is infinite, or an error is raised if this was requested.", "quantifier": "all database systems (any answers to requests for costs and plans), queries, plans with any root operator, both settings of raise_on_error", "why_tests_cant": "the answers of the database system are arbitrary, and plans are unbounded", "anchors": ["postbound/opt/native.py:NativeCostModel.estimate_cost", "postbound/opt/native.py:NativeCostModel._cost_index_op", "postbound/opt/native.py:NativeCostModel._cost_sort_op", "postbound/opt/native.py:NativeCostModel._cost_materialize_op", "postbound/opt/native.py:NativeCostModel._cost_memoize_op"]}
{"id": "C205", "title": "Native stages", "statement": "The native stages yield the join order, the operators and the parameters of the plan that the database system chooses, under the decisions of the earlier stages.", "quantifier": "all database systems, queries, join orders and operator assignments", "why_tests_cant": "the plans of the database system are arbitrary", "anchors": ["postbound/opt/native.py:NativeJoinOrderOptimizer", "postbound/opt/native.py:NativePhysicalOperatorSelection", "postbound/opt/native.py:NativePlanParameterization", "postbound/opt/native.py:NativeOptimizer"]}
{"id": "C206", "title": "Stages as complete optimizers", "statement": "as_complete_algorithm turns a single stage into an optimizer whose plans only differ from those of the database system in the decisions of the stage: the native stages do not change their part of the plan, and the empty stages do not change the plan at all.", "quantifier": "all database systems that follow hints, all queries, all numbers of tables", "why_tests_cant": "the database systems and queries are arbitrary", "anchors": ["postbound/_stages.py:as_complete_algorithm", "postbound/_stages.py:_CompleteAlgorithmEmulator", "postbound/opt/noopt.py:EmptyJoinOrderOptimizer", "postbound/opt/noopt.py:EmptyPhysicalOperatorSelection", "postbound/opt/noopt.py:EmptyParameterization"]}
{"id": "C207", "title": "Postgres configurations", "statement": "A PostgresConfiguration contains exactly the values that were assigned last by load, add, update and remove, and its text sets each of them exactly once.", "quantifier": "all initial settings and all sequences of changes of any length, all names and values", "why_tests_cant": "histories are unbounded", "anchors": ["postbound/postgres.py:PostgresConfiguration", "postbound/postgres.py:PostgresSetting"]}
{"id": "C208", "title": "Saving and restoring configurations", "statement": "Applying a configuration that was obtained from current_configuration restores the settings that affect the optimizer and can be changed at runtime, and nothing else, no matter how the session was changed in the meantime. If an application fails, the session remains unchanged.", "quantifier": "all servers (any validation and normalization of values), all sessions before and after", "why_tests_cant": "the servers, the sessions and their values are arbitrary", "anchors": ["postbound/postgres.py:PostgresInterface.current_configuration", "postbound/postgres.py:PostgresInterface.apply_configuration", "postbound/postgres.py:_SignificantPostgresSettings", "postbound/postgres.py:_RuntimeChangeablePostgresSettings"]}
{"id": "C209", "title": "Ordered and random removals", "statement": "remove_ordered and remove_random remove exactly the requested number of rows, or the requested share of rows rounded to a nearest integer. Ordered removals remove the first rows of the requested order, where NULL is the largest value by default. Random removals remove any rows. Invalid requests are errors.", "quantifier": "all tables of any size with a primary key, all types of values and all orders, all requests, all random choices", "why_tests_cant": "tables are unbounded and random choices are arbitrary", "anchors": ["postbound/postgres.py:WorkloadShifter.remove_ordered", "postbound/postgres.py:WorkloadShifter.remove_random", "postbound/postgres.py:WorkloadShifter._determine_row_cnt"]}
{"id": "C210", "title": "Marked removals", "statement": "Rows that are marked by generate_marker_table are removed by remove_marked, and the same rows are removed from each copy of the database to which the markers are transferred by export_marker_table and import_marker_table.", "quantifier": "all tables of any size, all samples, all names, all existing marker tables", "why_tests_cant": "tables are unbounded and samples are arbitrary", "anchors": ["postbound/postgres.py:WorkloadShifter.generate_marker_table", "postbound/postgres.py:WorkloadShifter.export_marker_table", "postbound/postgres.py:WorkloadShifter.import_marker_table", "postbound/postgres.py:WorkloadShifter.remove_marked"]}
{"id": "C211", "title": "Connections and the database pool", "statement": "connect returns the registered database for a known name, with a working connection, and a new database with the requested target otherwise. A refresh creates a new database without replacing a registered one, private connections are not registered, and the current database is the only registered one.", "quantifier": "all histories of connect calls for all systems, broken connections and resets of the pool; all names", "why_tests_cant": "histories are unbounded and names can collide with generated suffixes", "anchors": ["postbound/postgres.py:connect", "postbound/duckdb.py:connect", "postbound/mysql.py:connect", "postbound/db/_db.py:DatabasePool"]}
{"id": "C212", "title": "Connection parameters", "statement": "The parameters of a config file or of the environment variables are those that the server receives. An explicit connect string is preferred to the passed config file, the default config file and the environment, in this order.", "quantifier": "all lists of parameters, all values, all environments", "why_tests_cant": "values are arbitrary texts, including quotes and backslashes", "anchors": ["postbound/postgres.py:connect", "postbound/postgres.py:_read_connection_from_file"]}
{"id": "C213", "title": "Statistics of the UES optimizer", "statement": "After the setup for a query, the statistics container holds the number of filtered rows of each table and the maximum frequency of each join column, and nothing from earlier queries. Asking for total numbers of rows does not affect other estimates.", "quantifier": "all database contents (including NULL and empty tables), all queries with filters and self joins, all states of the cache, all wrapped estimators", "why_tests_cant": "database contents and queries are unbounded", "anchors": ["postbound/opt/ues.py:StatsContainer.setup_for_query", "postbound/opt/ues.py:MaxFrequencyStats._inflate_attribute_frequencies", "postbound/opt/ues.py:PreciseCardinalityEstimator.estimate_for", "postbound/opt/ues.py:_CardinalityEstimatorWrapper.estimate_total_rows"]}
{"id": "C214", "title": "UES bounds from the database to the result", "statement": "If the precise estimator and emulated statistics are used, the cardinality of a join order of the UES optimizer is at least the number of rows that the query produces.", "quantifier": "all database contents with NULL, all filters, self joins, equi-joins of two tables and star queries", "why_tests_cant": "database contents are unbounded", "anchors": ["postbound/opt/ues.py:UESJoinOrderOptimizer.optimize_join_order", "postbound/opt/ues.py:MaxFrequencyStats", "postbound/opt/ues.py:PreciseCardinalityEstimator"]}
{"id": "C215", "title": "Moving tables into a subquery", "statement": "Moving some tables of a query into a subquery with the predicates among them yields a valid query with the same result. The transformation succeeds exactly if at least two tables are given, no table of the query is virtual, some column of the given tables is used and the used columns have distinct names.", "quantifier": "all queries, all sets of tables, all database contents and all meanings of operators and functions", "why_tests_cant": "queries and database contents are unbounded", "anchors": ["postbound/transform.py:move_into_subquery", "postbound/qal/_qal.py:ImplicitFromClause.create_for"]}
{"id": "C216", "title": "Writing values as JSON", "statement": "Writing a value with to_json and reading the text with json.loads yields the value. Different values have different texts. The text is a single line of printable ASCII characters. Writing fails exactly if the value contains an object without JSON representation or a dictionary key that is neither a string, a number, a boolean nor None.", "quantifier": "all values, nested to any depth, with strings of any characters and any numbers", "why_tests_cant": "values are unbounded trees over unbounded strings and numbers", "anchors": ["postbound/util/jsonize.py:JsonizeEncoder", "postbound/util/jsonize.py:to_json"]}
{"id": "C217", "title": "Reading query plans and operators as written", "statement": "Writing a query plan with to_json and reading the text with read_query_plan_json yields the same plan: the same tree with the same node types, operators, tables, filters, sort keys, lookup keys, subplans, estimates, measures and additional attributes. Reading the text of an operator or operator assignment with read_operator_json yields the operator or assignment.", "quantifier": "all query plans of any shape and depth, all operators and operator assignments", "why_tests_cant": "plans are unbounded trees with unbounded texts and numbers", "anchors": ["postbound/_qep.py:QueryPlan.__json__", "postbound/_qep.py:PlanParams.__json__", "postbound/_qep.py:PlanEstimates.__json__", "postbound/_qep.py:PlanMeasures.__json__", "postbound/opt/_helpers.py:read_query_plan_json", "postbound/opt/_helpers.py:read_operator_json"]}
{"id": "C218", "title": "Attributes of query plans", "statement": "After any sequence of creating, cloning and changing the parameters, estimates and measures of query plans, an attribute has the value that was assigned to it last, or that was given to the constructor, or its default. All ways of reading an attribute agree. Changes affect no other object, and a clone has the attributes of the original.", "quantifier": "all sequences of creations, attribute and item assignments and clones, all names and values", "why_tests_cant": "histories are unbounded", "anchors": ["postbound/_qep.py:PlanParams", "postbound/_qep.py:PlanEstimates", "postbound/_qep.py:PlanMeasures"]}
{"id": "C219", "title": "Construction and update of query plans", "statement": "Creating a plan succeeds exactly if there is a node type and nothing is given both as an object and separately; the plan then has exactly the node type, operator, children, subplan and attributes that were given. update_plan returns a plan with the new operators, cardinalities and workers.", "quantifier": "all combinations of arguments, all plans", "why_tests_cant": "there are 22 parameters with arbitrary values", "anchors": ["postbound/_qep.py:QueryPlan.__init__", "postbound/opt/_helpers.py:update_plan", "postbound/util/collections.py:enlist"]}
{"id": "C220", "title": "Preparing queries for benchmarks", "statement": "A prepared query has the requested projection and output (EXPLAIN, EXPLAIN ANALYZE) and otherwise all clauses of the query. Before it is returned, the database loads exactly the tables of the query if prewarming is requested, supported and useful, and then executes the preparatory statements in their order. Unknown settings are rejected.", "quantifier": "all queries, settings (including the deprecated ones), databases and lists of statements", "why_tests_cant": "queries, settings and statements are unbounded", "anchors": ["postbound/bench.py:QueryPreparation", "postbound/transform.py:as_star_query", "postbound/transform.py:as_explain"]}
{"id": "C221", "title": "Export and progressive output of benchmark results", "statement": "Exported results have the rows and columns of the benchmark, and all values that a CSV file cannot hold are encoded as JSON. The progressive output has a header and exactly the rows of the benchmark in their order, after the rows that were in the file before.", "quantifier": "all data frames, all sequences of rows, all file formats and writer arguments", "why_tests_cant": "sequences of rows are unbounded, and the export depends on the first row only", "anchors": ["postbound/bench.py:prepare_export", "postbound/bench.py:_ResultSample.write_progressive"]}
{"id": "C222", "title": "Sorting benchmark results", "statement": "Sorting results by some columns returns exactly the rows of the data frame in the natural lexicographic order of these columns.", "quantifier": "all data frames, all natural orders of values and all columns", "why_tests_cant": "rows and values are unbounded", "anchors": ["postbound/bench.py:sort_results"]}
{"id": "C223", "title": "Loading tables into the buffer", "statement": "Prewarming (cooling down) tables of a Postgres database loads (removes) exactly the pages of these tables and their primary and secondary indexes, as selected by the options, and ignores virtual tables.", "quantifier": "all database schemas, tables and options", "why_tests_cant": "schemas and sets of tables are unbounded", "anchors": ["postbound/postgres.py:PostgresInterface.prewarm_tables", "postbound/postgres.py:PostgresInterface.cooldown_tables", "postbound/postgres.py:PostgresInterface._fetch_index_relnames"]}
{"id": "C224", "title": "The optimizer interface of Postgres", "statement": "The cardinality and cost estimates of a query are those of the root of its query plan. parse_plan gives the plan of query_plan and analyze_plan for all shapes of the EXPLAIN result. A text is explained exactly once.", "quantifier": "all EXPLAIN outputs and all query texts", "why_tests_cant": "plans and texts are unbounded", "anchors": ["postbound/postgres.py:PostgresOptimizer"]}
{"id": "C225", "title": "Detection of the hinting backend", "statement": "Hints are generated for the extension that is active on the server, and are refused if there is none.", "quantifier": "all settings, hosts, processes and open files", "why_tests_cant": "the environment is not under the control of tests", "anchors": ["postbound/postgres.py:PostgresHintService._infer_pg_backend", "postbound/postgres.py:PostgresHintService._assert_active_backend"]}
{"id": "C226", "title": "Timeouts and runtimes on DuckDB", "statement": "A query that ends within its timeout gives its result, otherwise a timeout is reported. The remembered runtime is the duration of the last query, and infinite after a timeout.", "quantifier": "all histories of queries with and without timeouts and caching, all races between query, timeout and interrupt", "why_tests_cant": "histories and races are not under the control of tests", "anchors": ["postbound/duckdb.py:DuckDBInterface.execute_with_timeout", "postbound/duckdb.py:DuckDBInterface.execute_query", "postbound/duckdb.py:DuckDBInterface.time_query"]}
{"id": "C227", "title": "Configuring pipelines with use()", "statement": "After any sequence of use() calls, each role of a pipeline is filled by the component that was given last for this role, or by its default. Components without a suitable role are rejected and change nothing. stages() lists exactly the components in use.", "quantifier": "all pipelines and all sequences of components with any roles", "why_tests_cant": "sequences and combinations of roles are unbounded", "anchors": ["postbound/_pipelines.py:TextBookOptimizationPipeline.use", "postbound/_pipelines.py:MultiStageOptimizationPipeline.use", "postbound/_pipelines.py:IncrementalOptimizationPipeline.use", "postbound/_pipelines.py:IntegratedOptimizationPipeline.use", "postbound/_pipelines.py:OptimizationPipeline.stages"]}
{"id": "C228", "title": "Benchmarking a single optimization stage", "statement": "A single optimization stage can be benchmarked like a pipeline: it is used in its role, with default components in all other roles, for the current database.", "quantifier": "all stages, databases and support checks", "why_tests_cant": "user-defined stages are not known to tests", "anchors": ["postbound/bench.py:_wrap_optimization_stage", "postbound/_pipelines.py:TextBookOptimizationPipeline"]}
{"id": "C229", "title": "Training and feedback of the stages of a pipeline", "statement": "A benchmark only starts if all stages have completed the training they require. Feedback reaches exactly the stages that use it, once each, and the metrics of each are returned. An estimator is prepared for the query it is used for, and cleaned up afterwards.", "quantifier": "all pipelines, all kinds of training, all training data, all sequences of queries", "why_tests_cant": "stages are user-defined, sequences are unbounded", "anchors": ["postbound/_pipelines.py:OptimizationPipeline.learn_from_feedback", "postbound/_pipelines.py:OptimizationPipeline.sample_fit_completed", "postbound/_pipelines.py:MultiStageOptimizationPipeline.optimize_query", "postbound/bench.py:execute_workload"]}
{"id": "C230", "title": "Exploring operator costs in TONIC", "statement": "Exploring the costs of a query integrates the plans of all combinations of allowed and supported operators, each once. If there are more combinations than the limit, a sample of different combinations within the limit is used.", "quantifier": "all join orders, sets of operators, limits and random choices", "why_tests_cant": "combinations are exponential and sampling is random", "anchors": ["postbound/opt/tonic.py:TonicOperatorSelection.explore_costs", "postbound/opt/tonic.py:_generate_all_cost_estimates", "postbound/opt/tonic.py:_sample_cost_estimates"]}
{"id": "C231", "title": "Workloads in a single file", "statement": "A workload that is read from a file with one query per line has the query of each line with the number of the line as its label, and skips empty lines. A workload that is read from a CSV file has the query of each row with the label of the row.", "quantifier": "all files, all lines and rows", "why_tests_cant": "files are unbounded and may contain repetitions", "anchors": ["postbound/workloads.py:read_batch_workload", "postbound/workloads.py:read_csv_workload", "postbound/workloads.py:fetch_workload"]}
{"id": "C232", "title": "Copying relational algebra trees with a change", "statement": "Mutating a node of a relational algebra tree gives a copy of the whole tree in which that node has the given attribute values and everything else is as before; the original tree keeps its content and can be mutated again. With as_root the copy consists of the changed node and what is below it.", "quantifier": "all trees and directed acyclic graphs of operators, all nodes, all attribute values, all iteration orders of sets", "why_tests_cant": "trees are unbounded and the copy is made along parent links in an order that depends on the shape and on hash values", "anchors": ["postbound/relalg.py:RelNode.mutate", "postbound/relalg.py:RelNode.clone", "postbound/relalg.py:RelNode._rebuild_linkage", "postbound/relalg.py:RelNode._maintain_child_links", "postbound/relalg.py:_RelNodeUpdateManager.make_relalg_copy", "postbound/relalg.py:_RelNodeUpdateManager._perform_node_update", "postbound/relalg.py:_RelNodeUpdateManager._merge_new_child", "postbound/relalg.py:_collect_leaf_nodes"]}
{"id": "C233", "title": "Hash values of copied relational algebra trees", "statement": "A tree that results from mutating a node has the same hash value as an equal tree that is created directly, so that sets and dictionaries recognize it.", "quantifier": "all trees of operators, all nodes, all changes", "why_tests_cant": "equal trees can be obtained in arbitrarily many ways", "anchors": ["postbound/relalg.py:RelNode._rehash", "postbound/relalg.py:RelNode.__hash__", "postbound/relalg.py:_RelNodeUpdateManager.make_relalg_copy"]}
{"id": "C234", "title": "Visiting relational algebra trees", "statement": "A visitor that descends into the inputs of the nodes it receives reaches all operators of the tree.", "quantifier": "all trees of operators", "why_tests_cant": "trees are unbounded and operators nest arbitrarily", "anchors": ["postbound/relalg.py:RelNode.accept_visitor", "postbound/relalg.py:Union.accept_visitor", "postbound/relalg.py:Intersection.accept_visitor", "postbound/relalg.py:Difference.accept_visitor"]}
{"id": "C235", "title": "Arithmetic of atomic and bounded integers", "statement": "Operators between atomic integers, bounded integers and ints give the result that ints with the same values have; sums, products, differences, negations and powers of a bounded integer are the nearest numbers within its bounds.", "quantifier": "all operators, all pairs of operands of the three kinds, all values and bounds", "why_tests_cant": "values and bounds are unbounded, and Python chooses among direct, reflected and inherited methods by the types of both operands", "anchors": ["postbound/util/num.py:AtomicInt.__add__", "postbound/util/num.py:AtomicInt.__and__", "postbound/util/num.py:AtomicInt.__rand__", "postbound/util/num.py:AtomicInt.__pow__", "postbound/util/num.py:BoundedInt.__add__", "postbound/util/num.py:BoundedInt.__mul__", "postbound/util/num.py:BoundedInt.__neg__", "postbound/util/num.py:BoundedInt.__pow__"]}
{"id": "C236", "title": "Comparisons of atomic and bounded integers", "statement": "Atomic integers, bounded integers and ints are ordered and equal as their values are, and equal numbers have equal hash values.", "quantifier": "all comparison operators, all pairs of operands of the three kinds, all values", "why_tests_cant": "values are unbounded, and Python chooses among direct and mirrored methods by the types of both operands", "anchors": ["postbound/util/num.py:AtomicInt.__lt__", "postbound/util/num.py:AtomicInt.__le__", "postbound/util/num.py:AtomicInt.__eq__", "postbound/util/num.py:AtomicInt.__hash__", "postbound/util/num.py:BoundedInt.__lt__", "postbound/util/num.py:BoundedInt.__le__", "postbound/util/num.py:BoundedInt.__eq__", "postbound/util/num.py:BoundedInt.__hash__"]}
{"id": "C237", "title": "Cross products and components of join graphs", "statement": "A join graph contains cross products if and only if some tables of the query cannot be connected by its join predicates; its joins are the pairs of joined tables, each once; its components partition the tables into the connected parts, are free of cross products and have the joins of the query; graph[table] describes exactly the tables of the query.", "quantifier": "all queries, all predicates, all histories of joined tables", "why_tests_cant": "the number of tables, predicates and steps is unbounded, and connectedness is a property of paths of any length", "anchors": ["postbound/opt/_joingraph.py:JoinGraph.contains_cross_products", "postbound/opt/_joingraph.py:JoinGraph.join_components", "postbound/opt/_joingraph.py:JoinGraph.all_joins", "postbound/opt/_joingraph.py:JoinGraph.__getitem__", "postbound/opt/_joingraph.py:JoinGraph._index_info_for"]}
{"id": "C238", "title": "Text of query plans", "statement": "The text of a plan (`ast`, `explain`, `inspect`) has one line per operator, parents before children and indented by depth, so that the text determines the operators; `explain` shows each known attribute of a node and nothing else, `inspect` shows the requested fields in the requested order.", "quantifier": "all plans of any size, all subplans, all lists of requested fields", "why_tests_cant": "the text has to be unambiguous for every tree of operators, of unbounded depth and width", "anchors": ["postbound/_qep.py:QueryPlan.ast", "postbound/_qep.py:QueryPlan.explain", "postbound/_qep.py:QueryPlan.inspect", "postbound/_qep.py:_astify", "postbound/_qep.py:_explainify", "postbound/_qep.py:_default_explain", "postbound/_qep.py:_custom_explain"]}
{"id": "C239", "title": "Frequencies of intermediate results", "statement": "After an n:m join, the attribute frequencies of the UES statistics are upper bounds for the frequencies in the intermediate result: if they were upper bounds for the previous intermediate result and the joined table, no value appears more often in the new result than the updated frequency of its column.", "quantifier": "all database contents, all intermediate results, all join conditions with any number of predicates, all join trees", "why_tests_cant": "frequencies have to be bounds for all database contents, and the updates depend on all previous joins", "anchors": ["postbound/opt/ues.py:StatsContainer.trigger_frequency_update", "postbound/opt/ues.py:MaxFrequencyStats._update_partner_column_frequency", "postbound/opt/ues.py:MaxFrequencyStats._update_third_party_column_frequency"]}
{"id": "C240", "title": "Schema lookups on MySQL", "statement": "On MySQL, the schema interface describes the tables of the current database: a column is found in the first candidate table that has it; data types, nullability, primary keys, indexes and foreign keys are those of the table in the current database; columns without a table or with a virtual table are rejected.", "quantifier": "all contents of the catalog with any number of databases, all candidate tables and columns", "why_tests_cant": "what other databases of the server contain is not under the control of a test", "anchors": ["postbound/mysql.py:MysqlSchemaInterface"]}
{"id": "C241", "title": "MySQL dialect and connection files", "statement": "Queries that are formatted for MySQL keep their meaning: literals are read back as the values they stand for, casts keep their types, and EXPLAIN clauses follow the syntax of MySQL; connection files provide exactly the settings in them, and the default values of all others.", "quantifier": "all literals, all casts, all EXPLAIN clauses, both modes for double quotes, all connection files", "why_tests_cant": "literals range over all texts, and files over all combinations of settings", "anchors": ["postbound/mysql.py:MysqlHintService.format_query", "postbound/mysql.py:_MysqlStaticValueExpression", "postbound/mysql.py:_MysqlCastExpression", "postbound/mysql.py:_MysqlExplainClause", "postbound/mysql.py:_parse_mysql_connection"]}
{"id": "C242", "title": "Infinite and very late dates", "statement": "Dates, timestamps and intervals survive the way between Python and Postgres in both directions: infinite values are loaded as the largest and smallest values of Python, values after the range of Python as its largest one, the order of values is kept, and a value that was loaded is sent back as the value it was.", "quantifier": "all ranges of Python, all values of Postgres including infinite ones, with and without time zones", "why_tests_cant": "the values at and beyond the ends of the ranges matter, for each of the types", "anchors": ["postbound/postgres.py:_PsycopgDateDumper", "postbound/postgres.py:_PsycopgDateLoader", "postbound/postgres.py:_PsycopgTimestampDumper", "postbound/postgres.py:_PsycopgTimestampLoader", "postbound/postgres.py:_PsycopgTimestampTzDumper", "postbound/postgres.py:_PsycopgTimestampTzLoader", "postbound/postgres.py:_PsycopgIntervalLoader"]}
{"id": "C243", "title": "The outline of a query", "statement": "The textual outline of a query exists for each query, and shows the query and each of its parts exactly once, in order and indented by depth, so that queries with the same text have the same structure.", "quantifier": "all queries, set queries, clauses, predicates and expressions, of any depth", "why_tests_cant": "trees of any depth and all combinations of clauses matter", "anchors": ["postbound/qal/_qal.py:SqlQuery.ast", "postbound/qal/_qal.py:SetQuery.ast", "postbound/qal/_qal.py:_create_ast"]}
{"id": "C244", "title": "Replacing predicates in queries", "statement": "replace_predicate puts the new predicate in place of each outermost occurrence of the old one in the WHERE and HAVING clause, below AND, OR and NOT, and changes nothing else. If the predicate is not found, the query is returned unchanged, and if old and new predicate are equivalent, the conditions accept the same rows.", "quantifier": "all queries, predicates of any depth and rows", "why_tests_cant": "predicates of any depth and all combinations of clauses matter", "anchors": ["postbound/transform.py:replace_predicate", "postbound/transform.py:_perform_predicate_replacement"]}
{"id": "C245", "title": "Hinting a query keeps the query", "statement": "generate_hints of each system returns the query with the same class and clauses and, in addition, the new hints; EXPLAIN and LIMIT clauses keep their contents and select the same rows and formats in the text for the system. Earlier hints and preparatory statements of the query are kept.", "quantifier": "all queries, hints, EXPLAIN and LIMIT clauses", "why_tests_cant": "all combinations of clauses, hints and values matter", "anchors": ["postbound/postgres.py:PostgresHintService.generate_hints", "postbound/postgres.py:PostgresHintService.format_query", "postbound/postgres.py:PostgresExplainClause", "postbound/postgres.py:PostgresLimitClause", "postbound/duckdb.py:DuckDBHintService.generate_hints", "postbound/mysql.py:MysqlHintService.generate_hints"]}
{"id": "C246", "title": "Pictures of join trees", "statement": "The picture of a join tree has one box for each table and each join, labelled with the table or the join symbol and the cardinality, and a line from each join to each of its inputs.", "quantifier": "all join trees", "why_tests_cant": "all shapes of trees, and equal parts share identifiers", "anchors": ["postbound/vis/trees.py:plot_tree", "postbound/vis/optimizer.py:plot_join_tree", "postbound/vis/optimizer.py:_join_tree_labels"]}
{"id": "C247", "title": "Pictures of query plans", "statement": "The picture of a query plan has one box for each operator of the plan and its subplans that shows the operator, the table and the annotation; skipping intermediates removes those below the root and connects the operators next below.", "quantifier": "all plans, annotations and both settings of skip_intermediates", "why_tests_cant": "all shapes of plans, subplans and intermediate nodes", "anchors": ["postbound/vis/trees.py:plot_tree", "postbound/vis/optimizer.py:plot_query_plan", "postbound/vis/optimizer.py:plot_analyze_plan", "postbound/vis/optimizer.py:_query_plan_labels", "postbound/vis/optimizer.py:_query_plan_traversal"]}
{"id": "C248", "title": "Pictures of join graphs", "statement": "The picture of a join graph has one box for each table, with its annotations (one in each line) and its state (free or joined), and one line for each pair of joined tables. Arrows lead from foreign keys to primary keys.", "quantifier": "all queries, join graphs and annotations", "why_tests_cant": "all graphs and combinations of indexes", "anchors": ["postbound/vis/optimizer.py:plot_join_graph", "postbound/vis/optimizer.py:setup_annotations", "postbound/vis/optimizer.py:merged_annotation"]}
{"id": "C249", "title": "Pictures of QEP synopses", "statement": "The picture of a QEP synopsis has a box for each node, with its identifier and costs, including those of subqueries (dashed), and an arrow to it from the node above. Drawing does not change the synopsis.", "quantifier": "all synopses", "why_tests_cant": "all shapes of synopses and nested subqueries", "anchors": ["postbound/vis/tonic.py:plot_tonic_qeps", "postbound/vis/tonic.py:_render_subquery_path"]}
{"id": "C250", "title": "Grids of plots", "statement": "Plots fill the grid row by row in the order of the labels, each in its own cell; the grid has as few rows as possible and exactly the unused cells are switched off.", "quantifier": "all numbers of labels and columns", "why_tests_cant": "all numbers of labels and columns, including incomplete rows", "anchors": ["postbound/vis/plots.py:make_grid_plot"]}
{"id": "C251", "title": "Running external commands", "statement": "A command is executed with all its arguments in the requested directory and the working directory is restored afterwards. The result is that of the process: true exactly if it succeeded.", "quantifier": "all commands, arguments, directories and behaviours of processes", "why_tests_cant": "all behaviours of the operating system, including programs that cannot be executed", "anchors": ["postbound/util/proc.py:run_cmd", "postbound/util/proc.py:ProcResult"]}
{"id": "C252", "title": "Open files of a process", "statement": "All files that a process has opened are listed.", "quantifier": "all lists of open files", "why_tests_cant": "all names of files", "anchors": ["postbound/util/system.py:open_files"]}
{"id": "C253", "title": "Layouts and pictures of graphs", "statement": "The layout of elements is based on one distance for each pair, in both directions. The picture of a graph has one box for each node and one line for each edge, and nodes have the same colour exactly if they have the same label.", "quantifier": "all elements, scores, graphs and labels", "why_tests_cant": "all graphs, labels and scores, also ones that are not symmetric", "anchors": ["postbound/vis/fdl.py:kamada_kawai_layout", "postbound/vis/graphs.py:plot_graph"]}
{"id": "C254", "title": "Hashable forms of containers", "statement": "Standard containers are converted to equivalent hashable ones, at all levels; equal containers have equal hashes.", "quantifier": "all nested containers", "why_tests_cant": "all depths of nesting", "anchors": ["postbound/util/collections.py:make_hashable", "postbound/util/dicts.py:HashableDict", "postbound/util/dicts.py:hash_dict"]}
{"id": "C255", "title": "Unwrapping single elements", "statement": "Containers with a single element are replaced by this element and everything else is kept, as the inverse of enlist.", "quantifier": "all values", "why_tests_cant": "all values and containers", "anchors": ["postbound/util/collections.py:simplify", "postbound/util/collections.py:enlist"]}
{"id": "C256", "title": "Controlling local Postgres servers", "statement": "start and stop change exactly the server in the requested data directory (PGDATA by default), calls without a directory are errors, and is_running tells whether this server is running.", "quantifier": "all directories, states of servers and environments", "why_tests_cant": "all states of servers and environments", "anchors": ["postbound/postgres.py:start", "postbound/postgres.py:stop", "postbound/postgres.py:is_running"]}
{"id": "C257", "title": "Switching operators of a Postgres session", "statement": "After any sequence of calls of configure_operator each operator is on or off as requested by its last call, and no other setting changes.", "quantifier": "all sequences of calls and all settings before", "why_tests_cant": "sequences of calls are unbounded", "anchors": ["postbound/postgres.py:PostgresOptimizer.configure_operator", "postbound/postgres.py:PostgresOptimizerSettings"]}
{"id": "C258", "title": "Hints for the execution of queries", "statement": "Queries are executed with exactly the hints that are passed to execute_query.", "quantifier": "all queries and hints", "why_tests_cant": "all combinations of hints and kinds of queries", "anchors": ["postbound/postgres.py:PostgresInterface.execute_query", "postbound/postgres.py:PostgresInterface._apply_query_hints"]}
{"id": "C259", "title": "Selecting presets", "statement": "Presets are found under their keys in any case, and nothing else is found.", "quantifier": "all keys", "why_tests_cant": "all keys and cases of their letters", "anchors": ["postbound/opt/presets.py:fetch"]}
{"id": "C260", "title": "Errors of failed checks", "statement": "A failed check raises an error that belongs to its context and names the query or database and all reasons; checks for hints report exactly the hints that are not supported.", "quantifier": "all results of checks, contexts and hints", "why_tests_cant": "all reasons and contexts", "anchors": ["postbound/validation.py:PreCheckResult.ensure_all_passed", "postbound/validation.py:UnsupportedQueryError", "postbound/validation.py:UnsupportedSystemError", "postbound/validation.py:SupportedHintCheck", "postbound/validation.py:CustomCheck"]}
{"id": "C261", "title": "Files of data frames", "statement": "A data frame that is written to a file is read again as it was; the suffix of the file alone decides the format, for reading and writing alike; writing changes neither the data frame of the caller nor other files; unknown suffixes are errors.", "quantifier": "all data frames, suffixes and files", "why_tests_cant": "all columns, values and suffixes", "anchors": ["postbound/util/_df.py:read_df", "postbound/util/_df.py:write_df", "postbound/util/jsonize.py:to_json"]}
{"id": "C262", "title": "Entries of dictionaries", "statement": "The only key or value of a dictionary is found exactly if there is one entry; updating and reducing keep keys and order; exploding lists each key with each of its values in order, and collecting the entries again restores the lists; arrays contain the values in the order of the keys.", "quantifier": "all dictionaries and functions", "why_tests_cant": "all keys, values and orders", "anchors": ["postbound/util/dicts.py:key", "postbound/util/dicts.py:value", "postbound/util/dicts.py:update", "postbound/util/dicts.py:explode", "postbound/util/dicts.py:reduce_multi", "postbound/util/dicts.py:dict_to_numpy"]}
{"id": "C263", "title": "Nested table sequences", "statement": "Nested sequences of tables that are stored as JSON are read again as they were; other JSON values are errors; a join tree is built from exactly the sequences of pairs, with the outer part first.", "quantifier": "all nested sequences and JSON values", "why_tests_cant": "all nestings of any depth and length", "anchors": ["postbound/opt/_helpers.py:parse_nested_table_sequence", "postbound/opt/_helpers.py:jointree_from_sequence", "postbound/_core.py:TableReference.__json__"]}
{"id": "C264", "title": "Log messages", "statement": "Enabled loggers write the prefix and the arguments as one line, disabled loggers write nothing; standard messages name the innermost public module; copies of the output receive all messages in order.", "quantifier": "all arguments, prefixes, call stacks, files and messages", "why_tests_cant": "all call stacks and sequences of messages", "anchors": ["postbound/util/logging.py:make_logger", "postbound/util/logging.py:standard_logger", "postbound/util/logging.py:print_stderr", "postbound/util/logging.py:print_if", "postbound/util/logging.py:tee_stdout"]}
{"id": "C265", "title": "Downloads of workloads", "statement": "A workload that is not there is downloaded completely, an existing one is not touched; after an interruption at any point the next call downloads the workload again; loaded workloads have queries.", "quantifier": "all archives, names, directories and points of interruption", "why_tests_cant": "crash points between any two steps of the download", "anchors": ["postbound/workloads.py:_fetch_workload", "postbound/workloads.py:_assert_workload_loaded", "postbound/workloads.py:job", "postbound/workloads.py:ssb", "postbound/workloads.py:stack", "postbound/workloads.py:stats"]}
{"id": "C266", "title": "Life of connections", "statement": "Over any history of statements, settings, queries with timeouts, resets, closes and reconnects, with any errors of the driver and sessions dropped by the server: a reset gives a fresh working session without earlier settings; no session of the interface is left open besides the one in use and its watchdog; closing ends both; connections handed to clients are never touched.", "quantifier": "all histories of calls, faults of the driver and sessions dropped by the server", "why_tests_cant": "all interleavings of calls, faults and drops", "anchors": ["postbound/postgres.py:PostgresInterface.reset_connection", "postbound/postgres.py:PostgresInterface.close", "postbound/postgres.py:PostgresInterface._init_connection", "postbound/postgres.py:PostgresInterface.obtain_new_local_connection", "postbound/postgres.py:TimeoutQueryExecutor._init_watchdog", "postbound/postgres.py:TimeoutQueryExecutor.close", "postbound/postgres.py:_reconnect", "postbound/duckdb.py:DuckDBInterface.reset_connection", "postbound/mysql.py:MysqlInterface.reset_connection"]}
{"id": "C267", "title": "Stored workloads", "statement": "Storing a workload in a directory and reading the directory gives the same labels with the same queries; other files are not touched; an interruption leaves complete files for the queries before it and unchanged files for those after it.", "quantifier": "all workloads, directories, parsers and points of interruption", "why_tests_cant": "all texts with line breaks, all names of files and crash points", "anchors": ["postbound/experiments/ceb.py:persist_workload", "postbound/workloads.py:Workload.read", "postbound/workloads.py:read_workload"]}
{"id": "C268", "title": "Plans and estimates of DuckDB", "statement": "Queries are explained once; the plan that is read is the one of the answer, in every shape in which answers are handed around; analyzing a query with a timeout gives the plan or nothing; the estimate is that of the plan's root.", "quantifier": "all queries, answers, ends of the execution and states of the interface", "why_tests_cant": "all shapes of answers and all ends of the execution", "anchors": ["postbound/duckdb.py:DuckDBOptimizer.query_plan", "postbound/duckdb.py:DuckDBOptimizer.analyze_plan", "postbound/duckdb.py:DuckDBOptimizer.parse_plan", "postbound/duckdb.py:DuckDBOptimizer.cardinality_estimate"]}
{"id": "C269", "title": "Texts of QEP synopses", "statement": "The inspection text names every node of a synopsis once, indented by its level, and tells different synopses apart.", "quantifier": "all synopses of any depth and width", "why_tests_cant": "trees of any shape, equality of texts over all pairs of trees", "anchors": ["postbound/opt/tonic.py:QEPsNode.inspect", "postbound/opt/tonic.py:QEPsNode._child_inspect", "postbound/opt/tonic.py:QEPsNode._cost_str", "postbound/opt/tonic.py:QEPSynopsis.inspect"]}
{"id": "C270", "title": "Reports of plan comparisons", "statement": "Every difference reported for two plans is true of a node of each plan, and the report of a comparison has one message per difference, which tells its kind, the tables of the node and both states.", "quantifier": "all pairs of plans of any shape, all kinds of differences", "why_tests_cant": "pairs of trees of any shape, texts over all states", "anchors": ["postbound/opt/_analysis.py:compare_query_plans", "postbound/opt/_analysis.py:PlanChangeEntry.inspect", "postbound/opt/_analysis.py:PlanChangeset.inspect"]}
{"id": "C271", "title": "Parts of query plans", "statement": "Exploding a plan gives its join tree, operators and parameters, and the cardinalities of the tree and of the parameters are both those of the requested source.", "quantifier": "all well-formed plans of any depth, both sources of cardinalities", "why_tests_cant": "trees of any shape; the values of all nodes", "anchors": ["postbound/opt/_helpers.py:explode_query_plan", "postbound/_hints.py:jointree_from_plan", "postbound/_hints.py:parameters_from_plan", "postbound/_hints.py:operators_from_plan"]}
{"id": "C272", "title": "Bounds, frequencies and branching decisions of UES", "statement": "The bound of a join is the rounded-up least of the largest results its predicates allow, and a subquery is made exactly if two tables are joined and a foreign key table shrinks below its base estimate. Joining by a predicate sets the frequencies of its columns to their product and multiplies those of third-party columns by it; all others stay.", "quantifier": "all states of the optimizer with statistics that are not negative, all joins with any number of predicates", "why_tests_cant": "arbitrary statistics and predicates; exact minimum over all predicates", "anchors": ["postbound/opt/ues.py:UESBoundEstimator.estimate_for", "postbound/opt/ues.py:UESSubqueryPolicy.generate_subquery_for", "postbound/opt/ues.py:StatisticsContainer.trigger_frequency_update"]}
