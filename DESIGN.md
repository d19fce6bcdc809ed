# Formal model of PostBOUND in Lean 4

Every theorem below is about a *model*: small total Lean functions that follow the Python
functions of `/repo` one by one. Each definition cites the file and the lines it models.
The Python code is never executed here.

## Layout

* `lean/Verif/Model/*.lean` – the model, one module per area of the code base.
* `lean/Verif/Props/*.lean` – specification (small, independent of the model's helpers),
  property theorems, and `example`s showing that the hypotheses can be met. Where the code
  violates the property, the file contains a `…_violated` theorem (the negation, with a concrete witness) and a
  `…_partial` theorem (what does hold).
* `properties.jsonl`, `MANIFEST.json`, `seeded/LOG.jsonl` – property list, status, mutation log.

## Modelling conventions

* Python `dict` → association list with insertion order (`Dict.set` updates in place or appends), Python `set`/`frozenset` →
  duplicate-free list, compared by membership. Iteration order of a Python set is arbitrary, so
  theorems about code that iterates over a set quantify over the order (over the list).
* Exceptions → `Except`/`Option` values. A raising call is a value of the result type; properties saying "never
  fails" are statements about that value.
* Mutation → state-passing functions; a history is a list of operations folded over the state.
* Randomness / hash order / thread schedule → an explicit argument over which the theorem quantifies.
* Hash values are modelled by the tuple that is hashed (equal tuples ⇒ equal hashes); a "hashes
  differ" claim is only made about the hashed tuples.
* Floating point → exact rationals plus `inf`/`nan`. Rounding errors are **not** modelled.
* Databases, file systems, SQL parsing → parameters (arbitrary functions); no property relies on their behaviour unless stated as a hypothesis.

## Plan per property

| id | model | how it is proved |
|----|-------|------------------|
| C01 | `Model/Cardinality`: constructor, comparisons, `==`, hash key | case analysis; violations by witness, partial order laws on the sound part |
| C02 | same: arithmetic through floats | case analysis on nan/inf/finite |
| C03 | `Model/Refs`: table/column references, `normalize` as parameter | equivalence + strict weak order from the normalised key |
| C04 | same | record equations; `with_alias`/`update` drop the schema ⇒ violated + partial |
| C05,C06 | `Model/Collections`: powerset, sliding window, pairs | induction on lists (`List.Sublist`) |
| C07,C08 | same: `Queue`, `SizedQueue` state machines | refinement to an abstract FIFO; invariant over histories |
| C09,C10 | `Model/Dicts` | membership/lookup characterisation by induction |
| C11 | `Model/Version` | lexicographic order, induction |
| C12 | `Model/DepGraph` | counterexample + partial |
| C13,C14 | `Model/Num` | invariant over histories; interleaving semantics of lock-step programs |
| C15 | `Model/Walk` | invariant of the frontier loop |
| C16–C19 | `Model/Hints` | refinement to finite maps |
| C20–C22,C60 | `Model/JoinTree` | structural induction |
| C23–C26,C61,C63 | `Model/QueryPlan` | structural induction over (nested) plan trees |
| C27 | `Model/Enumerate` | soundness by induction on steps, completeness by induction on trees |
| C28 | `Model/DynProg` | table invariant by induction over levels |
| C29 | `Model/AddPath` | invariant over insertion histories |
| C30 | `Model/JoinGraph` | invariant over histories |
| C31–C36,C44,C45 | `Model/Predicates` | evaluation semantics of predicates; structural induction; reachability |
| C37–C42 | `Model/Transform` | evaluation semantics; structural induction |
| C43 | `Model/Validation` | induction over nested checks |
| C46,C47,C64 | `Model/Pipelines` | invariants over API histories |
| C48–C51 | `Model/Workload` | lookup characterisation; induction over file list |
| C52,C53 | `Model/Bench` | invariants over the benchmark loop |
| C54,C106,C107 | `Model/Intermediates` | powerset + connectivity characterisation; lookups; cache histories |
| C55,C104 | `Model/Ues` | counting argument over arbitrary multisets of rows; invariant of the optimizer loops |
| C56,C57,C109 | `Model/Tonic` | induction over update histories, plans and join orders; JSON round trip (refuted) |
| C110 | `Model/Print` | token grammar with precedence levels, shown unambiguous by an operator precedence parser; induction over expressions |
| C111 | `Model/Query` | queries with subqueries of any type, closed by recursion over the nesting depth; soundness and completeness of `tables`/`columns` by induction over sources, set operations and depth |
| C112 | `Model/Query` | traversal of the expressions compared with the occurrence relation |
| C113 | `Model/Query` | scoping specified as the free tables of a query; invariant on bound, reported and free tables by induction over the nesting depth |
| C114 | `Model/Query` | base predicates of the collected conjunction |
| C115 | `Model/Query` | numbering of anonymous columns by induction over the projections |
| C116 | `Model/EqHash` | queries of nesting depth n by induction on n; equality and hash keys of all clauses and expressions structurally |
| C117 | `Model/EqHash` | invariant of the loop over the clauses: which local variable holds which clause |
| C118 | `Model/DbHints` | induction on the join tree and the plan; the text of a nesting is uniquely readable |
| C119 | `Model/DbHints` | exact membership in the generated lines, invariant of the loop over the operators |
| C120 | `Model/DbHints` | counting invariant: `used_parallel` is set exactly if there is one parallel line |
| C121 | `Model/DbHints` | exact membership in the generated lines |
| C122 | `Model/DbHints` | exact membership in the generated lines and statements; exact conditions for exceptions |
| C123 | `Model/DbHints` | the queue loop yields a permutation of the nodes; induction on the level |
| C124 | `Model/SimpleView` | case analysis against an inductive description of the simple forms; induction on the list |
| C125 | `Model/SimpleView` | truth values for an arbitrary valuation and comparison; witnesses for swapped operands and casts |
| C126 | `Model/SimpleView` | as C124; finite set reasoning on the two tables |
| C127 | `Model/SimpleView`, `Model/EqHash` | induction on the casts of the operands |
| C128 | `Model/SimpleView` | case analysis on the argument list; inductive description of flattening |
| C129 | `Model/SimpleView`, `Model/Pred` | from C124 and C126, induction on the lists |
| C130 | `Model/QTransform`, `Model/Transform`, `Model/EqHash` | equality with a specification that maps all names; induction on the nesting level, structural induction on expressions and table sources |
| C131 | `Model/QTransform` | as C130 for both phases; composition of changes of names; invariant of the loop over the FROM clause |
| C132 | `Model/QTransform` | induction on the list of tables with C131; the conditions are preserved by each step |
| C133 | `Model/QTransform` | equality with a specification; induction on the nesting level and on conditions |
| C134 | `Model/QTransform`, `Model/Query`, `Model/Transform` | clause by clause with C39; set reasoning on tables |
| C135 | `Model/PgExplain` | inductive specification of rendering; induction on the tree, invariant of the loop over the children |
| C136 | `Model/PgExplain`, `Model/QueryPlan` | permutation of node lists by induction; tables with C79 |
| C137 | `Model/PgExplain` | inductive specification of sameness; structural induction |
| C138 | `Model/PgExplain` | case analysis with C137 |
| C139 | `Model/PgExplain` | case analysis; induction on the tree for the inspection |
| C140 | `Model/PlanRead` | finite-set arithmetic; induction on the text |
| C141 | `Model/PlanRead` | inductive specification of rendering; induction on the tree |
| C142 | `Model/PlanRead` | case analysis; sortedness of the scores |
| C143 | `Model/PlanRead` | search from the end of the list |
| C144 | `Model/PlanRead` | inductive specification of left-deep plans; induction on the entries from the end |
| C145 | `Model/PlanRead` | case analysis |
| C146 | `Model/Randomized` | invariant of the contracted graph; completeness by decomposing the tree into the current nodes |
| C147 | `Model/Randomized`, `Model/Walk` | C15 for soundness; choices constructed from the order for completeness |
| C148 | `Model/Randomized` | induction on the samples; hash keys determine the trees |
| C149 | `Model/Randomized`, `Model/Hints` | induction on the joins and tables |
| C150 | `Model/Relalg` | invariant of the fragments: they partition the tables and compute the combinations satisfying the conditions added so far |
| C151 | `Model/Relalg` | invariant of the fragments: the required expressions are provided |
| C152 | `Model/Relalg` | the phases of conditions with aggregates |
| C153 | `Model/Relalg` | each step succeeds in a state satisfying the invariant; witness for the order dependence |
| C154 | `Model/Relalg` | case analysis of the conversion; witnesses |
| C155 | `Model/Relalg` | case analysis; witness |
| C156 | `Model/Namespace` | refinement of a resolver for SQL scoping by the parser: simultaneous induction over the syntax, the scopes describe the FROM clauses; witnesses |
| C157 | `Model/Namespace` | simulation: runs with and without cache agree up to the cache; the cached tables are those found without it |
| C158 | `Model/Namespace` | invariant of the cache; witness |
| C159 | `Model/ParseExpr` | evaluation of syntax trees and of translated expressions in an arbitrary interpretation; simultaneous structural induction; witnesses |
| C160 | `Model/ParseExpr` | the accepted expressions are characterised by a predicate on syntax trees; simultaneous structural induction |
| C161 | `Model/ParseStmt` | evaluation of syntax trees and of translated statements in an arbitrary interpretation; simultaneous structural induction; witnesses |
| C162 | `Model/ParseStmt` | the flags of the loop are computed by quantifiers over the entries; case analysis; general counterexample |
| C163 | `Model/ParseStmt` | the accepted statements are characterised by a predicate on syntax trees; simultaneous structural induction |
| C164 | `Model/ParseText` | inductive specification of texts with leading comments; first occurrences in lists of characters; the bound of the recursion is irrelevant; general counterexamples |
| C165 | `Model/ParseText` | the loop is characterised by an equivalence; texts are compared with an independent quoting function; general counterexamples |
| C166 | `Model/ParseText` | last option of its kind; induction over the options; general counterexample |
| C167 | `Model/ParseText` | the outcome is characterised by an equivalence; the translation of statements is a parameter |
| C168 | `Model/Schema` | the views of the information schema are computed from a catalog; queries are joins over lists; membership equivalences; counterexamples |
| C169 | `Model/Schema` | as C168; the dictionary of indexes is characterised by its last row; general counterexample |
| C170 | `Model/Schema` | as C168, for three interfaces; general counterexamples |
| C171 | `Model/Schema` | state machine of the cache; all sequences of calls; general counterexample |
| C172 | `Model/Schema` | as C168; the first matching row is unique; general counterexample |
| C173 | `Model/Schema` | induction over the candidates; the order of the set is a parameter |
| C174 | `Model/Schema` | invariant of the nested loops over a dictionary of edges |
| C175 | `Model/Schema` | components of a graph against the equivalence closure of foreign keys |
| C176 | `Model/QueryExec` | the server is a parameter; invariant over histories of calls: the cache agrees with the server; general counterexamples |
| C177 | `Model/QueryExec` | case distinction over the shape of the result set; injectivity for equal shapes |
| C178 | `Model/QueryExec` | transactions as lists of commands with session and local settings |
| C179 | `Model/QueryExec` | mutual induction over nested values; inductive predicate for unknown values |
| C180 | `Model/QueryExec` | case distinction over the reply of the server |
| C181 | `Model/Executors` | the worker as a producer of events, the state machine as a consumer; kills truncate the events; all environments |
| C182 | `Model/Executors` | transition system of the pool with an invariant (permutation of the tasks); all orders of completion |
| C183 | `Model/QueryGen` | random choices as a parameter with the guarantees of `random`; the walk of C15; prefixes of exploration orders of connected graphs are connected |
| C184 | `Model/QueryGen` | atoms of the WHERE clause; counting by lists without duplicates; general counterexamples |
| C185 | `Model/QueryGen` | main loop with fuel, for all fuels |
| C186 | `Model/StatsIface` | answers of the queries over lists of rows, cache as a dictionary; invariant that each cached result is the answer for the current data, over all histories of calls |
| C187 | `Model/StatsIface` | catalog entries as rationals; `int` as truncation; composition of updates |
| C188 | `Model/StatsIface` | decision table of the sources; the abstract methods of each class |
| C189 | `Model/Ceb` | `str.replace` on character lists; templates as lists of parts; sequential replacement equals simultaneous replacement, by induction; reader for SQL strings as specification |
| C190 | `Model/Ceb` | random choices as a parameter with the guarantees of `random`; inversion of the retry loop |
| C191 | `Model/Ceb`, `Model/DepGraph` | state of the selected values; invariant over the order of C12 |
| C192 | `Model/Ceb` | loop over tries; number of new queries as cardinality of a finite set |
| C193 | `Model/Analysis` | loops over key values and joins; size of all combinations (`List.sections`) as specification |
| C194 | `Model/Analysis`, `Model/JoinTree` | structural recursion on both trees; induction |
| C195 | `Model/Analysis` | documented depths as a recursive function |
| C196 | `Model/Analysis` | lists of lines |
| C197 | `Model/TrainData` | specs as lists, feature maps as dictionaries |
| C198 | `Model/TrainData` | data frames as columns and rows; `rename` and selection of pandas |
| C199 | `Model/TrainData` | `concat` of pandas; induction over the datasets |
| C200 | `Model/TrainData` | repository as the list of registrations |
| C201 | `Model/Format` | texts as lists of characters; a lexer and the grammar as specification; induction over nesting |
| C202 | `Model/Format` | the same lexer and grammar |
| C203 | `Model/Format` | corollary of both |
| C204 | `Model/Native` | the database system as a parameter; case analysis of all paths, induction over plans |
| C205 | `Model/Native` | extraction from the plan of an arbitrary system |
| C206 | `Model/Native`, `Model/DbHints` | systems that follow hints as hypotheses; the hints of empty stages |
| C207 | `Model/PgConf` | invariant over histories of changes |
| C208 | `Model/PgConf` | a server that parses and executes scripts of SET commands; parsing inverts printing |
| C209 | `Model/Shifter` | the effect of the SQL commands on lists of rows; sorting by the requested order |
| C210 | `Model/Shifter` | databases with marker tables and files; composition of all four steps |
| C211 | `Model/Connect` | histories of connects, pool as a dictionary; invariants; the pigeonhole principle for free names |
| C212 | `Model/Connect` | printer of connect strings and the parser of libpq; round trip |
| C213 | `Model/UesStats` | setup from the data through the emulated statistics of `Model/StatsIface` |
| C214 | `Model/UesStats` | composition with C186 and C55; values and NULLs are encoded as numbers |
| C215 | `Model/MoveSub` | multiset semantics of FROM and WHERE over arbitrary data; the subquery is one more source |
| C216 | `Model/JsonText` | printer and scanner of Python's json module; round trip by mutual induction over documents |
| C217 | `Model/PlanJson` | JSON documents of plans, read back field by field; induction over plans on top of C216 |
| C218 | `Model/PlanBag` | heap of dictionaries refined to a state of attribute functions, by induction over histories |
| C219 | `Model/PlanBag` | case analysis over the arguments; constructors are characterised by the attribute function of C218 |
| C220 | `Model/BenchPrep` | composition of the clause changes of C91 with a trace of database events; induction over statements |
| C221 | `Model/BenchPrep` | cell-wise relation of the exported frame; induction over the written rows |
| C222 | `Model/BenchPrep` | uniqueness of stable orders; ranks of a stable sort are distinct, hence the first column decides |
| C223 | `Model/PgTools` | characterisation of the relation names by membership, for all catalogs |
| C224 | `Model/PgTools` | on top of the EXPLAIN model of C135; prefixes of texts |
| C225 | `Model/PgTools` | decision table of the detection against the state of the server |
| C226 | `Model/DuckExec` | outcomes of the race as an input; induction over histories of calls |
| C227 | `Model/PipeUse` | induction over the sequence of calls; the result is the last matching component of the sequence |
| C228 | `Model/PipeUse` | case analysis over the roles, for all support checks |
| C229 | `Model/PipeUse` | heaps of stage objects; induction over the stages and over the sequence of queries |
| C230 | `Model/TonicExplore` | cartesian products as lists without duplicates; invariant of the sampling loop for all choices |
| C231 | `Model/WorkRead` | line splitting by induction over the text; on top of the workload model of C93 |
| C232 | `Model/RelMutate` | heap of node objects; worklist invariant (every node without copy has a queued witness below it), termination by the number of upward paths |
| C233 | `Model/RelMutate` | symbolic hash values on top of the copies of C232 |
| C234 | `Model/RelMutate` | structural induction over operator trees |
| C235 | `Model/NumOps` | case analysis over operand kinds with symbolic values; bounds via the model of C13 |
| C236 | `Model/NumOps` | case analysis over operand kinds with symbolic values |
| C237 | `Model/JoinParts` | reachability in the graph of C30 equals connectedness by predicates; loop invariant for the enumeration of components |
| C238 | `Model/PlanText` | induction over plans: text = joined rows of an outline; rows with depths determine the tree, lines determine the rows |
| C239 | `Model/Ues` | counting the rows of the join per row of the intermediate result; monotonicity of the updates |
| C240 | `Model/Mysql` | lookups against the rows of the current database in the catalog; induction over candidates and rows |
| C241 | `Model/Mysql` | a reader of MySQL strings inverts the texts of literals; settings by the fold over the optional keys |
| C242 | `Model/PgDates` | cases over infinite values, values within the range and values beyond it |
| C243 | `Model/QueryAst` | the lines of the text are the rows of the tree of titles; induction over the size of objects; rows with depths determine trees |
| C244 | `Model/ReplacePred` | induction over predicates; the clauses follow from replace_clause (C42) |
| C245 | `Model/HintQuery` | the clauses follow from replace_clause and add_clause (C42); the class follows from the clauses |
| C246 | `Model/Vis` | induction over trees; trees with different leaves have different subtrees |
| C247 | `Model/Vis` | mutual induction over plans, children and subplans |
| C248 | `Model/Vis` | induction over edges, with the index tests of the join graph (C30) |
| C249 | `Model/Vis` | mutual induction over synopses; positions stand for the random identifiers |
| C250 | `Model/Grid` | induction over labels: column and row are remainder and quotient of the position |
| C251 | `Model/Proc` | cases of commands and of the operating system, which is a parameter |
| C252 | `Model/Proc` | induction over lines and names |
| C253 | `Model/Proc` | induction over elements, with the laws of dictionaries |
| C254 | `Model/Hashable` | mutual induction over nested containers |
| C255 | `Model/Hashable` | cases of values |
| C256 | `Model/PgCtl` | cases of directories; the laws of pg_ctl are hypotheses with an instance |
| C257 | `Model/PgCtl` | induction over calls; different operators have different settings |
| C258 | `Model/PgCtl` | cases of queries and hints |
| C259 | `Model/PgCtl` | cases of letters |
| C260 | `Model/CheckMsg` | cases of reasons and contexts; induction over joined texts |
| C261 | `Model/Frames` | cases of suffixes; induction over the columns |
| C262 | `Model/DictTools` | induction over the entries; sorted keys |
| C263 | `Model/Nested` | mutual induction over values and lists |
| C264 | `Model/Logging` | induction over call stacks, copies and messages |
| C265 | `Model/Fetch` | induction over the steps of the download, cut at any point |
| C266 | `Model/Conn` | invariants over histories of calls, faults and dropped sessions |
| C267 | `Model/WorkStore` | induction over the queries that are written, cut at any point |
| C268 | `Model/DuckOpt` | case distinctions over answers and ends of the execution |
| C269 | `Model/QepsText` | mutual induction over nodes, children and subqueries |
| C270 | `Model/PlanDiff` | induction over the comparison; refinement to the comparison of C61; texts by their headings |
| C271 | `Model/Explode` | induction over well-formed plans, with C24 for operators and parameters |
| C272 | `Model/Ues` | the fold over predicates takes the minimum; induction over the predicates for the decision |
| C58,C59,C62,C101,C102 | `Model/Stats` | induction over bucket lists |
| C65,C66 | `Model/Refs` | JSON round trip; quoting |
| C67,C68 | `Model/Dicts` | hash keys; minimality by induction |
| C69 | `Model/Version` | parsing and printing of digit strings |
| C70,C71 | `Model/Walk` | refinement of the frontier loop to exploration orders |
| C72–C74 | `Model/Hints` | JSON round trip, maps |
| C75,C76 | `Model/JoinTree` | structural induction |
| C77–C81 | `Model/QueryPlan` | structural induction |
| C82,C83 | `Model/Expr` | structural induction over nested expressions against an occurrence relation |
| C84–C88 | `Model/Pred`, `Model/Nx` | evaluation semantics; reachability; permutation of the join map |
| C89–C91 | `Model/Transform`, `Model/Clauses` | evaluation of joins on rows; case analysis on clause types |
| C92–C94 | `Model/Workload` | lookup characterisation |
| C95,C96 | `Model/Validation` | induction over nested checks and queries |
| C97,C98 | `Model/Enumerate` | product characterisation; counting |
| C99,C100 | `Model/PgDynProg` | table invariant over levels, for every cost model |
| C103 | `Model/JoinGraph` | database contents as multisets of rows; invariant over join histories |
| C105 | `Model/Pipelines` | case analysis on training capabilities |
| C108 | `Model/Bench` | invariant over the benchmark loop |

## Trusted base

* Lean 4.33.0 kernel. Every theorem depends on a subset of the axioms `propext`, `Classical.choice`, `Quot.sound`
  (`vcheck` replays all modules and checks this). There are no own axioms, no `sorry`, no `native_decide`, no `bv_decide`.
* `decide +kernel` is used for concrete witnesses and examples only; it is evaluated by the kernel.
* Faithfulness of the model to the Python text: by reading; each definition cites file and lines and says where it simplifies.
* Python semantics that the conventions above take for granted: insertion order of dictionaries, evaluation order of arguments, truthiness,
  enums as distinct constants, exceptions leaving the state as far as it was changed before.

### What is modelled

Files of `/repo` that definitions of the model cite (the number of citations in brackets; the exact lines are in the comments):

<!-- begin modelled -->
* `db/_db.py` – cited by `QueryExec` (10), `QueryGen` (1), `Schema` (21), `StatsIface` (21)
* `experiments/ceb.py` – cited by `Ceb` (29)
* `postbound/_core.py` – cited by `Cardinality` (22), `Expr` (2), `Format` (1), `Hints` (4), `Intermediates` (1), `JoinTree` (1), `Mysql` (1), `Namespace` (3), `Nested` (3), `PgDynProg` (1), `PlanBag` (1), `PlanJson` (8), `PlanRead` (1), `QTransform` (2), `QueryPlan` (2), `Refs` (23)
* `postbound/_hints.py` – cited by `Analysis` (2), `DbHints` (1), `Explode` (2), `Hints` (24), `Intermediates` (1), `JoinTree` (23), `PlanJson` (3), `QueryPlan` (8), `Tonic` (4), `TonicExplore` (1), `Vis` (2)
* `postbound/_pipelines.py` – cited by `PipeUse` (24), `Pipelines` (24)
* `postbound/_qep.py` – cited by `Native` (1), `Nested` (1), `PgDynProg` (6), `PgExplain` (4), `PlanBag` (25), `PlanDiff` (1), `PlanJson` (13), `PlanRead` (2), `PlanText` (21), `QueryPlan` (35), `Tonic` (7), `Vis` (4)
* `postbound/_stages.py` – cited by `Intermediates` (6), `Native` (4), `PipeUse` (3), `Pipelines` (9)
* `postbound/bench.py` – cited by `Bench` (41), `BenchPrep` (24), `PipeUse` (3)
* `postbound/db/_db.py` – cited by `Analysis` (1), `Bench` (2), `Connect` (6), `PgTools` (1), `PipeUse` (1), `QueryExec` (1), `Schema` (1), `Stats` (19), `StatsIface` (1)
* `postbound/duckdb.py` – cited by `Conn` (1), `Connect` (3), `DbHints` (15), `DuckExec` (7), `DuckOpt` (1), `HintQuery` (1), `PlanRead` (17), `QueryExec` (1), `Schema` (1), `StatsIface` (1)
* `postbound/experiments/ceb.py` – cited by `Ceb` (1), `WorkStore` (1)
* `postbound/experiments/querygen.py` – cited by `QueryGen` (1)
* `postbound/mysql.py` – cited by `Conn` (1), `Connect` (2), `DbHints` (12), `HintQuery` (2), `Mysql` (23), `PlanRead` (32), `QueryExec` (1), `StatsIface` (1)
* `postbound/opt/_analysis.py` – cited by `Analysis` (16), `Enumerate` (2), `PlanDiff` (8), `QueryPlan` (5)
* `postbound/opt/_cardinalities.py` – cited by `Intermediates` (9)
* `postbound/opt/_helpers.py` – cited by `Enumerate` (1), `Explode` (3), `Hints` (2), `JoinTree` (3), `JsonText` (1), `Nested` (5), `PlanBag` (1), `PlanJson` (8), `QueryPlan` (3), `Randomized` (1)
* `postbound/opt/_joingraph.py` – cited by `JoinGraph` (43)
* `postbound/opt/dynprog.py` – cited by `DynProg` (11), `PgDynProg` (27)
* `postbound/opt/enumeration.py` – cited by `Enumerate` (11)
* `postbound/opt/native.py` – cited by `Native` (21)
* `postbound/opt/noopt.py` – cited by `Native` (2)
* `postbound/opt/presets.py` – cited by `PgCtl` (2)
* `postbound/opt/randomized.py` – cited by `Randomized` (17)
* `postbound/opt/tonic.py` – cited by `QepsText` (1), `Tonic` (25), `TonicExplore` (11), `Vis` (5)
* `postbound/opt/ues.py` – cited by `Ues` (34), `UesStats` (17)
* `postbound/parser.py` – cited by `JsonText` (1), `Namespace` (35), `ParseExpr` (16), `ParseStmt` (25), `ParseText` (1), `PlanJson` (3), `Refs` (3)
* `postbound/postgres.py` – cited by `Conn` (1), `Connect` (11), `DbHints` (48), `Executors` (2), `HintQuery` (11), `PgConf` (19), `PgCtl` (9), `PgDates` (6), `PgExplain` (46), `PgTools` (21), `QueryExec` (1), `Schema` (1), `Shifter` (13), `Stats` (4), `StatsIface` (1)
* `postbound/qal/_formatter.py` – cited by `Format` (31)
* `postbound/qal/_qal.py` – cited by `Clauses` (12), `EqHash` (65), `Expr` (46), `Format` (50), `HintQuery` (3), `JoinGraph` (1), `MoveSub` (7), `Mysql` (6), `Native` (3), `ParseExpr` (4), `ParseStmt` (10), `PgDynProg` (1), `PlanJson` (2), `Pred` (43), `Print` (9), `QTransform` (13), `Query` (44), `QueryAst` (8), `Relalg` (7), `ReplacePred` (1), `SimpleView` (48), `Transform` (1), `Validation` (1)
* `postbound/relalg.py` – cited by `Relalg` (69)
* `postbound/train/_train.py` – cited by `TrainData` (22)
* `postbound/transform.py` – cited by `Clauses` (8), `Format` (1), `MoveSub` (10), `Mysql` (1), `Native` (1), `QTransform` (49), `ReplacePred` (3), `Transform` (17)
* `postbound/util/_df.py` – cited by `Frames` (7)
* `postbound/util/collections.py` – cited by `Collections` (16), `Expr` (1), `Hashable` (8), `PlanBag` (1), `Pred` (1), `QueryPlan` (1), `SimpleView` (1), `Validation` (1)
* `postbound/util/dicts.py` – cited by `DictTools` (7), `Dicts` (13), `Hashable` (2), `PlanRead` (1), `Ues` (1)
* `postbound/util/jsonize.py` – cited by `BenchPrep` (1), `Frames` (1), `JsonText` (3), `Nested` (1)
* `postbound/util/logging.py` – cited by `Logging` (10)
* `postbound/util/misc.py` – cited by `DepGraph` (7), `Mysql` (2), `Version` (10)
* `postbound/util/num.py` – cited by `Num` (14)
* `postbound/util/nx.py` – cited by `JoinGraph` (1), `Walk` (10)
* `postbound/util/proc.py` – cited by `Proc` (9)
* `postbound/util/stats.py` – cited by `Enumerate` (1), `PlanRead` (3)
* `postbound/util/system.py` – cited by `Proc` (2)
* `postbound/validation.py` – cited by `CheckMsg` (11), `Pipelines` (1), `Validation` (23)
* `postbound/vis/fdl.py` – cited by `Proc` (3)
* `postbound/vis/graphs.py` – cited by `Proc` (3)
* `postbound/vis/optimizer.py` – cited by `Vis` (20)
* `postbound/vis/plots.py` – cited by `Grid` (7)
* `postbound/vis/tonic.py` – cited by `Vis` (11)
* `postbound/vis/trees.py` – cited by `Vis` (3)
* `postbound/workloads.py` – cited by `Fetch` (6), `WorkRead` (9), `WorkStore` (1), `Workload` (33)
* `qal/_qal.py` – cited by `ParseText` (3), `QueryGen` (1)
* `repo/postbound/opt/_joingraph.py` – cited by `JoinParts` (1)
* `repo/postbound/relalg.py` – cited by `RelMutate` (1)
* `repo/postbound/util/num.py` – cited by `NumOps` (1)
* `vis/fdl.py` – cited by `Vis` (1)
* `vis/graphs.py` – cited by `Vis` (1)
* `vis/plots.py` – cited by `Vis` (1)
<!-- end modelled -->

### What is not modelled

* The SQL parser (`parser.py`), the formatter (`qal/_formatter.py`), and everything that talks to a real database server (`postgres.py`, `duckdb.py`, `mysql.py`
  apart from the statistics cited above): connections, settings, native plans, timeouts, prewarming.
* Text output other than that of expressions and predicates (C110): `inspect`, other `__str__`/`__repr__` methods, logging, progress output, and the plots in `vis/` other than those of C246 to C250 and C253 (layouts, rendered files, plots of data frames, labels of relational algebra trees).
* Pandas and numpy: data frames are lists of rows, arrays are lists of rationals.
* Floating point rounding and overflow: numbers are exact rationals (with infinity and nan where the code handles them).
* Hash collisions, unless a theorem states that it assumes their absence.
* Threads and processes, except for `AtomicInt` (C14) and the benchmark log (C53).
* Experiments, tools and setup scripts, other than those cited above.

## Disagreements between the code and the properties

Each of these theorems exhibits an execution of the modelled code (or shows for all executions) that the property, as a user would expect it, fails.
They are findings about the code, not gaps of the proofs.

<!-- begin violations -->
* `C01_eq_total_violated` (`Props/Cardinality.lean`): violated: comparing a known with an unknown cardinality by `==` raises `StateError`.
* `C01_gt_violated` (`Props/Cardinality.lean`): violated: a finite cardinality is reported greater than the infinite one (and at the same time smaller).
* `C01_le_refl_violated` (`Props/Cardinality.lean`): violated: `inf <= inf` is false although `inf == inf`.
* `C01_mirror_violated` (`Props/Cardinality.lean`): violated: `a < b` does not imply `b > a`.
* `C02_nonneg_violated` (`Props/Cardinality.lean`): violated: "a valid cardinality is a non-negative integer" is not preserved by subtraction.
* `C03_col_lt_weak_violated` (`Props/Refs.lean`): violated (columns): with two tables sharing an identifier (`R AS x` and `S AS x`) the columns are not weakly ordered: `x.c` of `S` is incomparable with both `x.a` and `x.b` of `R`, although `x.a < x.b`.
* `C04_update_violated` (`Props/Refs.lean`): violated: `update(alias=...)` forgets the schema.
* `C04_withAlias_violated` (`Props/Refs.lean`): violated: `with_alias` forgets the schema.
* `C07_fifo_violated` (`Props/Collections.lean`): violated: popping a falsy element (e.g. the integer 0) does not remove it, so it is delivered twice.
* `C08_extend_violated` (`Props/Collections.lean`): violated: `extend` on a full queue drops the *new* elements instead of the oldest ones.
* `C10_invertMulti_violated` (`Props/Dicts.lean`): violated: two keys with the same value list: the first one is lost.
* `C12_once_violated` (`Props/DepGraph.lean`): violated: a node that is registered again without dependencies is yielded twice.
* `C12_order_violated` (`Props/DepGraph.lean`): violated: `c` depends on `a` and `b`, but is yielded before `b`.
* `C14_pos_deadlock_violated` (`Props/Num.lean`): violated: `+a` never returns: after its first step the thread waits for the lock it holds itself, whatever the schedule.
* `C14_value_update_violated` (`Props/Num.lean`): violated: `a.value += 1` (a read and a write of the property) is not atomic: two threads, one update lost.
* `C16_singleton_violated` (`Props/Hints.lean`): violated: the scan operator set for a table is not found when asking for the one-element set of that table, and this holds for every assignment.
* `C18_join_violated` (`Props/Hints.lean`): violated: disabling with overwriting keeps the join assignments that use the operator.
* `C18_scan_violated` (`Props/Hints.lean`): violated: disabling with overwriting keeps the scan assignments that use the operator.
* `C19_mode_violated` (`Props/Hints.lean`): violated: the execution mode is always lost.
* `C22_emptyJoin_violated` (`Props/JoinTree.lean`): violated: the empty tree claims to be a join.
* `C22_linear_violated` (`Props/JoinTree.lean`): violated: a tree with a join of two joins deep inside is reported as linear (and hence not as bushy).
* `C24_parameterised_violated` (`Props/PlanExtract.lean`): violated: a join whose inner input is itself a join with a condition on the outer table (a parameterised path) covers the same tables as its inner input, so its operator is overwritten: the nested-loop join over {1,2,3} is reported as a hash join.
* `C24_workers_violated` (`Props/PlanExtract.lean`): violated: `include_workers` only reaches the root node. Here a scan with four workers below a join is reported without workers.
* `C25_subplan_violated` (`Props/QueryPlan.lean`): violated: the subplan of an auxiliary node is dropped, together with its tables.
* `C26_subplan_violated` (`Props/QueryPlan.lean`): violated: a matching node inside the subplan of a scan is not found.
* `C26_threeChildren_violated` (`Props/QueryPlan.lean`): violated: for a node with three children that does not match itself, `find_first_node` raises an exception.
* `C27_linear_violated` (`Props/Enumerate.lean`): **C27 is violated** for linear join orders: nothing is produced, whatever the query.
* `C28_index_nlj_violated` (`Props/DynProg.lean`): **C28 does not hold** if index nested-loop joins are supported: they are never considered, so that a cheaper plan is missed although costs are monotone.
* `C28_not_monotone_violated` (`Props/DynProg.lean`): Monotone costs are needed: only the cheapest plan of every subset is kept, so that a sorted but more expensive input of a merge join is lost.
* `C29_evicted_violated` (`Props/PgDynProg.lean`): **C29 does not hold for sort orders.** A kept sorted path is evicted by a cheaper path of the same order, which is then dropped itself.
* `C29_fuzz_violated` (`Props/PgDynProg.lean`): **C29: the fuzz factor adds up** for paths with several sort keys: the only kept path costs more than 1 % more than the first candidate.
* `C29_sorted_lost_violated` (`Props/PgDynProg.lean`): **C29 does not hold for sort orders.** An index scan that is sorted by column 7 is not kept if a cheaper unsorted path was added before, although no other path is sorted by that column. If the two are added in the other order, both are kept.
* `C30_deep_pk_missed_violated` (`Props/JoinGraph.lean`): **C30** (violated): the deep primary key joins can miss a table that is joined by primary key with one of their tables, and by another join with the table they start at.
* `C30_deep_pk_twice_violated` (`Props/JoinGraph.lean`): **C30** (violated): the deep primary key joins can contain the same table more than once.
* `C30_free_n_m_violated` (`Props/JoinGraph.lean`): **C30** (violated): if two tables are joined by a primary key/foreign key predicate and by another predicate, the graph reports free n:m joins, but there is no available n:m join path.
* `C31_filters_joins_violated` (`Props/Pred.lean`): **C31 is violated.** For `WHERE t1.x = t2.y OR t1.z = 1` (joins and filters mixed in a disjunction) the joins are `{t1.x = t2.y}` and the filters are `{t1.z = 1}`. A row that satisfies only one of them is accepted by the WHERE predicate, but not by the filters and joins.
* `C32_violated` (`Props/Pred.lean`): **C32 is violated.** `5 BETWEEN t1.x AND t2.y` and `5 IN (t1.x, t2.y)` contain columns of two tables but are not joins; `5 BETWEEN t1.x + t2.y AND 7` is a join without join partners.
* `C33_violated` (`Props/Pred.lean`): **C33 is violated.** `t1.x = t2.y AND t1.z = 1` is a join, but `join_partners()` raises. As a consequence, no `QueryPredicates` can be created for the WHERE clause `(t1.x = t2.y AND t1.z = 1) OR t1.x < t2.y`: whatever the iteration order of its sets, the constructor raises.
* `C36_generated_violated` (`Props/EquivClasses.lean`): **C36 is violated.** From `t1.x + 1 = t2.y` the code derives `t1.x = t2.y`: there is a row that the original predicate accepts and the generated predicate rejects.
* `C37_violated` (`Props/TransformPreds.lean`): **C37 is violated.** For `WHERE t1.x = t2.y AND t1.x < t2.y` the new WHERE clause is `t1.x = t2.y`: the second join is dropped, so rows are accepted that the original query rejects.
* `C38_flatten_violated` (`Props/TransformPreds.lean`): **C38 is violated.** `((p OR q) AND (p OR q)) AND r` is flattened to `p AND q AND r`, and a conjunction that repeats a NOT makes the function fail.
* `C39_fragment_violated` (`Props/TransformPreds.lean`): **C39 is violated.** The fragment of `t1.x = t2.y OR t1.z = 1` for the table `t1` is `t1.z = 1`, which is not implied by the original predicate, and the fragment of any predicate with a NOT cannot be computed.
* `C40_remove_violated` (`Props/TransformPreds.lean`): **C40 is violated.** Removing `t1.z = 1` from `(t1.z = 1 OR t1.z = 2) AND t1.z = 1` yields `t1.z = 2`: together with the removed predicate it rejects rows the original predicate accepts. Removing a compound predicate can leave occurrences of it: removing `p AND q` from `(p AND q AND (p AND q)) AND r` yields `(p AND q) AND r`.
* `C41_rename_violated` (`Props/Rename.lean`): **C41 is violated.** Renaming drops the FILTER of a function, even if no column is renamed; and it fails for arithmetic with three operands and for CASE with a comparison value.
* `C42_add_violated` (`Props/Clauses.lean`): **C42 is violated.** Adding an EXCEPT clause to a UNION query has no effect.
* `C42_drop_violated` (`Props/Clauses.lean`): **C42 is violated.** Dropping the type `From` from an implicit query keeps its FROM clause.
* `C43_database_violated` (`Props/Validation.lean`): **C43 is violated** for databases: as soon as two different checks are merged, every database system is accepted.
* `C43_first_empty_violated` (`Props/Validation.lean`): **C43 is violated** if the first argument is empty: all further checks are dropped.
* `C43_same_name_violated` (`Props/Validation.lean`): **C43 is violated**: checks of the same class with the same name compare equal (e.g. two custom checks with the default name, or two hint checks for different hints), so only one of them is performed.
* `C44_cross_product_violated` (`Props/Validation.lean`): **C44 is violated** if a table occurs in no predicate: the cross product of `t1` and `t2` passes the check.
* `C44_no_predicates_violated` (`Props/Validation.lean`): **C44 is violated** for a query without predicates: the check raises.
* `C45_conjunction_violated` (`Props/Validation.lean`): **C45 is violated** in so far as conjunctions are concerned: `t1.x = t2.y AND t1.x = t2.w` is a conjunction of join predicates between the same tables, and passes although conjunctions are not allowed, because the joins of a query are always split at conjunctions.
* `C46_integrated_violated` (`Props/Pipelines.lean`): **C46 is violated** by integrated pipelines: an algorithm that is selected after `build` is used although it supports no database, and although `build` was repeated and failed.
* `C46_multistage_database_violated` (`Props/Pipelines.lean`): **C46 is violated** by multi-stage pipelines: with two different checks every database is supported.
* `C46_multistage_stale_violated` (`Props/Pipelines.lean`): **C46 is violated** by multi-stage pipelines: `build` merges the checks of the stages into the support check of the pipeline, where they remain when the stages are replaced. Queries that all current stages support are rejected.
* `C46_textbook_violated` (`Props/Pipelines.lean`): **C46 is violated** by text book pipelines in two ways: with two different checks every database is supported; and set queries are optimized whether they are supported or not.
* `C47_set_query_violated` (`Props/Pipelines.lean`): **C47 is violated** for set queries: they are optimized by all pipelines, whatever the stages support.
* `C49_last_violated` (`Props/Workload.lean`): **C49 is violated** for `last(0)`: it returns the entire workload.
* `C50_iteration_violated` (`Props/Workload.lean`): **C50 is violated** for iterating over the workload itself (`for label in workload`, `workload.items()`): it follows the underlying dictionary, so neither the natural order nor the shuffled order is used.
* `C51_lenient_violated` (`Props/Workload.lean`): **C51 is violated** for lenient reading: if the first file cannot be parsed, reading fails altogether.
* `C51_lenient_wrong_query_violated` (`Props/Workload.lean`): **C51 is violated** for lenient reading: a later file that cannot be parsed receives the query of another file.
* `C52_empty_violated` (`Props/Bench.lean`): **C52 is violated**: a benchmark of no queries raises an error after it has been logged as completed, as does a benchmark all of whose queries are ignored.
* `C52_ignore_violated` (`Props/Bench.lean`): **C52 is violated**: if errors shall be ignored and one of the executions of a query fails while another one does not, the benchmark raises an error, and all results are lost. The experiment is logged as completed nevertheless.
* `C52_index_violated` (`Props/Bench.lean`): **C52 is violated**: after an ignored query the execution indexes have a gap.
* `C52_result_violated` (`Props/Bench.lean`): **C52 is violated**: the result of a failed execution shall be missing, but is an empty list.
* `C53_interleaving_violated` (`Props/Bench.lean`): **C53 is violated**: if two processes start runs at the same time, the entry of one of them is lost, and it is not written when the run ends, either.
* `C53_same_start_violated` (`Props/Bench.lean`): **C53 is violated**: if two runs with the same name start at the same time, the end of one of them also ends the other one.
* `C54_no_predicates_violated` (`Props/Intermediates.lean`): **C54 is violated** for queries without predicates: they have no intermediates at all, not even their tables.
* `C54_table_violated` (`Props/Intermediates.lean`): **C54 is violated** if some table occurs in no predicate: it is no intermediate itself.
* `C55_chain_violated` (`Props/UesBounds.lean`): **C55** (violated): with exact statistics, the bound of an n:m join of three tables is too low: the bound of the third join uses the size of a base table instead of the bound of the intermediate result.
* `C55_foreign_keys_violated` (`Props/UesBounds.lean`): **C55** (violated): with exact statistics, the bound of a query of two primary key/foreign key joins is too low: after the first join, the second one is treated as an n:m join of the base tables.
* `C56_frequency_violated` (`Props/Tonic.lean`): the claim that a node recommends the operator whose most recent costs are the smallest is false. The costs are not averages either: they grow with each update, so that an operator which is tried more often looks more expensive.
* `C57_load_violated` (`Props/Tonic.lean`): no synopsis that was saved can be loaded again: loading fails for every synopsis.
* `C58_above_increasing_violated` (`Props/Stats.lean`): **C58**, violated: between the first and the last bound, `frequency_above` is *increasing* for strategy "bound", for every histogram.
* `C58_above_raises_violated` (`Props/Stats.lean`): **C58**, violated: for strategy "approx-uni", `frequency_above` raises an `IndexError` for all values in the last bucket, for every histogram with at least two buckets.
* `C58_above_violated` (`Props/Stats.lean`): A strict instance: 4 of 6 values are claimed to be above 6, but only 2 above 4.
* `C58_bound_violated` (`Props/Stats.lean`): **C58**, violated: strategy "bound" does not bound the number of values in a bucket from above.
* `C58_uneven_violated` (`Props/Stats.lean`): **C58**, violated: the frequencies of the individual buckets are not used.
* `C58_uniform_violated` (`Props/Stats.lean`): **C58**, violated: with strategy "approx-uni", the estimate at a bucket bound misses a complete bucket, for every equi-depth histogram and every bound but the last one.
* `C59_top_zero_violated` (`Props/Stats.lean`): **C59**, violated for `top(0)`: the bound of missing values is 0.
* `C60_empty_violated` (`Props/JoinTree.lean`): violated: the document of an empty tree cannot be read.
* `C60_logical_violated` (`Props/JoinTree.lean`): violated: a logical join tree is never read back as an equal tree.
* `C61_cost_violated` (`Props/PlanOps.lean`): **C61** (violated): if the cost of the first plan is not known, a different cost is not reported.
* `C61_known_violated` (`Props/PlanOps.lean`): **C61** (violated): the comparison of two scans of the same table fails if a cardinality is known in one of the plans only.
* `C61_self_violated` (`Props/PlanOps.lean`): violated: no join plan whose inputs have different tables is equal to itself: the comparison reports a different tree structure (or fails).
* `C62_arrays_violated` (`Props/Stats.lean`): **C62**, violated for array columns: one row with an array cannot be told from several rows with the elements of the array, and an empty array cannot be told from an empty result.
* `C63_roundtrip_violated` (`Props/PlanExtract.lean`): violated: converting a join tree to a plan forgets the tables; no tree with a table survives the round trip.
* `C64_metrics_violated` (`Props/Training.lean`): **C64 is violated** for metrics: stages of the same class have the same name by default, and all metrics but those of the last one are lost.
* `C64_samples_violated` (`Props/Training.lean`): **C64 is violated** in so far as a failed training with samples leaves some stages trained and others not.
* `C64_twice_violated` (`Props/Training.lean`): **C64 is violated** if training does not complete: a stage that is used twice is trained twice.
* `C65_table_json_violated` (`Props/Refs.lean`): violated: reading back the JSON of a schema-qualified table loses the schema.
* `C66_quote_violated` (`Props/Refs.lean`): violated: a double quote inside an identifier is not escaped; the result is no SQL token.
* `C67_hash_violated` (`Props/Dicts.lean`): violated: equal frozen dictionaries can be hashed from different tuples (insertion order).
* `C69_str_violated` (`Props/Version.lean`): violated: the textual (and JSON) form of a version is rejected by the constructor, for every version.
* `C71_no_early_stopping_violated` (`Props/Walk.lean`): violated: children of a node that fails the condition are not explored (the documentation promises that they are), however many iterations are made.
* `C71_once_violated` (`Props/Walk.lean`): violated: a node of a triangle is yielded twice.
* `C72_direction_violated` (`Props/Hints.lean`): violated: the join direction is lost.
* `C72_workers_violated` (`Props/Hints.lean`): violated: worker counts are lost.
* `C73_scan_violated` (`Props/Hints.lean`): violated: the worker count given for a scanned table is ignored.
* `C74_refl_violated` (`Props/Hints.lean`): violated: a scan assignment without worker count is not even equal to itself.
* `C75_logical_violated` (`Props/JoinTree.lean`): violated: extending a logical join tree, or updating its annotation, yields a tree of the other class, which is never equal to the corresponding logical join tree.
* `C77_exact_violated` (`Props/PlanOps.lean`): violated: an estimate of 10 for 11 actual rows is reported as perfect although the q-error is 12/11.
* `C78_ignoreNan_violated` (`Props/PlanOps.lean`): violated: `ignore_nan=False` asks to take over unknown actual cardinalities as well, but the old estimates stay, in every node of every plan; the flag has no effect.
* `C78_scaleHits_violated` (`Props/PlanOps.lean`): violated: scaling the actual cardinality drops the cache counters of the node.
* `C78_scaleSubplan_violated` (`Props/PlanOps.lean`): violated: scaling a single node (`recursive=False`) also scales the root of its subplan.
* `C81_aux_violated` (`Props/PlanOps.lean`): violated: the shape tests fail for every plan with an auxiliary root with a single input.
* `C81_linear_violated` (`Props/PlanOps.lean`): violated: joining the result of a bushy plan with one more table gives a plan that `is_linear` and `is_left_deep` accept and that `is_bushy` rejects. Only the root is inspected.
* `C82_columns_violated` (`Props/Expr.lean`): **C82 is violated.** The result of a CASE branch, a PARTITION BY column and the third operand of an arithmetic expression occur in the expression, but `columns()` and `tables()` do not report them.
* `C83_collector_violated` (`Props/Expr.lean`): **C83 is violated.** A column in the FILTER condition of an aggregate, and one in the result of a CASE branch, are not found by a collector for columns.
* `C86_merge_aliases_violated` (`Props/EquivClasses.lean`): **C86 is violated for merged aliases.** `join_graph(merge_aliases=True)` of `t1.x = t2.y` contains the columns `t1.x` and `t2.y` as nodes and does not connect the tables: the graph of a connected query is not connected.
* `C87_required_tables_violated` (`Props/EquivClasses.lean`): **C87 is violated** for CASE: `CASE WHEN ... THEN t2.y END = 1`-style predicates do not require the tables of their branches.
* `C88_joins_between_violated` (`Props/QueryPreds.lean`): **C88 is violated.** For the query predicate `t1.x = t2.y + t3.z`, `joins_between(t1, t2)` is None, although the predicate joins `t1` and `t2` (the documentation announces that predicates with further tables are included). The `legacy` strategy does return it.
* `C89_violated` (`Props/TransformPreds.lean`): **C89 is violated.** A query over a single table without any condition is rejected.
* `C90_rebuild_violated` (`Props/Clauses.lean`): **C90 is violated.** An explicit query without FROM clause becomes an implicit query.
* `C90_sets_violated` (`Props/Clauses.lean`): **C90** (violated): of a UNION and an EXCEPT clause only the UNION is used, without an error.
* `C93_generate_violated` (`Props/Workload.lean`): **C93 is violated** if a query occurs twice: only one of its positions remains, the other label does not exist.
* `C94_nested_violated` (`Props/Workload.lean`): **C94 is violated**: the prefixes are not used, so files with the same name in different subdirectories overwrite each other.
* `C95_ensure_violated` (`Props/Validation.lean`): **C95 is violated** for set queries: no failure ever raises.
* `C95_merge_violated` (`Props/Validation.lean`): **C95 is violated** if a failed result has an empty list of reasons: the failure is lost.
* `C96_inner_join_violated` (`Props/Validation.lean`): **C96 is violated**: the check accepts no query with an explicit join that it looks at, not even with inner joins only.
* `C96_nested_violated` (`Props/Validation.lean`): **C96 is violated** in the other direction, too: subqueries with implicit FROM clauses are accepted whatever outer joins their own subqueries contain.
* `C97_excluded_violated` (`Props/Enumerate.lean`): **C97 is violated** if scans or joins are excluded: no assignment is produced at all.
* `C98_bound_single_violated` (`Props/Enumerate.lean`): **C98 is violated**: the upper bound on the number of plans is zero for queries over a single table, although there are as many plans as scan operators.
* `C98_bound_violated` (`Props/Enumerate.lean`): **C98 is violated**: for a chain of three tables with the default number of operators the bound is smaller than the number of join orders times the number of their operator assignments.
* `C98_plans_violated` (`Props/Enumerate.lean`): **C98 is violated**: as soon as a join order has an operator assignment, enumerating the plans of a query raises without yielding a plan.
* `C99_merge_violated` (`Props/PgDynProg.lean`): **C99 is violated.** No merge join is ever created, whatever the join keys are: either the attempt yields nothing or it raises an exception.
* `C99_not_transitive_violated` (`Props/PgDynProg.lean`): **C99: compatibility is not transitive**, so that "the same sorting" is not an equivalence.
* `C99_plain_violated` (`Props/PgDynProg.lean`): For a plain join predicate, nothing is created.
* `C99_sorted_violated` (`Props/PgDynProg.lean`): **C99: a sorted path is never recognized**: a path that is sorted by column `c` is not compatible with column `c`.
* `C101_rows_violated` (`Props/Stats.lean`): **C101**, violated: the rows after the last complete bucket are lost. Of five rows, the histogram knows four, and its upper bound is smaller than the largest value.
* `C102_order_violated` (`Props/Stats.lean`): **C102**, violated: the catalog lists the most common values by descending frequency. The bounds of the histogram are then no longer ascending, and the estimate at 3 counts the bucket up to 8.
* `C102_rows_violated` (`Props/Stats.lean`): **C102**, violated: the rows of the most common values are counted twice. If the number of rows is a multiple of the number of catalog bounds, the histogram claims as many additional rows as there are rows with common values.
* `C102_zero_violated` (`Props/Stats.lean`): **C102**, violated: the value 0 is never used as lower bound, and a single bound 0 raises an exception.
* `C103_cross_violated` (`Props/JoinGraphIndex.lean`): **C103** (violated by cross products): no index is invalidated if the new table is not joined with the others.
* `C103_n_m_violated` (`Props/JoinGraphIndex.lean`): **C103** (violated by n:m joins): the primary key index of a table remains valid after an n:m join with a second table, although the join repeats the rows of the first table.
* `C103_pk_pk_violated` (`Props/JoinGraphIndex.lean`): **C103** (violated by joins of two primary keys): both keys remain valid after such a join. If a foreign key is then joined with one of them, the other one remains valid although its values are repeated.
* `C104_composite_violated` (`Props/Ues.lean`): **C104** (violated): the default optimizer also gives up if a foreign key join has another join condition.
* `C104_cross_product_violated` (`Props/Ues.lean`): **C104** (violated): a query with a cross product is only optimized if each component has at least two tables.
* `C104_default_gives_up_violated` (`Props/Ues.lean`): **C104** (violated): for `t1.x = t2.y AND t3.a = t1.id`, the default optimizer gives up: after the n:m join of the first two tables, only a primary key/foreign key join is left, but the loop only considers n:m joins.
* `C104_default_twice_violated` (`Props/Ues.lean`): **C104** (violated): a table that is referenced on two paths of foreign keys is scanned twice.
* `C104_eager_cross_violated` (`Props/Ues.lean`): **C104** (violated): with eager primary key joins, a subquery can contain a cross product: `t2` and `t4` are only connected through `t3`, which is not part of the subquery.
* `C106_duplicate_violated` (`Props/Intermediates.lean`): **C106 is violated** for tables that are empty at first, too: the file contains the estimate twice, and after it has been read again the estimate raises an error.
* `C106_missing_violated` (`Props/Intermediates.lean`): **C106 is violated**: a missing cardinality raises no error even if errors are requested; the estimate is unknown.
* `C106_reload_violated` (`Props/Intermediates.lean`): **C106 is violated**: once a fallback estimate was added to a table that has been read from a file, the file cannot be read any more.
* `C106_saved_violated` (`Props/Intermediates.lean`): **C106 is violated**: fallback estimates that have been saved are not found. The same estimate is requested from the database again, and is added to the table again.
* `C107_cache_violated` (`Props/Intermediates.lean`): **C107 is violated**: the cache is used even if it is not enabled, so that estimates do not follow changes of the data.
* `C108_failed_violated` (`Props/Bench.lean`): **C108 is violated**: rows of failed executions are part of the result, but not of the progressive output.
* `C108_ignore_violated` (`Props/Bench.lean`): **C108 is violated**: if an execution fails and is ignored after one that completed, the row of the latter is written again, and the callback is called with it again.
* `C108_timeout_violated` (`Props/Bench.lean`): **C108 is violated**: if a query times out while the pipeline learns from executions, the benchmark ends with an `AssertionError`.
* `C109_alias_violated` (`Props/Tonic.lean`): the joins of a query whose tables have aliases never receive a recommendation, whatever has been learned and whatever the join order is: the recommendations are for the tables without their aliases, which the query does not contain.
* `C109_bushy_violated` (`Props/Tonic.lean`): the costs of bushy joins whose inputs differ in their depth are learned for the shallower input, but recommendations look for the deeper one: they are not found, neither are those of the joins of the shallower input.
* `C109_depth_violated` (`Props/Tonic.lean`): if the scan is deeper than the joins it is joined with, the joins below are not learned, and the topmost join is learned at the wrong place.
* `C109_outer_base_violated` (`Props/Tonic.lean`): if a base table is the outer input of a join with a base join, the costs that were learned for it are not found again.
* `C109_outer_violated` (`Props/Tonic.lean`): recommending operators raises for each join order in which a base table is the outer input of a join whose inner input is not a base join.
* `C109_self_join_violated` (`Props/Tonic.lean`): recommending operators for a join order that starts with a self-join raises as soon as two operators are known for it.
* `C109_topmost_violated` (`Props/Tonic.lean`): the topmost join of a left-deep join order never receives a recommendation, whatever has been learned.
* `C109_unknown_violated` (`Props/Tonic.lean`): the detection of unknown costs raises for each left-deep join order with at least three tables.
* `C110_difference_of_difference_violated` (`Props/Print.lean`): **C110 violated**: `a - (b - c)` is printed as `a - b - c`, which means `(a - b) - c`. The same holds for divisions.
* `C110_double_negation_violated` (`Props/Print.lean`): **C110 violated**: the double negation of any expression whose text does not start with a hyphen, and the negation of a negative number, start a comment.
* `C110_negated_conjunction_violated` (`Props/Print.lean`): **C110 violated**: `NOT (a AND b)` is printed as `NOT a AND b`, which means `(NOT a) AND b`.
* `C110_negated_sum_violated` (`Props/Print.lean`): **C110 violated**: `-(a + b)` is printed as `-a + b`.
* `C110_product_of_modulo_violated` (`Props/Print.lean`): **C110 violated**: `a * (b % c)` is printed as `a * b % c`, which means `(a * b) % c`.
* `C110_product_of_sum_violated` (`Props/Print.lean`): **C110 violated**: `(a + b) * c` is printed as `a + b * c`, which means `a + (b * c)`. The same holds for `(a + b) % c` and `(a - b) / c`.
* `C110_unary_violated` (`Props/Print.lean`): **C110 violated**: a unary predicate with an operator other than EXISTS is not printed as SQL.
* `C111_distinct_on_violated` (`Props/Query.lean`): **C111 is violated.** `SELECT DISTINCT ON (T2.b) T1.a FROM T1` does not report T2 (nor T2.b).
* `C111_join_condition_violated` (`Props/Query.lean`): **C111 is violated.** A subquery in a join condition is ignored: `SELECT * FROM T1 JOIN T2 ON EXISTS (SELECT T3.c FROM T3 WHERE T3.c = T1.a)` does not report T3.
* `C111_set_with_violated` (`Props/Query.lean`): **C111 is violated.** The WITH clause of a set query is ignored: for `WITH T9 AS (SELECT T2.b FROM T2) SELECT T9.b FROM T9 UNION SELECT T1.a FROM T1` neither T2 nor its column is reported, although `itercolumns()` lists the column.
* `C111_unnamed_violated` (`Props/Query.lean`): **C111 is violated.** A function in the FROM clause that has no name hides its tables: `SELECT * FROM generate_series(T2.b)`. And a FROM subquery without a name makes `tables()` contain `None`.
* `C112_join_violated` (`Props/Query.lean`): **C112 is violated.** Whenever the FROM clause contains a join (JOIN syntax), `subqueries()` raises an exception.
* `C112_overlooked_violated` (`Props/Query.lean`): **C112 is violated.** Subqueries in DISTINCT ON, in the arguments of a function in the FROM clause and in a VALUES list are not returned.
* `C113_exceptions_violated` (`Props/Query.lean`): **C113 is violated.** Whenever the FROM clause contains a join, a VALUES list or a function, or is missing, `bound_tables()`, `unbound_tables()` and `is_dependent()` raise an exception.
* `C113_from_subquery_violated` (`Props/Query.lean`): **C113 is violated.** A query with a named FROM subquery is reported as dependent by `is_dependent()`, no matter what it refers to (unless another FROM clause lists a table of that name).
* `C113_nested_derived_violated` (`Props/Query.lean`): **C113 is violated.** The name of a FROM subquery inside of a subquery is reported as unbound: T9 in `SELECT T1.a FROM T1 WHERE EXISTS (SELECT T9.b FROM (SELECT T2.b FROM T2) AS T9)`.
* `C113_shadowed_violated` (`Props/Query.lean`): **C113 is violated.** If a subquery lists the table in its own FROM clause, the outer reference is overlooked: T2 in `SELECT T1.a FROM T1 WHERE T1.a = T2.b AND EXISTS (SELECT T2.b FROM T2)`.
* `C113_with_violated` (`Props/Query.lean`): **C113 is violated.** An outer reference in a WITH query is overlooked: T1 in `WITH T9 AS (SELECT T3.c FROM T3 WHERE T3.c = T1.a) SELECT T9.c FROM T9`.
* `C114_cross_product_violated` (`Props/Query.lean`): **C114 is violated.** `contains_cross_product()` raises an exception for every query with a FROM clause.
* `C114_exceptions_violated` (`Props/Query.lean`): **C114 is violated.** `predicates()` raises an exception for every query without FROM clause, and for every query with a WITH query or FROM subquery whose own `predicates()` raises one. That is the case for all set queries.
* `C115_star_violated` (`Props/Query.lean`): **C115 is violated.** Stars contribute no column: `SELECT T1.*, T2.b FROM T1, T2` is said to have the single column `b`.
* `C116_hash_violated` (`Props/EqHash.lean`): Equal queries with different hash values, for every other part of the query: the values of an IN predicate in a different order, an EXPLAIN clause whose format is empty or missing, another FETCH direction, a LATERAL subquery, a table instead of a string as the name of a WITH query.
* `C116_set_clause_violated` (`Props/EqHash.lean`): Comparing two EXCEPT clauses, or two INTERSECT clauses, always raises an exception, even for the same clause.
* `C116_symm_violated` (`Props/EqHash.lean`): Whether two queries are equal depends on the order of the operands: a query of the base class equals a query of a derived class with the same clauses, but not the other way round. The same holds for FROM clauses.
* `C117_class_violated` (`Props/EqHash.lean`): A query of the base class is not rebuilt: the class changes, and the result is not equal to the query.
* `C117_two_operations_violated` (`Props/EqHash.lean`): If there are two set operations, all but one of them are ignored: the EXCEPT clause and its queries get lost.
* `C118_mysql_violated` (`Props/DbHints.lean`): violated: MySQL accepts right-deep join orders, but hints them like the left-deep order of the same tables.
* `C119_index_scan_violated` (`Props/DbHints.lean`): violated: an index scan is hinted as an index-only scan, and no generated block contains an index scan.
* `C119_lab_violated` (`Props/DbHints.lean`): violated: if two scans have more than one worker, the operator of the second one is lost.
* `C120_intermediate_violated` (`Props/DbHints.lean`): violated: the worker count of an intermediate of several tables is hinted as one line over all of these tables, although pg_hint_plan accepts parallel workers for single tables only.
* `C120_joins_violated` (`Props/DbHints.lean`): violated: without parallel scans, every join with more than one worker produces a line for each of its tables, so a single join of two tables already leads to two lines.
* `C120_lab_scan_violated` (`Props/DbHints.lean`): violated: the number of workers for a single table does not change the block of pg_lab.
* `C120_plan_violated` (`Props/DbHints.lean`): violated: the workers of a gather node go to the next node of the breadth-first traversal, which need not be below the gather node: here the workers for the scan of table 0 are hinted for the scan of table 1.
* `C122_mysql_violated` (`Props/DbHints.lean`): violated: without join order and operators, the settings for MySQL are dropped silently.
* `C124_wrap_all_violated` (`Props/SimpleView.lean`): **C124 (violated).** Predicates that cannot be represented should be ignored by `wrap_all`. It raises an `AssertionError` as soon as a filter (found before any other error) compares static values only, such as `1 = 2`; the view itself raises the same error instead of the documented `ValueError`.
* `C125_cast_violated` (`Props/SimpleView.lean`): **C125 (violated).** Casts are dropped: the filters `CAST(R.a AS t) op v` and `R.a op CAST(v AS t)` are represented like `R.a op v`, whatever the cast does.
* `C125_columns_violated` (`Props/SimpleView.lean`): **C125 (violated).** The filter `R.a = R.b` has a view that reports the column `R.a` only.
* `C125_swapped_violated` (`Props/SimpleView.lean`): **C125 (violated).** The filter `v op column` is represented like `column op v`: for `5 < R.a` the view says `R.a < 5`. If the two comparisons differ for some values, the view is wrong on some row.
* `C126_can_wrap_violated` (`Props/SimpleView.lean`): **C126 (violated).** `can_wrap` raises a `ValueError` instead of returning `False` for an equi join with a computed operand, for example for `f(R.a) = S.b`.
* `C126_partners_violated` (`Props/SimpleView.lean`): **C126 (violated).** Otherwise the join partners differ: the predicate orders the two columns, the view does not. For `S.b = R.a` the predicate reports `(R.a, S.b)` and its view `(S.b, R.a)`.
* `C127_in_violated` (`Props/SimpleView.lean`): **C127 (violated).** The views of `R.a IN (1, 2)` and `R.a IN (2, 1)` are equal, since the predicates are, but they have different hash values (different tuples are hashed) and different values.
* `C127_predicate_violated` (`Props/SimpleView.lean`): **C127 (violated).** A filter view compares equal to the predicate it represents, but not the other way around, and the two have different hash values: an equality that is neither symmetric nor consistent with the hash values.
* `C128_star_violated` (`Props/SimpleView.lean`): **C128 (violated).** The comparison with the string `'*'` becomes the comparison with the star expression, which cannot be represented by a view.
* `C129_all_simple_violated` (`Props/SimpleView.lean`): **C129 (violated).** See `C129_simplify_violated`.
* `C129_simplify_violated` (`Props/SimpleView.lean`): **C129 (violated).** `simplify` raises an `AssertionError` if there is a filter such as `1 = 2`, and `all_simple` raises a `ValueError` instead of returning `False` if there is an equi join with a computed first operand (and all filters and the joins before it are simple).
* `C130_distinct_violated` (`Props/QTransform.lean`): **C130 is violated.** The columns of DISTINCT ON are never renamed: renaming `t1.x` in `SELECT DISTINCT ON (t1.x) t1.x FROM t1` yields `SELECT DISTINCT ON (t1.x) t1.y FROM t1`.
* `C130_set_violated` (`Props/QTransform.lean`): **C130 is violated.** Columns of set queries cannot be renamed at all.
* `C130_values_violated` (`Props/QTransform.lean`): **C130 is violated.** VALUES lists vanish from the WITH clause if none of their columns is renamed, in particular if nothing is renamed at all; if the clause contains only such lists, the renaming fails. Of several renamings of columns of a VALUES list only the last one is effective.
* `C131_chain_violated` (`Props/QTransform.lean`): **C131 is violated.** Renaming `t1` to `t2` and `t2` to `t3` at once loses a table: of `FROM t1, t2` only `FROM t2` remains.
* `C131_dict_violated` (`Props/QTransform.lean`): **C131 is violated.** Given as a dictionary, the renaming of `t1` to `t3` in `SELECT t1.x FROM t1, t2 WHERE t1.x = t2.x` removes the table of the columns: the result is `SELECT x FROM t3, t2 WHERE x = t2.x`.
* `C131_order_violated` (`Props/QTransform.lean`): **C131 is violated.** Tables cannot be renamed in queries with an ORDER BY clause.
* `C132_join_violated` (`Props/QTransform.lean`): **C132 is violated.** Merging tables of an explicit FROM clause raises an error once the target is part of it: merging `t1` and `t2` into `t3` fails for `SELECT * FROM t1 JOIN t2 ON t1.x = t2.x`.
* `C133_distinct_violated` (`Props/QTransform.lean`): **C133 is violated.** The expressions of DISTINCT ON are never replaced.
* `C133_values_violated` (`Props/QTransform.lean`): **C133 is violated.** A query with a VALUES list without name in its FROM clause cannot be processed.
* `C134_select_violated` (`Props/QTransform.lean`): **C134 is violated.** A target is kept only if it uses all given tables: the fragment of the example for `t1` and `t2` has the projection `*` instead of `t1.x`. `t3.*` however is kept although `t3` is not among the given tables. DISTINCT ON becomes DISTINCT.
* `C134_set_violated` (`Props/QTransform.lean`): **C134 is violated.** For set queries the requested projection is ignored, and a set query of which one side does not contain all tables raises an error.
* `C134_subquery_violated` (`Props/QTransform.lean`): **C134 is violated.** The tables of subqueries become part of the FROM clause, whose rows are multiplied thereby: `SELECT * FROM t1 WHERE t1.x IN (SELECT t2.y FROM t2)` becomes `SELECT * FROM t1, t2 WHERE t1.x IN (SELECT t2.y FROM t2)`.
* `C136_subplans_violated` (`Props/PgExplain.lean`): , violation: of several subplans of a node only the last one is part of the plan, whatever the others are: the plan is the same as if they had not been there.
* `C136_target_violated` (`Props/PgExplain.lean`): , violation: no subplan of a plan knows the name of the CTE or init plan it computes: the name never becomes the target name of the subplan.
* `C137_hash_violated` (`Props/PgExplain.lean`): , violation: nodes that differ only in their filter condition are equal and have different hashes.
* `C138_equal_violated` (`Props/PgExplain.lean`): , violation: if the inner child comes first and both children are equal (equality ignores everything but types, relations and aliases), the outer child is lost and the inner one is returned twice.
* `C138_subplan_violated` (`Props/PgExplain.lean`): , violation: a node with an inner and an outer child and a subplan fails.
* `C140_jaccard_violated` (`Props/PlanRead.lean`): , violation: two empty sets have no coefficient.
* `C141_joins_violated` (`Props/PlanRead.lean`): , violation: hash joins are the only joins of DuckDB that are recognised: nodes with any other label, like the nested-loop and merge joins that the hinting can ask for, never carry a join operator.
* `C142_unfiltered_violated` (`Props/PlanRead.lean`): , violation: a scan without filter of a relation that the query references several times is never bound to any of them, although the others may have been identified by their filters. (The texts of missing filters are not empty: they read "None".)
* `C143_lookup_violated` (`Props/PlanRead.lean`): , violation: if a table is referenced both without and with an alias, and the aliased reference comes last, the unaliased name is resolved to the aliased reference.
* `C144_block_violated` (`Props/PlanRead.lean`): , violation: a materialized subquery in the form that MySQL uses, with its operators inside of a query block, cannot be read at all.
* `C144_empty_entry_violated` (`Props/PlanRead.lean`): , violation: a join with an empty entry that is not the last one cannot be read, even if all other entries can.
* `C144_list_violated` (`Props/PlanRead.lean`): , violation: a block whose first operator entry is a list, like the subqueries of a union or of the select list, cannot be read.
* `C144_materialized_violated` (`Props/PlanRead.lean`): , violation: the plan of a materialized subquery is not part of the plan, even if it can be read.
* `C144_rest_violated` (`Props/PlanRead.lean`): , violation: everything after the first operator of a block is ignored (for example, the subqueries of the select list).
* `C144_wrapped_list_violated` (`Props/PlanRead.lean`): , violation: a grouping, ordering or other operation above such a block cannot be read either.
* `C145_zero_violated` (`Props/PlanRead.lean`): , violation: an estimate of zero rows is reported as unknown, and so are costs of zero.
* `C146_cross_violated` (`Props/Randomized.lean`): , violation: cross products are only recognised among the tables of the join graph, which are the tables of the predicates (C86). If only one table occurs in the predicates, join orders are yielded that lack all other tables of the query; if there are no predicates, nothing is yielded.
* `C148_single_violated` (`Props/Randomized.lean`): , violation: for a single table, the same join order is yielded again and again, although duplicates should be eliminated.
* `C149_empty_violated` (`Props/Randomized.lean`): , violation: if no operator can be used (for example, because the database supports none of the requested ones), the generation fails for every join order with a join resp. a table.
* `C149_noorder_violated` (`Props/Randomized.lean`): , violation: without a join order (which pipelines may pass), no operators can be generated.
* `C149_plans_violated` (`Props/Randomized.lean`): , violation: random plans cannot be generated at all: the operators are passed to `to_query_plan` as a positional argument, which it does not accept.
* `C150_constant_violated` (`Props/Relalg.lean`): **C150 (violated).** A condition without tables is dropped if the rest of the WHERE clause mentions a single table: the query has no rows in this database, its tree has two.
* `C150_distinct_violated` (`Props/Relalg.lean`): **C150 (violated).** DISTINCT has no effect: the tree is the same with and without it, hence its output can contain duplicates.
* `C150_limit_violated` (`Props/Relalg.lean`): **C150 (violated).** LIMIT has no effect: the tree is the same with and without it, hence its output can have more rows.
* `C151_group_violated` (`Props/Relalg.lean`): **C151 (violated).** The expressions of GROUP BY are not computed: the input of the grouping of `SELECT COUNT(*) FROM R GROUP BY R.a + 1` only provides `R.a`.
* `C151_sort_violated` (`Props/Relalg.lean`): **C151 (violated).** The expressions of ORDER BY are not computed: the input of the sort of `SELECT R.a FROM R ORDER BY R.a + 1` only provides `R.a`.
* `C152_having_violated` (`Props/Relalg.lean`): **C152 (violated).** A HAVING clause that mentions exactly one table has no effect: the tree computes the rows of the query without the condition.
* `C153_order_violated` (`Props/Relalg.lean`): **C153 (violated).** Whether a query is translated depends on the iteration order of a set.
* `C154_in_violated` (`Props/Relalg.lean`): **C154 (violated).** An IN predicate with values and a subquery requires both: a row must be equal to one of the values and to one of the rows of the subquery.
* `C154_or_duplicates_violated` (`Props/Relalg.lean`): **C154 (violated).** A row that satisfies both parts of an OR is returned twice if one of them contains a subquery.
* `C154_or_violated` (`Props/Relalg.lean`): **C154 (violated).** An OR all of whose parts contain subqueries does not filter anything: all rows of the input are in the result.
* `C155_union_violated` (`Props/Relalg.lean`): **C155 (violated).** In the tree of a set query, the second part contains a cross product with the tables of the first part: if `R` is empty, `SELECT R.a FROM R UNION ALL SELECT S.a FROM S` has no rows, although `S` has some.
* `C156_alias_violated` (`Props/Namespace.lean`): in `SELECT a AS b FROM R WHERE b = 1` the column `b` of the WHERE clause stays without table because the SELECT clause has an alias with this name.
* `C156_ambiguous_violated` (`Props/Namespace.lean`): columns without qualifier are always taken from the first table that has them, although the statement is ambiguous in SQL and rejected by the database.
* `C156_column_aliases_violated` (`Props/Namespace.lean`): in `SELECT k FROM (SELECT a FROM R) AS v (k)` the column stays without table, and in `SELECT a FROM (SELECT a FROM R) AS v (k)`, which is not valid, it is found.
* `C156_correlated_selfjoin_violated` (`Props/Namespace.lean`): in `SELECT * FROM R WHERE EXISTS (SELECT * FROM R AS y WHERE y.a = R.b)` the correlated column `R.b` is taken from `y`.
* `C156_correlated_unqualified_violated` (`Props/Namespace.lean`): in `SELECT * FROM R WHERE EXISTS (SELECT * FROM S WHERE c = a)` the correlated column `a` stays without table.
* `C156_function_violated` (`Props/Namespace.lean`): columns of functions in the FROM clause cannot be referenced with the alias of the function: the parser fails for any statement of the form `SELECT f.c FROM f(…) AS f`.
* `C156_renamed_cte_violated` (`Props/Namespace.lean`): in `WITH w AS (SELECT a FROM R) SELECT a FROM w AS v` the column stays without table.
* `C156_selfjoin_violated` (`Props/Namespace.lean`): in `SELECT R.a FROM R, R AS y` the column is taken from `y`.
* `C156_shadowing_cte_violated` (`Props/Namespace.lean`): in `WITH R AS (SELECT R.a FROM R) SELECT a FROM R` the table in the definition of the WITH query is taken for the WITH query itself.
* `C156_subquery_name_violated` (`Props/Namespace.lean`): in `SELECT * FROM (SELECT a FROM R) AS S, (SELECT c FROM S) AS v` the table of the second subquery is taken for the first subquery, and `c` stays without table.
* `C158_changed_table_violated` (`Props/Namespace.lean`): schemas are equal if they belong to the same database connection. If a table changes between two statements (`s` and `s'` describe the same connection before and after), the answers are the old columns.
* `C159_aggregate_order_violated` (`Props/ParseExpr.lean`): **C159 is false in general**: the order of the rows for an aggregate is not part of the result, so `string_agg(x, ',' ORDER BY y)` becomes `string_agg(x, ',')`.
* `C159_bpchar_violated` (`Props/ParseExpr.lean`): **C159 is false in general**: a cast to `bpchar` without length becomes a cast to `char`, that is to `char(1)`; PostgreSQL also uses `bpchar` without length for comparisons.
* `C159_interval_violated` (`Props/ParseExpr.lean`): **C159 is false in general**: `interval(3)` has the modifiers 32767 (all fields) and 3 in the syntax tree; the text of the result is `interval(32767, 3)`.
* `C159_quoted_function_violated` (`Props/ParseExpr.lean`): **C159 is false in general**: names of functions become upper-case, which loses the difference between quoted names.
* `C159_type_schema_violated` (`Props/ParseExpr.lean`): **C159 is false in general**: a type is translated without its schema.
* `C159_window_violated` (`Props/ParseExpr.lean`): **C159 is false in general**: for window functions, `*`, DISTINCT and the frame are not part of the result: `count(*) OVER (…)` becomes `count() OVER (…)`, and all frames become the default frame.
* `C161_aliases_violated` (`Props/ParseStmt.lean`): **C161 is false in general**: column aliases and ONLY have no influence on the result, likewise WITH ORDINALITY and all but the first function of ROWS FROM.
* `C161_all_violated` (`Props/ParseStmt.lean`): **C161 is false in general**: INTERSECT ALL and EXCEPT ALL become INTERSECT and EXCEPT.
* `C161_join_violated` (`Props/ParseStmt.lean`): **C161 is false in general**: USING, NATURAL and the alias of a join have no influence on the result. So an inner join with USING and a natural join become cross joins.
* `C161_limit_zero_violated` (`Props/ParseStmt.lean`): **C161 is false in general**: LIMIT 0 is not accepted, and LIMIT 0 OFFSET n becomes OFFSET n without limit.
* `C161_locking_violated` (`Props/ParseStmt.lean`): **C161 is false in general**: FOR UPDATE and FOR SHARE are dropped.
* `C161_ties_violated` (`Props/ParseStmt.lean`): **C161 is false in general**: `FETCH FIRST n ROWS WITH TIES` is dropped together with the OFFSET.
* `C161_values_violated` (`Props/ParseStmt.lean`): **C161 is false in general**: ORDER BY, LIMIT and OFFSET of VALUES have no influence on the result: `(VALUES (1), (2) LIMIT 1) AS v` has two rows after the translation.
* `C162_two_joins_violated` (`Props/ParseStmt.lean`): **C162 is false in general**: statements whose FROM clause consists of several joins, as in `FROM a JOIN b ON … , c JOIN d ON …`, are not accepted.
* `C164_after_set_violated` (`Props/ParseText.lean`): Line comments after a *SET* command are lost, although such block comments are kept.
* `C164_inner_violated` (`Props/ParseText.lean`): by hand \n SELECT 1".toList ∧ Starts "SELECT 1".toList ∧ ¬ ['/', '*'] <:+: "SELECT 1".toList := by refine ⟨?_, ⟨?_, by decide⟩, by decide⟩ · exact .comment " ".toList _ _ _ "-- by hand \n SELECT 1".toList (by simp [Blank]) (by simp only [Comment.Ok]; decide) (.comment [] _ _ _ " SELECT 1".toList (by simp [Blank]) (by simp only [Comment.Ok]; decide) (.done " ".toList _ (by simp [Blank]))) · rintro c t h cases h rw [← ws_iff]; decide theorem step_inner (p b rest : Txt) (hp : Starts p) (hp0 : p ≠ []) (hd : p ≠ ['-']) (h1 : ¬ ['/', '*'] <:+: p) (h2 : ¬ ['*', '/'] <:+: p ++ '/' :: '*' :: b) : hintComments (p ++ (Comment.block b).text ++ rest) = (hintComments rest).map ((Comment.block b).text :: ·) := by obtain ⟨c, p', rfl⟩ : ∃ c p', p = c :: p' := by cases p with | nil => exact absurd rfl hp0 | cons c p' => exact ⟨c, p', rfl⟩ have hl : lstrip ((c :: p') ++ (Comment.block b).text ++ rest) = (c :: p') ++ (Comment.block b).text ++ rest := by simp only [List.cons_append] exact lstrip_cons (hp.1 c p' rfl) have hdash : ¬ ['-', '-'] <+: (c :: p') ++ (Comment.block b).text ++ rest := by intro h apply hp.2 simp only [List.cons_append, List.cons_prefix_cons] at h ⊢ refine ⟨h.1, ?_⟩ cases p' with | nil => exact absurd (by rw [h.1]) hd | cons d p'' => have := h.2 simp only [List.cons_append, List.cons_prefix_cons] at this simp [← this.1] have ho : findSub ['/', '*'] ((c :: p') ++ (Comment.block b).text ++ rest) = some (c :: p').length := by have := find_pair (a := '/') (b := '*') (by decide) (c :: p') (b ++ ['*', '/'] ++ rest) h1 simpa [Comment.text] using this have hc : findSub ['*', '/'] ((c :: p') ++ (Comment.block b).text ++ rest) = some ((c :: p').length + b.length + 2) := by have := find_pair (a := '*') (b := '/') (by decide) ((c :: p') ++ '/' :: '*' :: b) rest h2 simp only [Comment.text] simp only [List.append_assoc, List.cons_append, List.nil_append] at this ⊢ rw [this] simp omega have hs : slice ((c :: p') ++ (Comment.block b).text ++ rest) (c :: p').length ((c :: p').length + b.length + 2 + 2) = (Comment.block b).text := by unfold slice rw [List.append_assoc, List.drop_left] have : (c :: p').length + b.length + 2 + 2 - (c :: p').length = (Comment.block b).text.length := by simp [Comment.text]; omega rw [this, List.take_left] have hst : strip (Comment.block b).text = (Comment.block b).text := by unfold strip rw [Comment.text, lstrip_cons not_blank_slash] have e1 : ('/' :: '*' :: (b ++ ['*', '/'])).reverse = '/' :: '*' :: ('/' :: '*' :: b).reverse := by simp rw [e1, List.dropWhile_cons_of_neg (by decide)] simp have hr : ((c :: p') ++ (Comment.block b).text ++ rest).drop ((c :: p').length + b.length + 2 + 2) = rest := by have : (c :: p').length + b.length + 2 + 2 = ((c :: p') ++ (Comment.block b).text).length := by simp [Comment.text]; omega rw [this, List.drop_left] unfold hintComments rw [hintLoop] simp only [hl, ho, hc, hs, hst, hr] rw [if_neg (by rw [List.isPrefixOf_iff_prefix]; exact hdash), hintLoop_acc] rw [fuel_enough rest _ _ (rest.length + 1) (by simp [Comment.text]; omega) (by simp)] simp /-- Comments are also taken from the inside of the query, and in particular from string constants: whatever precedes the first `/*`, the text up to the next `*/` becomes a hint.
* `C164_nested_violated` (`Props/ParseText.lean`): Block comments of Postgres can be nested, but the first `*/` ends the hint block; the hint block is then the beginning of a comment that is not closed.
* `C164_rejected_violated` (`Props/ParseText.lean`): Valid queries are rejected if `/*` occurs in a string constant (or in a line comment) and nothing closes it.
* `C164_slash_violated` (`Props/ParseText.lean`): The end of a comment is searched from its first character on: `/*/` counts as a complete comment.
* `C165_list_violated` (`Props/ParseText.lean`): Of several values (`SET search_path TO 'a', 'b'`) only the first one is kept.
* `C165_local_violated` (`Props/ParseText.lean`): `SET LOCAL` becomes `SET`: the command does not end with the transaction any more.
* `C165_no_hints_violated` (`Props/ParseText.lean`): Without hints, the *SET* commands are dropped as well.
* `C165_quotes_violated` (`Props/ParseText.lean`): Quotes in values are not doubled: the generated text is never the command that was parsed (it assigns another value, and the rest of the value is executed as SQL).
* `C165_rejected_violated` (`Props/ParseText.lean`): Values that are no strings (`SET work_mem TO 4096`) are rejected, as are `RESET` and `SET … TO DEFAULT`.
* `C166_analyze_false_violated` (`Props/ParseText.lean`): `EXPLAIN (ANALYZE false)` only shows the plan, but is parsed to a clause that executes the query — in every accepted list of options.
* `C167_bind_violated` (`Props/ParseText.lean`): A schema that is passed to the function is used even if live binding is switched off.
* `C167_set_query_violated` (`Props/ParseText.lean`): `accept_set_query=False` has no effect: set queries are returned, not rejected.
* `C168_names_violated` (`Props/Schema.lean`): Postgres only demands unique names of constraints for each table. If a foreign key of another table has the name of a primary key, the column that it references counts as a primary key.
* `C169_both_violated` (`Props/Schema.lean`): If a column belongs to the primary key *and* to a secondary index, one of the two answers is wrong, whatever the order of the indexes is.
* `C169_constraints_violated` (`Props/Schema.lean`): The generic interface does not know indexes that do not belong to constraints, and takes foreign keys for indexes.
* `C170_composite_violated` (`Props/Schema.lean`): Every column of a composite foreign key is reported to reference *all* of the referenced columns.
* `C170_duckdb_violated` (`Props/Schema.lean`): On DuckDB, composite foreign keys are not found at all.
* `C170_generic_violated` (`Props/Schema.lean`): The generic interface uses the wrong columns of its result: what it returns is the name of the referenced *table* as the name of the column, and the name of the *schema* as the name of the table.
* `C170_names_violated` (`Props/Schema.lean`): A foreign key of table `r` and one of table `s` with the same name (which Postgres permits) are mixed up: a column of `r` is reported to reference the target of the column of `s`.
* `C170_schema_violated` (`Props/Schema.lean`): Foreign keys into another schema are not found.
* `C171_cache_violated` (`Props/Schema.lean`): After the first non-empty answer, the arguments are ignored: all later answers are the same, for any schema.
* `C172_view_violated` (`Props/Schema.lean`): The schema of the reference is ignored: a table of another schema decides whether the table is a view.
* `C173_generic_violated` (`Props/Schema.lean`): The generic interface never finds the table of a column that is not bound to a table yet.
* `C173_order_violated` (`Props/Schema.lean`): With more than five candidates, the answer depends on the order of a set, which is not the order of the candidates.
* `C174_composite_violated` (`Props/Schema.lean`): A single table with a composite primary key prevents the schema graph (`hu`: tables have at most one primary key).
* `C176_duckdb_default_violated` (`Props/QueryExec.lean`): On DuckDB, the cache is not used unless it is requested in each call, even if it has been enabled for the connection.
* `C176_reset_violated` (`Props/QueryExec.lean`): The entries of the file come back after a reset of the cache: as soon as another result has been cached, results of the file are returned without asking the server.
* `C176_stale_violated` (`Props/QueryExec.lean`): After the data has been changed, the cached result of the old data is returned.
* `C176_update_violated` (`Props/QueryExec.lean`): A command whose result is in the cache is not executed again, although it changes the data.
* `C177_array_violated` (`Props/QueryExec.lean`): A single array cannot be told from a column of its elements, and an empty array not from an empty result.
* `C177_loaded_violated` (`Props/QueryExec.lean`): A single row that has been loaded from the cache file cannot be told from a column.
* `C178_duckdb_violated` (`Props/QueryExec.lean`): On DuckDB, the preparatory statements are executed character by character: if the first character is no command, the query is not executed at all.
* `C178_leak_violated` (`Props/QueryExec.lean`): *SET* commands of a query are in force for all later queries.
* `C178_local_violated` (`Props/QueryExec.lean`): The settings of the hints that PostBOUND generates have no effect: they are *SET LOCAL* commands, which end with their own transaction.
* `C179_decimal_violated` (`Props/QueryExec.lean`): A single value that JSON does not know, e.g. a decimal number, destroys the whole cache.
* `C179_dict_violated` (`Props/QueryExec.lean`): JSON values with a key `$date` become dates, or make it impossible to connect to the database with the cache.
* `C179_tuple_violated` (`Props/QueryExec.lean`): Rows are not the same after they have been read again.
* `C180_update_violated` (`Props/QueryExec.lean`): Commands that count rows but do not return any, e.g. *UPDATE*, are executed, but an error is reported.
* `C181_cached_violated` (`Props/Executors.lean`): With a timeout, cached results are not simplified.
* `C181_command_violated` (`Props/Executors.lean`): With a timeout, commands without a result raise an error after they have been executed; without a timeout they do not.
* `C181_killed_violated` (`Props/Executors.lean`): If the worker is killed before it has started the query, or after the query has been finished, the call never returns; if it is killed in between, this is reported as a timeout.
* `C181_late_violated` (`Props/Executors.lean`): A timeout does not mean that the query had no effect: it may have been committed before it is cancelled.
* `C182_callback_violated` (`Props/Executors.lean`): The callback gets pairs of the query and its rows instead of the rows.
* `C182_error_violated` (`Props/Executors.lean`): If the query that is completed first fails, all other results are lost.
* `C182_twice_violated` (`Props/Executors.lean`): If the queue is drained again after more queries have been queued, the callback is called again for the old queries.
* `C183_cross_violated` (`Props/QueryGen.lean`): violated (cross products): with a table that is unrelated to the others the generator yields a query that is no connected join.
* `C183_unrelated_violated` (`Props/QueryGen.lean`): violated (unrelated tables): if there are no foreign keys, the generator never yields a query with several tables; it fails or does not stop.
* `C184_error_violated` (`Props/QueryGen.lean`): violated (one table, one filter): the generator ends with an error.
* `C184_lost_violated` (`Props/QueryGen.lean`): violated (lost filters): at least one filter is asked for, but the query has none.
* `C184_null_violated` (`Props/QueryGen.lean`): violated (NULL): columns are compared with NULL, which no row satisfies.
* `C184_single_violated` (`Props/QueryGen.lean`): violated (one filter): no generated query has exactly one filter, although one filter is allowed by default: the single filter is replaced by the join predicates.
* `C185_exact_violated` (`Props/QueryGen.lean`): violated (fixed number of filters): if the least and the largest number of filters are the same, the generator never yields a query.
* `C185_no_columns_violated` (`Props/QueryGen.lean`): violated (no columns): if the tables have no columns that may be filtered, the generator never yields a query, although queries without filters are allowed.
* `C185_zero_violated` (`Props/QueryGen.lean`): violated (no filters): the largest number of filters zero is taken as "no limit".
* `C186_histogram_violated` (`Props/StatsIface.lean`): violated (histograms): even if the cache is disabled for a histogram, its number of rows is taken from the cache.
* `C186_null_violated` (`Props/StatsIface.lean`): violated (NULL): if some value is exactly as frequent as NULL, the list of all values cannot be computed.
* `C186_stale_violated` (`Props/StatsIface.lean`): violated (stale): with the default configuration a statistic is never updated, however the data changes.
* `C187_fresh_violated` (`Props/StatsIface.lean`): violated (before the first ANALYZE): the number of rows is reported as -1.
* `C187_perfect_violated` (`Props/StatsIface.lean`): violated (perfect numbers): `perfect_n_distinct` has no effect on the statistics that the call produces: the options are set after the columns have been analyzed.
* `C187_rounding_violated` (`Props/StatsIface.lean`): violated (rounding): of 29 different values among 100 rows, 28 are reported: the ratio 0.29 is stored as the floating point number below.
* `C187_sticky_violated` (`Props/StatsIface.lean`): violated (sticky options): once set, the perfect number is reported after each later update of the statistics, even if the data has changed since.
* `C188_mysql_violated` (`Props/StatsIface.lean`): violated: the statistics interface of MySQL, and so the MySQL interface, cannot be created, since the method for histograms is missing.
* `C189_like_violated` (`Props/Ceb.lean`): violated (LIKE): the pattern of a LIKE predicate is quoted twice and never a string literal.
* `C189_nested_violated` (`Props/Ceb.lean`): violated (values with placeholders): placeholders in values are replaced, too.
* `C189_quote_violated` (`Props/Ceb.lean`): violated (quotes): a text with a quote is never denoted by its literal.
* `C189_unqualified_violated` (`Props/Ceb.lean`): violated (columns without a table): if some alias does not have two characters, such a column makes the generation fail.
* `C190_min_violated` (`Props/Ceb.lean`): violated (minimum): if an IN predicate requires two or more values, no selection is ever accepted: the number of predicates is compared with the minimum instead of the number of values.
* `C190_uniform_violated` (`Props/Ceb.lean`): violated (uniform sampling for IN): the selected values can never be written into a query, if at least one is required.
* `C190_weights_violated` (`Props/Ceb.lean`): violated (weights): IN predicates with a weight column are always rejected.
* `C191_order_violated` (`Props/Ceb.lean`): violated (two dependencies): a predicate that depends on two others can be chosen before one of them, and the generation fails, whatever the database contains.
* `C191_refresh_violated` (`Props/Ceb.lean`): violated (drawing again): if a predicate has no candidates, the values it depends on are drawn again, but not those of the other predicates that depend on the same values.
* `C192_short_violated` (`Props/Ceb.lean`): violated (silent shortage): three queries are requested, two are returned without an error.
* `C192_titles_violated` (`Props/Ceb.lean`): violated (equal titles): the queries of one of the templates are lost.
* `C193_key_violated` (`Props/Analysis.lean`): If the values of the column are not unique, the cardinality is wrong: for one value that occurs `n` times (beside another one without partners) and one dimension table, it is the number of rows of the result multiplied by `n`.
* `C193_single_violated` (`Props/Analysis.lean`): If a single row of the fact table satisfies the filters, the cardinality cannot be computed.
* `C194_bottomup_violated` (`Props/Analysis.lean`): The bottom-up similarity cannot be computed for any two join trees.
* `C194_range_violated` (`Props/Analysis.lean`): The score is documented to be between 0 and 1. For the default reinforcement factor 1.1 (and every factor of at least one half), a join tree of at least two tables compared with itself has a score larger than 1.
* `C195_join_violated` (`Props/Analysis.lean`): The depths of the tables of a join cannot be computed.
* `C196_empty_violated` (`Props/Analysis.lean`): Nothing can be compared with an empty text on the left-hand side.
* `C196_lines_violated` (`Props/Analysis.lean`): The lines of the longer text that have no partner are lost: the result is the same without them.
* `C197_order_violated` (`Props/TrainData.lean`): The features are documented to have the order of the spec. They keep the order of the dataset, whatever the order of the spec is.
* `C198_renamed_violated` (`Props/TrainData.lean`): Features are documented to be renamed. If a feature is stored in a column with another name, the data frame has no column with the name of the feature.
* `C199_extra_violated` (`Props/TrainData.lean`): Datasets that all satisfy the spec cannot be merged if the first one provides a feature that the next one does not.
* `C199_renamed_violated` (`Props/TrainData.lean`): If a feature is stored in columns of different names, all values of the second dataset are missing in the merged dataset.
* `C200_extra_violated` (`Props/TrainData.lean`): If the first one of the datasets that satisfy the spec provides a feature that the next one does not, there is an error.
* `C200_single_violated` (`Props/TrainData.lean`): If a single dataset satisfies the spec, the retrieved dataset has its additional features, too.
* `C201_literal_violated` (`Props/Format.lean`): **C201 is violated.** The indentation of nested queries changes the literals that contain line breaks: the text has the literal `'a⏎ b'` instead of `'a⏎b'`.
* `C201_parentheses_violated` (`Props/Format.lean`): **C201 is violated.** A join whose both sides are joins is written without parentheses. `(a JOIN b) CROSS JOIN (c RIGHT JOIN d)` is written with the words of `((a JOIN b) CROSS JOIN c) RIGHT JOIN d`, which is a different query: it keeps the rows of `d` if `a` is empty. This holds for all tables and conditions.
* `C201_values_violated` (`Props/Format.lean`): **C201 is violated.** RECURSIVE and MATERIALIZED are not part of the text if the only query of the WITH clause is a list of values.
* `C201_zero_violated` (`Props/Format.lean`): **C201 is violated.** A limit of zero rows is not part of the text: the query is written as if it had no limit.
* `C202_explain_violated` (`Props/Format.lean`): **C202 is violated.** EXPLAIN is joined with the first word of a set query.
* `C202_glue_violated` (`Props/Format.lean`): **C202 is violated.** There is no space between the clauses of a set query: the table `s` and the ORDER BY clause are written as `sORDER BY`.
* `C202_join_violated` (`Props/Format.lean`): **C202 is violated.** A join on the right-hand side of a join is written without parentheses: `a CROSS JOIN (b RIGHT JOIN c)` has the text of `(a CROSS JOIN b) RIGHT JOIN c`, for all tables and conditions.
* `C202_set_violated` (`Props/Format.lean`): **C202 is violated.** The text of set operations has no parentheses: `r EXCEPT (s UNION t)` and `(r EXCEPT s) UNION t` have the same text.
* `C203_limit_violated` (`Props/Format.lean`): **C203 is violated.** With a limit, the formatted text differs from the plain text in more than its layout: the plain text starts with the offset, the formatted text with the limit, and a limit of zero rows is missing in the formatted text.
* `C204_intermediate_violated` (`Props/Native.lean`): **C204** (violated). Materializations and memoizations are never assigned a cost: if the call returns, the cost is infinite, whatever the database system, the query and the plan are.
* `C204_raise_violated` (`Props/Native.lean`): **C204** (violated). The flag for errors is ignored for materializations: a database system that refuses all requests leads to infinite costs instead of an error.
* `C204_sort_violated` (`Props/Native.lean`): **C204** (violated). No sort is ever assigned a cost: whatever the database system, the query and the plan are, the call raises an error, even if errors should not be raised.
* `C205_parameters_violated` (`Props/Native.lean`): **C205** (violated). The native parameterization never yields parameters, whatever the database system estimates.
* `C206_geqo_violated` (`Props/Native.lean`): **C206** (violated). The stages that do nothing disable the genetic optimizer of Postgres for queries with many tables.
* `C206_lab_violated` (`Props/Native.lean`): **C206** (violated). The stages that do nothing change the mode of pg_lab.
* `C207_items_violated` (`Props/PgConf.lean`): is violated for item assignments: afterwards, the configuration cannot be extended, updated or applied anymore.
* `C207_objects_violated` (`Props/PgConf.lean`): is violated for `PostgresSetting` objects: neither `add` nor `update` change the setting; instead, they store a setting whose name is the entire SET command. For `add`, this is the case for every configuration that has been created by names, and every setting (without an explicit value).
* `C208_missing_violated` (`Props/PgConf.lean`): is violated for `recursive_worktable_factor`, a planner setting that can be changed at runtime: it is never part of the current configuration and it is never restored, for all servers and sessions. Likewise, `autovacuum` is never part of the current configuration. The reason is a missing comma in the list of settings.
* `C208_quotes_violated` (`Props/PgConf.lean`): is violated for values with quotes, because they are not escaped: a value that contains a doubled quote arrives as a different value, and no error is reported.
* `C209_names_violated` (`Props/Shifter.lean`): is violated for tables whose primary key is called `sample_id`: all rows are deleted, no matter how many have been requested. If it is called `_pb_rand_val`, either all rows or no rows are deleted. The reason is that the name of the key in the condition of the DELETE command is not qualified.
* `C210_duplicates_violated` (`Props/Shifter.lean`): is violated for columns with duplicates: if a row is marked, all rows with the same value are removed as well.
* `C210_import_violated` (`Props/Shifter.lean`): is violated if a marker table is imported by the name of the marker table only, which is allowed if the type is given: the marker column is called "None_..." and the marked rows cannot be removed.
* `C210_null_violated` (`Props/Shifter.lean`): is violated for NULL: rows whose value is NULL are never removed, even if they are marked.
* `C210_share_violated` (`Props/Shifter.lean`): is violated for small shares: the share is rounded to whole percents, so that nothing is marked if it is at most half a percent, independently of the size of the table.
* `C211_duckdb_violated` (`Props/Connect.lean`): is violated for DuckDB: although the documentation announces a suffix that prevents collisions, a refreshed connection replaces the registered one, for each history.
* `C211_file_violated` (`Props/Connect.lean`): is violated for the file of DuckDB and for private connections: if the name is in use, the file is ignored, and even private connections are shared. Since the name has a default, this concerns each second call of `connect` with a different file.
* `C212_backslash_violated` (`Props/Connect.lean`): is violated for backslashes: they are dropped.
* `C212_quote_violated` (`Props/Connect.lean`): is violated for quotes: a value can contain further parameters, which then become parameters of the connection.
* `C213_empty_violated` (`Props/UesStats.lean`): is violated for empty relations: if any relation of a join column does not have rows, the setup fails with a division by zero, so that such queries cannot be optimized.
* `C213_uniform_violated` (`Props/UesStats.lean`): is violated for the statistics catalog: if it does not contain most common values, the frequency is the average one, which is lower than the maximum, even if the numbers of rows and of distinct values are exact. For instance, the value of `n` rows, together with one other row, has the frequency `(n + 1) / 2`.
* `C213_wrapper_violated` (`Props/UesStats.lean`): is violated for failures: if the estimation of the number of rows fails, the estimator stays prepared for the other query.
* `C215_explicit_violated` (`Props/MoveSub.lean`): **C215 (violated).** For a query with explicit joins of `t1`, `t2` and `t3`, moving `t1` and `t2` keeps the whole join and adds the subquery over `t1` and `t2` beside it, without any condition that connects the two.
* `C215_mixed_violated` (`Props/MoveSub.lean`): **C215 (violated).** `SELECT 1 FROM t1, t2 WHERE t1.x = t2.y OR t1.z = 1` becomes `SELECT 1 FROM (SELECT … FROM t1, t2 WHERE t1.z = 1 AND t1.x = t2.y) AS s`. For one row `(x, z) = (3, 1)` of `t1` and one row `y = 4` of `t2` the original query has one row, the new one has none.
* `C215_name_violated` (`Props/MoveSub.lean`): **C215 (violated).** The default name of the subquery for the tables `r` and `s` is the name of a third table `r_s`: if the query contains it, the transformed query contains two tables with the same name.
* `C215_scope_violated` (`Props/MoveSub.lean`): **C215 (violated).** Moving `t1` and `t2` of `SELECT 1 FROM t1, t2, t3 WHERE t1.x = t2.y AND (t1.z = 1 OR t3.w = 5)` creates a subquery over `t1` and `t2` whose WHERE clause still uses `t3.w`, which is not available there: the result is not a valid query.
* `C215_star_violated` (`Props/MoveSub.lean`): **C215 (violated).** `SELECT * FROM t1, t2 WHERE t1.x = t2.y` becomes `SELECT * FROM (SELECT t1.x, t2.y FROM t1, t2 WHERE t1.x = t2.y) AS s`: all other columns of the two tables are lost.
* `C215_tables_violated` (`Props/MoveSub.lean`): **C215 (violated).** What `tables()` reports for the FROM clause of a transformed query are no table references: its tables cannot be moved again, whatever they are.
* `C216_keys_violated` (`Props/JsonText.lean`): (violated): for every number, a dictionary with this number and its text as keys loses the first value.
* `C216_nested_violated` (`Props/JsonText.lean`): (violated): the `__json__` method of a data class is not used if the object is a field of another data class without such a method.
* `C216_none_violated` (`Props/JsonText.lean`): (violated): `to_json(None)` is no text at all.
* `C217_fails_violated` (`Props/PlanJson.lean`): (violated): plans with a sort key, a subplan or a filter without tables in any node can be written, but reading the text always raises an exception.
* `C217_lookup_violated` (`Props/PlanJson.lean`): (violated): a lookup key that is an expression comes back as a dictionary.
* `C217_operator_violated` (`Props/PlanJson.lean`): (violated): `read_operator_json` does not accept the text of an operator (only of an assignment).
* `C217_overflow_violated` (`Props/PlanJson.lean`): (violated): a plan whose estimated cardinality is too large for a float cannot be written.
* `C217_precision_violated` (`Props/PlanJson.lean`): (violated): plans whose estimated cardinalities are equal as floats (e.g. 2^53 and 2^53 + 1) have the same text, although cardinalities are integers.
* `C217_schema_violated` (`Props/PlanJson.lean`): (violated): whenever a table of the root has a schema, the plan that is read has the table without it.
* `C218_clone_violated` (`Props/PlanBag.lean`): (violated): a clone can have other values than the object, e.g. if the workers were set to `None`.
* `C218_method_violated` (`Props/PlanBag.lean`): (violated): assigning an attribute with the name of a method hides the method, e.g. `params.clone = 1`.
* `C218_self_violated` (`Props/PlanBag.lean`): (violated): an object with an attribute `self` cannot be cloned.
* `C219_cardinality_violated` (`Props/PlanBag.lean`): (violated): an actual cardinality that is given together with measures is silently ignored (all other measures raise an exception).
* `C219_children_violated` (`Props/PlanBag.lean`): (violated): an iterator of children becomes the only child.
* `C219_operator_violated` (`Props/PlanBag.lean`): (violated): if the node type is an operator, another operator that is given is silently ignored.
* `C219_subplan_violated` (`Props/PlanBag.lean`): (violated): a name of a subplan without a root yields a subplan without root.
* `C219_update_violated` (`Props/PlanBag.lean`): (violated): `update_plan` raises an exception for every plan.
* `C220_output_violated` (`Props/BenchPrep.lean`): **C220 (violated).** An unknown output is not rejected: the query is prepared as if there were no output.
* `C221_encoded_violated` (`Props/BenchPrep.lean`): **C221 (violated).** If the first row has no value that needs to be encoded in a column, e.g. because the first query has been cancelled, then no value of this column is encoded.
* `C221_hdf_violated` (`Props/BenchPrep.lean`): **C221 (violated).** A HDF file only has the last row, unless the user asks for appending.
* `C221_json_violated` (`Props/BenchPrep.lean`): **C221 (violated).** The first row that should be written to a JSON file raises an exception, unless the user selects another orientation; so does a HDF file without a key.
* `C221_suffix_violated` (`Props/BenchPrep.lean`): **C221 (violated).** Nothing is written to a file with another suffix, and there is no exception.
* `C222_columns_violated` (`Props/BenchPrep.lean`): **C222 (violated).** Sorting by several columns only sorts by the first one: all others are ignored.
* `C222_tuple_violated` (`Props/BenchPrep.lean`): **C222 (violated).** The documented tuples of columns, including the default, raise a KeyError for all data frames; so do unknown columns.
* `C223_schema_violated` (`Props/PgTools.lean`): **C223 (violated).** A table of another schema with the same name makes prewarming fail: its indexes are looked up as well, but they cannot be found.
* `C223_virtual_violated` (`Props/PgTools.lean`): **C223 (violated).** Cooling down fails if one of the tables is virtual, such as a CTE of the query: no table is removed.
* `C224_explainify_violated` (`Props/PgTools.lean`): **C224 (violated).** A text that asks for a plan in another way gets a second EXPLAIN, which the server rejects.
* `C225_disabled_violated` (`Props/PgTools.lean`): **C225 (violated).** Hints are generated for pg_hint_plan although it has been turned off, because its library is loaded.
* `C225_remote_violated` (`Props/PgTools.lean`): **C225 (violated).** Hints are generated for pg_hint_plan on all remote servers without an active backend.
* `C226_cached_violated` (`Props/DuckExec.lean`): **C226 (violated).** A query that is answered by the cache keeps the runtime of the query before it.
* `C226_interrupt_violated` (`Props/DuckExec.lean`): **C226 (violated).** A query that is stopped by the interrupt is not reported as a timeout: the exception of DuckDB is raised again, by `execute_with_timeout` as well as by `execute_query`, and the remembered runtime is that of an earlier query.
* `C227_integrated_violated` (`Props/PipeUse.lean`): The integrated pipeline accepts every component, also if it cannot optimize queries.
* `C227_roles_violated` (`Props/PipeUse.lean`): A component with two roles fills only the first one.
* `C228_incremental_violated` (`Props/PipeUse.lean`): A step of incremental optimization is a stage, but cannot be benchmarked: it is rejected with a type error.
* `C228_roles_violated` (`Props/PipeUse.lean`): A stage that is an enumerator and a cardinality estimator is not used as an enumerator.
* `C229_cleanup_violated` (`Props/PipeUse.lean`): If they cannot, `cleanup` is not called: the estimator keeps the query and the database.
* `C229_metrics_violated` (`Props/PipeUse.lean`): Two stages with the same name, e.g. two unnamed objects of the same class: both learn, but only the metrics of the second are returned.
* `C229_twice_violated` (`Props/PipeUse.lean`): A stage that has two places in a pipeline learns twice from one execution.
* `C230_default_violated` (`Props/TonicExplore.lean`): The default of the limit is `None`, with which every exploration fails.
* `C230_empty_violated` (`Props/TonicExplore.lean`): If no operator is allowed, all supported operators are explored.
* `C231_duplicate_violated` (`Props/WorkRead.lean`): If a query is written on two lines, there is no query with the number of the first line.
* `C231_empty_line_violated` (`Props/WorkRead.lean`): Empty lines are not skipped: a line break without a query makes reading fail.
* `C231_labels_violated` (`Props/WorkRead.lean`): A query with two labels is only found with the second label.
* `C232_duplicate_violated` (`Props/RelMutate.lean`): is violated for trees with equal nodes: `mutate` fails with an `AssertionError`.
* `C232_input_violated` (`Props/RelMutate.lean`): is violated if an input is replaced: two selections between a node and its input make `mutate` fail with an `AssertionError`.
* `C232_lost_violated` (`Props/RelMutate.lean`): is violated: with one more operator on top the copied tree silently lacks the change.
* `C232_shared_violated` (`Props/RelMutate.lean`): is violated for trees that share nodes: mutating one tree makes it impossible to mutate the other.
* `C233_hash_violated` (`Props/RelMutate.lean`): is violated whenever a node below the root is changed: the changed tree has the hash value of the original tree, which is not the one that an equal new node gets.
* `C234_visit_violated` (`Props/RelMutate.lean`): is violated for every tree with a union, an intersection or a difference anywhere: the visitor receives itself instead of the node.
* `C235_and_violated` (`Props/NumOps.lean`): is violated: an int `&` an atomic integer is their sum, for all numbers.
* `C235_modulus_violated` (`Props/NumOps.lean`): is violated: the third argument of `pow` is ignored.
* `C235_pow_violated` (`Props/NumOps.lean`): is violated: an atomic integer to the power of itself waits for its own lock.
* `C235_sub_violated` (`Props/NumOps.lean`): is violated: subtracting a non-negative bounded integer changes nothing, for all numbers.
* `C236_greater_violated` (`Props/NumOps.lean`): is violated: a number object cannot be compared by `>` or `>=` with an int, and an int not by `<` or `<=` with a number object.
* `C237_columns_violated` (`Props/JoinParts.lean`): is violated: a join over three columns, like `R.a = S.b + S.c`, is not part of the graph, so that its tables count as a cross product and end up in different components, which lose the join.
* `C237_state_violated` (`Props/JoinParts.lean`): is violated: components forget the joins from the equivalence classes and which tables have been joined.
* `C238_ast_subplan_violated` (`Props/PlanText.lean`): , violated: the subplan of a node never shows in `ast`.
* `C238_explain_blank_violated` (`Props/PlanText.lean`): , violated: below a node without children but with a subplan, there is an empty line.
* `C238_explain_subplan_violated` (`Props/PlanText.lean`): , violated: the text does not tell the subplan of a node with children from a further child.
* `C238_fields_violated` (`Props/PlanText.lean`): , violated: a field with two dots, for example `estimates.a.b`, always is an error.
* `C239_later_violated` (`Props/UesFreq.lean`): **C239** (violated): columns that are needed for later joins keep their frequency, although the join multiplies it. With exact frequencies, `m` equal rows in `t1` and `n` equal rows in `t2`, the value of `t1.y` appears `m * n` times in the result of the join, and the container has `m`; the same holds for `t2.z` and `n`.
* `C240_datatype_violated` (`Props/Mysql.lean`): **C240** violated: if a database that is listed earlier has the same table, the data type and the nullability are the ones of this table.
* `C240_keys_violated` (`Props/Mysql.lean`): **C240** violated: `is_primary_key` and `has_secondary_index` fail for all columns.
* `C240_lookup_violated` (`Props/Mysql.lean`): **C240** violated: columns of tables in other databases count as well, whatever the schema of the table reference.
* `C241_autocommit_violated` (`Props/Mysql.lean`): **C241** violated: every connection file that sets `AutoCommit` is rejected.
* `C241_backslash_violated` (`Props/Mysql.lean`): **C241** violated: a text that ends with a backslash does not end, in either mode.
* `C241_cast_violated` (`Props/Mysql.lean`): **C241** violated: parameters of the type get lost, e.g. the length of a text, unless the cast is part of another expression.
* `C241_explain_violated` (`Props/Mysql.lean`): **C241** (partial and violated). The `EXPLAIN` clause of a formatted query is one of MySQL iff it has no format; with a format, it is one of Postgres.
* `C241_null_violated` (`Props/Mysql.lean`): **C241** violated: without `ANSI_QUOTES`, NULL becomes the text `None`.
* `C241_quote_violated` (`Props/Mysql.lean`): **C241** violated: without `ANSI_QUOTES`, a double quote in a text ends the literal, and the rest of the text becomes part of the statement.
* `C241_types_violated` (`Props/Mysql.lean`): **C241** violated: a port from a connection file is a text, not a number; switching Unicode off in the file provides the text that was written there, which counts as true.
* `C242_infinite_violated` (`Props/PgDates.lean`): **C242** violated: infinite timestamps with a time zone and infinite intervals are sent back as finite ones.
* `C242_last_violated` (`Props/PgDates.lean`): **C242** violated: dates at the end of Python's range or after it are sent back as infinite dates.
* `C243_having_violated` (`Props/QueryAst.lean`): **C243** violated: each query with a HAVING clause, and each query that selects from a function.
* `C243_hidden_violated` (`Props/QueryAst.lean`): **C243** violated: types and conditions of joins, operators and further clauses of set operations, DISTINCT and FILTER of functions, parameters of types, and the operators of compound expressions do not show, so that queries with different results have the same text.
* `C245_earlier_violated` (`Props/HintQuery.lean`): is violated for queries that already have hints: no system keeps the earlier hints or their preparatory statements when new hints are added.
* `C245_format_violated` (`Props/HintQuery.lean`): is violated for EXPLAIN clauses without format: the text has the unknown format `None`.
* `C245_limit_violated` (`Props/HintQuery.lean`): is violated for LIMIT 0: instead of no row, all rows after the offset are returned.
* `C246_self_violated` (`Props/Vis.lean`): **C246 (violated).** A join of a table with itself (without alias) is drawn with a single box for both scans and two lines to it.
* `C247_merged_violated` (`Props/Vis.lean`): **C247 (violated).** Subplans are not part of the identifiers of boxes: for a scan with a subplan over the same table, the picture is a circle of two boxes.
* `C247_operator_violated` (`Props/Vis.lean`): **C247 (violated).** The box of a node with a subplan does not show its operator or table: plans that only differ in them get the same label.
* `C248_query_violated` (`Props/Vis.lean`): **C248 (violated).** Without primary key/foreign key joins (the default), there is no picture of the join graph of any query with tables in its predicates: the call fails.
* `C249_changes_violated` (`Props/Vis.lean`): **C249 (violated).** Drawing a synopsis changes it: nodes without subquery get an empty one, and what is written to JSON files is no longer the same.
* `C249_nested_violated` (`Props/Vis.lean`): **C249 (violated).** Nodes of subqueries within subqueries are missing in the picture.
* `C250_column_violated` (`Props/Grid.lean`): **C250 (violated).** Plots cannot be drawn in a single column: the call fails.
* `C250_row_violated` (`Props/Grid.lean`): **C250 (violated).** Fewer plots than columns (four, unless stated otherwise) cannot be drawn: the call fails.
* `C251_directory_violated` (`Props/Proc.lean`): **C251 (violated).** If the program cannot be executed, the working directory is not restored: the caller stays in the directory of the command.
* `C251_equal_violated` (`Props/Proc.lean`): **C251 (violated).** Results are compared by their output: a successful and a failed run are equal.
* `C251_tuple_violated` (`Props/Proc.lean`): **C251 (violated).** Commands that are given as a tuple are never executed.
* `C252_blank_violated` (`Props/Proc.lean`): **C252 (violated).** Names with blanks are cut off: the file that is listed is not open.
* `C252_text_violated` (`Props/Proc.lean`): **C252 (violated).** Other open files are not listed, for example text files.
* `C254_order_violated` (`Props/Hashable.lean`): **C254 (violated).** Equal dictionaries can have different hashes: the hash depends on the order in which the keys were added.
* `C254_skipped_violated` (`Props/Hashable.lean`): **C254 (violated).** Values that cannot be hashed are skipped: dictionaries with different values at these keys have the same hash. Elsewhere they are errors.
* `C255_inverse_violated` (`Props/Hashable.lean`): **C255 (violated).** A list with a single element is not restored: the element is returned.
* `C256_home_violated` (`Props/PgCtl.lean`): **C256 (violated).** Servers in directories that are relative to a home directory are started, but the check reports that they are not running.
* `C256_missing_violated` (`Props/PgCtl.lean`): **C256 (violated).** Without a directory there should be an error, but the server in the current directory is started or stopped.
* `C258_text_violated` (`Props/PgCtl.lean`): **C258 (violated).** Hints for queries that are given as a text are ignored.
* `C259_native_violated` (`Props/PgCtl.lean`): **C259 (violated).** The key of the native optimizer in any other case is an error.
* `C260_hints_violated` (`Props/CheckMsg.lean`): **C260 (violated).** If hints are not supported, a type error is raised instead of an error with these hints, unless the database is passed as context.
* `C261_changes_violated` (`Props/Frames.lean`): **C261 (violated).** Writing changes the data frame of the caller if a column contains complex objects, even if the format is not supported.
* `C261_missing_violated` (`Props/Frames.lean`): **C261 (violated).** Texts in a column with a missing value are quoted: other texts are read than were written.
* `C263_schema_violated` (`Props/Nested.lean`): **C263 (violated).** The schema of a table and whether it is virtual are lost: another table is read than was stored.
* `C264_flush_violated` (`Props/Logging.lean`): **C264 (violated).** Once the output is copied to a file, printing with `flush=True` is an error, although the message is written.
* `C264_pretty_violated` (`Props/Logging.lean`): **C264 (violated).** Pretty loggers do not write the prefix, and they accept exactly one argument.
* `C265_crash_violated` (`Props/Fetch.lean`): **C265 (violated).** After an interrupted download, the next call succeeds with an incomplete workload: without any file if the process ended during download or extraction, or with the files that were moved until then.
* `C265_stuck_violated` (`Props/Fetch.lean`): **C265 (violated).** After a download or extraction was interrupted, loading the workload fails at each later attempt, although the archive could be downloaded again.
* `C265_unknown_violated` (`Props/Fetch.lean`): **C265 (violated).** A workload without known archive is an error at first, but the next call succeeds with an empty directory.
* `C266_closed_watchdog_violated` (`Props/Conn.lean`): A query with a timeout on a closed interface fails, but opens a watchdog before it does: one session is open although the interface was closed.
* `C266_duck_reconnect_violated` (`Props/Conn.lean`): DuckDB: `reconnect` does not close the connection that it replaces.
* `C266_leak_violated` (`Props/Conn.lean`): A failed cancellation leaves the old session open for ever: the `try` block ends before the connection is closed, and the interface forgets it. Every reset of this kind adds one more session.
* `C266_reconnect_violated` (`Props/Conn.lean`): When the server has ended the session and no statement was run since, the pool hands out a connection that does not work.
* `C267_empty_label_violated` (`Props/WorkStore.lean`): An empty label does not survive: its file is called `.sql`, which is then its label.
* `C267_literal_violated` (`Props/WorkStore.lean`): Line breaks in string literals are doubled: the query that is read compares with another value than the one that was stored. `p` is what comes before the literal, `a` and `b` are its parts.
* `C267_lost_violated` (`Props/WorkStore.lean`): Storing is not atomic: a query that was there before can be lost, without the new one being there.
* `C267_slash_violated` (`Props/WorkStore.lean`): Labels with slashes, as they are read from subdirectories, cannot be stored: the queries before the first of them are written, then an error is raised.
* `C267_stale_violated` (`Props/WorkStore.lean`): Query files that have been in the directory before are read as part of the workload.
* `C268_format_violated` (`Props/DuckOpt.lean`): An EXPLAIN query without the JSON format is run as it is; its answer is no JSON text, and no plan results.
* `C268_shapes_violated` (`Props/DuckOpt.lean`): `query_plan` and `parse_plan` do not agree on what an answer is: no raw result can be read by both, so parsing the result of the very query that `query_plan` runs fails whenever `query_plan` works.
* `C268_timeout_violated` (`Props/DuckOpt.lean`): A query that runs into its timeout and is interrupted raises an error instead of giving `None`, and leaves the runtime of an earlier query.
* `C269_blank_violated` (`Props/QepsText.lean`): A subquery without costs and children is not shown, whatever its own subquery contains.
* `C269_root_violated` (`Props/QepsText.lean`): What belongs to the root itself is not shown: its costs and its subquery.
* `C270_swapped_violated` (`Props/PlanDiff.lean`): **C270** (violated): if any join of the plans is swapped, the comparison has no report: its inspection fails.
* `C271_default_violated` (`Props/Explode.lean`): **C271** (violated): with the default source, which asks for the estimated cardinalities, the join tree has the actual ones instead. Only the plan parameters have the estimates.
* `C272_missing_violated` (`Props/UesPolicy.lean`): **C272** (violated): the decision fails if the first join is one of a primary and a foreign key whose table has no bound.
<!-- end violations -->
