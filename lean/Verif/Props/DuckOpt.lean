import Verif.Model.DuckOpt

/-! # C268: the optimizer interface of DuckDB -/

namespace PB.DuckOptProps
open PB PB.PlanRead PB.DuckExec PB.DuckOpt

/-! ## Vocabulary -/

/-- The text starts with the word, in any case and after any white space. -/
def Begins (q : List Char) : Prop :=
  ∃ w k r, q = w ++ k ++ r ∧ (∀ c ∈ w, c.isWhitespace = true) ∧ k.map Char.toUpper = ['E', 'X', 'P', 'L', 'A', 'I', 'N']

/-- The word occurs in the text. -/
def Mentions (t : List Char) : Prop := ∃ a b, t = a ++ ['A', 'G', 'G', 'R', 'E', 'G', 'A', 'T', 'E'] ++ b

/-! ## Lemmas -/

theorem explain_chars : "EXPLAIN".toList = ['E', 'X', 'P', 'L', 'A', 'I', 'N'] := by decide +kernel

theorem aggregate_chars : "AGGREGATE".toList = ['A', 'G', 'G', 'R', 'E', 'G', 'A', 'T', 'E'] := by decide +kernel

theorem white_upper {c : Char} (h : c.isWhitespace = true) : c.toUpper ≠ 'E' := by
  simp only [Char.isWhitespace, Bool.or_eq_true, decide_eq_true_eq] at h
  rcases h with ((h | h) | h) | h <;> subst h <;> decide

theorem isExplain_iff (q : List Char) : isExplain q = true ↔ Begins q := by
  rw [isExplain, explain_chars, List.isPrefixOf_iff_prefix]
  constructor
  · rintro ⟨r, hr⟩
    obtain ⟨k, r', hk, h1, h2⟩ := List.map_eq_append_iff.1 hr.symm
    refine ⟨q.takeWhile Char.isWhitespace, k, r', ?_, ?_, h1⟩
    · rw [List.append_assoc, ← hk, List.takeWhile_append_dropWhile]
    · exact fun c hc => List.all_eq_true.1 (List.all_takeWhile (l := q) (p := Char.isWhitespace)) c hc
  · rintro ⟨w, k, r, rfl, hw, hk⟩
    have hd : (w ++ k ++ r).dropWhile Char.isWhitespace = k ++ r := by
      rw [List.append_assoc, List.dropWhile_append_of_pos hw]
      cases k with
      | nil => simp at hk
      | cons c k =>
        simp only [List.map_cons, List.cons.injEq] at hk
        have : ¬ c.isWhitespace = true := fun h => white_upper h hk.1
        simp [this]
    rw [hd, List.map_append, hk]
    exact List.prefix_append _ _

theorem mentions_iff (t : List Char) : mentionsAggregate t = true ↔ Mentions t := by
  simp only [mentionsAggregate, List.any_eq_true, List.mem_tails, aggregate_chars, List.isPrefixOf_iff_prefix]
  constructor
  · rintro ⟨s, ⟨a, rfl⟩, ⟨b, rfl⟩⟩
    exact ⟨a, b, by simp⟩
  · rintro ⟨a, b, rfl⟩
    exact ⟨_, ⟨a, (List.append_assoc _ _ _).symm⟩, ⟨b, rfl⟩⟩

/-! ## Theorems -/

/-- Texts that are explained already are run as they are, others get the prefix; what is run always starts with `EXPLAIN`. -/
theorem C268_explain (q : List Char) :
    (Begins q → explainify q = q) ∧ (¬ Begins q → explainify q = "EXPLAIN (FORMAT JSON) ".toList ++ q) ∧ Begins (explainify q)
      ∧ explainify (explainify q) = explainify q := by
  have hb : Begins (explainify q) := by
    unfold explainify
    split
    · rename_i h; exact (isExplain_iff q).1 h
    · exact ⟨[], "EXPLAIN".toList, " (FORMAT JSON) ".toList ++ q, by
        rw [← List.append_assoc]
        have : "EXPLAIN (FORMAT JSON) ".toList = [] ++ "EXPLAIN".toList ++ " (FORMAT JSON) ".toList := by decide +kernel
        rw [this], by simp, by decide +kernel⟩
  refine ⟨fun h => ?_, fun h => ?_, hb, ?_⟩
  · rw [explainify, if_pos ((isExplain_iff q).2 h)]
  · rw [explainify, if_neg fun h2 => h ((isExplain_iff q).1 h2)]
  · rw [explainify, if_pos ((isExplain_iff _).2 hb)]

/-- An EXPLAIN query without the JSON format is run as it is; its answer is no JSON text, and no plan results. -/
theorem C268_format_violated (lower : Char → Char) (q : Option DQuery) (query : List Char) (kind : String) (rest : List Row) :
    explainify ("EXPLAIN ".toList ++ query) = "EXPLAIN ".toList ++ query ∧ queryPlan lower q ((kind, .invalid) :: rest) = none := by
  refine ⟨(C268_explain _).1 ⟨[], "EXPLAIN".toList, ' ' :: query, ?_, by simp, by decide +kernel⟩, rfl⟩
  have : "EXPLAIN ".toList = "EXPLAIN".toList ++ [' '] := by decide +kernel
  rw [this]; simp

/-- `query_plan` reads the first document of the list in the first row, and fails for all other answers. -/
theorem C268_query_plan (lower : Char → Char) (q : Option DQuery) (rows : List Row) (p : PNode) :
    queryPlan lower q rows = some p ↔
      ∃ kind d ds rest, rows = (kind, Json.list (d :: ds)) :: rest ∧ parseDuck lower q d = some p := by
  constructor
  · intro h
    match rows, h with
    | (kind, .list (d :: ds)) :: rest, h => exact ⟨kind, d, ds, rest, rfl, h⟩
  · rintro ⟨kind, d, ds, rest, rfl, h⟩
    exact h

/-- All shapes of one document are read alike. -/
theorem C268_parse (lower : Char → Char) (q : Option DQuery) (d : DNode) (ds : List DNode) (kind : String) (rest : List Row) :
    ∀ g ∈ [Given.doc d, .docs (d :: ds), .text (.obj d), .row (kind, .obj d), .rows ((kind, .obj d) :: rest)],
      parsePlan lower q g = parseDuck lower q d := by
  intro g hg
  simp only [List.mem_cons, List.not_mem_nil, or_false] at hg
  rcases hg with rfl | rfl | rfl | rfl | rfl <;> rfl

/-- Nothing is read of an empty result, of a text that is not an object, or of a row with such a text. -/
theorem C268_parse_empty (lower : Char → Char) (q : Option DQuery) (l : List DNode) (kind : String) (rest : List Row) :
    ∀ g ∈ [Given.rows [], .docs [], .text (.list l), .text .invalid, .row (kind, .list l), .row (kind, .invalid),
        .rows ((kind, .list l) :: rest), .rows ((kind, .invalid) :: rest)], parsePlan lower q g = none := by
  intro g hg
  simp only [List.mem_cons, List.not_mem_nil, or_false] at hg
  rcases hg with rfl | rfl | rfl | rfl | rfl | rfl | rfl | rfl <;> rfl

/-- `query_plan` and `parse_plan` do not agree on what an answer is: no raw result can be read by both, so parsing the result of the
very query that `query_plan` runs fails whenever `query_plan` works. -/
theorem C268_shapes_violated (lower : Char → Char) (q : Option DQuery) (rows : List Row) (h : queryPlan lower q rows ≠ none) :
    parsePlan lower q (.rows rows) = none ∧ (∀ r, rows.head? = some r → parsePlan lower q (.row r) = none) := by
  match rows, h with
  | [], h => exact absurd rfl h
  | (kind, .obj d) :: rest, h => exact absurd rfl h
  | (kind, .invalid) :: rest, h => exact absurd rfl h
  | (kind, .list l) :: rest, _ => exact ⟨rfl, fun r hr => by cases hr; rfl⟩

/-- `analyze_plan` for queries that end in time, and for all ends without a timeout: the plan of the answer, or an error; the cache is not
used.  A query that ends by itself after the time is up gives `None` and an infinite runtime.
Missing: queries that have to be interrupted, see `C268_timeout_violated`. -/
theorem C268_analyze_partial (lower : Char → Char) (q : DQuery) (st : St (List Row)) (text : String) (timeout : Bool) :
    (∀ rows ns, analyzePlan lower q st text timeout (.done rows ns)
        = ((queryPlan lower (some q) rows).map some, { st with runtime := .dur ns }))
      ∧ analyzePlan lower q st text timeout .failed = (none, st)
      ∧ (∀ ns, analyzePlan lower q st text true (.late ns) = (some none, { st with runtime := .inf }))
      ∧ ∀ run, (analyzePlan lower q st text timeout run).2.cache = st.cache := by
  refine ⟨fun rows ns => ?_, ?_, fun ns => ?_, fun run => ?_⟩
  · cases timeout <;> simp [analyzePlan, executeQuery, executeUncached, executeWithTimeout, executePlain, afterWorker]
  · cases timeout <;> simp [analyzePlan, executeQuery, executeUncached, executeWithTimeout, executePlain, afterWorker]
  · simp [analyzePlan, executeQuery, executeUncached, executeWithTimeout]
  · cases timeout <;> cases run <;>
      simp [analyzePlan, executeQuery, executeUncached, executeWithTimeout, executePlain]

/-- A query that runs into its timeout and is interrupted raises an error instead of giving `None`, and leaves the runtime of an earlier
query. -/
theorem C268_timeout_violated (lower : Char → Char) (q : DQuery) (st : St (List Row)) (text : String) :
    analyzePlan lower q st text true .interrupted = (none, st) := by
  simp [analyzePlan, executeQuery, executeUncached, executeWithTimeout, afterWorker]

/-- The estimate is that of the root of the plan; there is a warning exactly if the root is an aggregation. -/
theorem C268_estimate (lower : Char → Char) (q : Option DQuery) (rows : List Row) :
    (cardinalityEstimate lower q rows = none ↔ queryPlan lower q rows = none)
      ∧ ∀ p, queryPlan lower q rows = some p →
          ∃ warned, cardinalityEstimate lower q rows = some (p.info.estCard, warned) ∧ (warned = true ↔ Mentions p.info.nodeType.toList) := by
  refine ⟨by simp [cardinalityEstimate], fun p hp => ⟨_, by rw [cardinalityEstimate, hp]; rfl, mentions_iff _⟩⟩

/-! ## Examples -/

/-- A plan with an aggregation. -/
def exDoc : DNode := .node { name := "UNGROUPED_AGGREGATE" } [.node { name := "SEQ_SCAN ", typ := "Sequential Scan", table := "t" } []]

example : (queryPlan id none [("physical_plan", .list [exDoc])]).isSome = true := by
  simp [queryPlan, firstPlan, exDoc, parseDuck, parseAll, isWrapper, DRaw.nodeType, DRaw.baseTable]

example : Begins "  explain SELECT 1".toList ∧ ¬ Begins "SELECT 1".toList := by
  rw [← isExplain_iff, ← isExplain_iff]; decide +kernel

example : Mentions "UNGROUPED_AGGREGATE".toList := ⟨"UNGROUPED_".toList, [], by decide +kernel⟩

end PB.DuckOptProps
