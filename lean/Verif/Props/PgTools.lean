import Verif.Model.PgTools
import Verif.Props.PgExplain

set_option linter.unusedSimpArgs false
set_option linter.unusedVariables false
set_option linter.unusedSectionVars false
set_option linter.unnecessarySimpa false
set_option linter.unnecessarySeqFocus false

/-! C223: loading tables into the buffer of Postgres and removing them. C224: the optimizer interface of Postgres. C225: the
detection of the hinting backend. -/

namespace PB.PgToolsProps

open PB.PgTools PB.PgExplain PB.PgExplainProps

/-! ### C223 -/

/-- The relation `x` is wanted: it is one of the (real) tables, or one of their indexes, as selected by the options. -/
def Wanted (s : Server) (o : Options) (refs : List Ref) (x : String) : Prop :=
  ∃ r ∈ refs, r.virtual = false ∧ ∃ t ∈ s.visible, t.name = r.name ∧
    ((o.excludePages = false ∧ x = t.name) ∨
      ∃ primary, (x, primary) ∈ t.indexes ∧ ((primary = true ∧ o.primary = true) ∨ (primary = false ∧ o.secondary = true)))

/-- All real tables exist, and no other schema has a table of the same name. -/
def Clear (s : Server) (refs : List Ref) : Prop :=
  ∀ r ∈ refs, r.virtual = false → (∃ t ∈ s.visible, t.name = r.name) ∧ ∀ t ∈ s.hidden, t.name ≠ r.name

theorem mem_fetch (s : Server) (n : String) (i : String × Bool) :
    i ∈ fetchIndexes s n ↔ ∃ t, (t ∈ s.visible ∨ t ∈ s.hidden) ∧ t.name = n ∧ i ∈ t.indexes := by
  simp only [fetchIndexes, List.mem_flatMap, List.mem_filter, List.mem_append, beq_iff_eq]
  constructor
  · rintro ⟨t, ⟨h1, h2⟩, h3⟩; exact ⟨t, h1, h2, h3⟩
  · rintro ⟨t, h1, h2, h3⟩; exact ⟨t, ⟨h1, h2⟩, h3⟩

theorem mem_selected (s : Server) (o : Options) (names : List String) (x : String) :
    x ∈ selectedIndexes s o names ↔ ∃ n ∈ names, ∃ p, (x, p) ∈ fetchIndexes s n ∧
      ((p = true ∧ o.primary = true) ∨ (p = false ∧ o.secondary = true)) := by
  obtain ⟨e, pr, se⟩ := o
  simp only [selectedIndexes, List.mem_map, List.mem_filter, Prod.exists, exists_and_right, exists_eq_right]
  constructor
  · rintro ⟨p, h1, h2⟩
    split at h1
    · rw [List.mem_flatMap] at h1
      obtain ⟨n, hn, hp⟩ := h1
      refine ⟨n, hn, p, hp, ?_⟩
      cases p <;> simpa using h2
    · simp at h1
  · rintro ⟨n, hn, p, hp, h⟩
    refine ⟨p, ?_, ?_⟩
    · rw [if_pos]
      · exact List.mem_flatMap.2 ⟨n, hn, hp⟩
      · rcases h with ⟨_, h⟩ | ⟨_, h⟩ <;> simp [h]
    · rcases h with ⟨rfl, h⟩ | ⟨rfl, h⟩ <;> simp [h]

theorem mem_relations (s : Server) (o : Options) (names : List String) (x : String) :
    x ∈ relations s o names ↔ (o.excludePages = false ∧ x ∈ names) ∨ x ∈ selectedIndexes s o names := by
  unfold relations
  cases h : o.excludePages <;> simp

theorem invoke_wanted (s : Server) (o : Options) (refs : List Ref) (hc : Clear s refs) :
    ∃ names, invoke s (relations s o ((refs.filter fun t => !t.virtual).map Ref.name)) = .ok names ∧
      ∀ x, x ∈ names ↔ Wanted s o refs x := by
  have hmem : ∀ x, x ∈ relations s o ((refs.filter fun t => !t.virtual).map Ref.name) ↔ Wanted s o refs x := by
    intro x
    rw [mem_relations, mem_selected]
    constructor
    · rintro (⟨h1, h2⟩ | ⟨n, hn, p, hp, h⟩)
      · simp only [List.mem_map, List.mem_filter, Bool.not_eq_true'] at h2
        obtain ⟨r, ⟨hr, hv⟩, rfl⟩ := h2
        obtain ⟨⟨t, ht, hte⟩, _⟩ := hc r hr hv
        exact ⟨r, hr, hv, t, ht, hte, .inl ⟨h1, hte.symm⟩⟩
      · simp only [List.mem_map, List.mem_filter, Bool.not_eq_true'] at hn
        obtain ⟨r, ⟨hr, hv⟩, rfl⟩ := hn
        obtain ⟨t, ht, hte, hi⟩ := (mem_fetch s _ _).1 hp
        rcases ht with ht | ht
        · exact ⟨r, hr, hv, t, ht, hte, .inr ⟨p, hi, h⟩⟩
        · exact absurd hte ((hc r hr hv).2 t ht)
    · rintro ⟨r, hr, hv, t, ht, hte, h⟩
      have hn : r.name ∈ (refs.filter fun t => !t.virtual).map Ref.name :=
        List.mem_map.2 ⟨r, List.mem_filter.2 ⟨hr, by simp [hv]⟩, rfl⟩
      rcases h with ⟨h1, rfl⟩ | ⟨p, hi, h⟩
      · exact .inl ⟨h1, hte ▸ hn⟩
      · exact .inr ⟨r.name, hn, p, (mem_fetch s _ _).2 ⟨t, .inl ht, hte, hi⟩, h⟩
  refine ⟨_, ?_, hmem⟩
  unfold invoke
  rw [if_pos]
  rw [List.all_eq_true]
  intro x hx
  obtain ⟨r, hr, hv, t, ht, hte, h⟩ := (hmem x).1 hx
  simp only [Server.finds, List.any_eq_true, Bool.or_eq_true, beq_iff_eq]
  refine ⟨t, ht, ?_⟩
  rcases h with ⟨_, rfl⟩ | ⟨p, hi, _⟩
  · exact .inl rfl
  · exact .inr ⟨(x, p), hi, rfl⟩

/-- **C223.** Prewarming loads exactly the tables and their indexes, as selected by the options; virtual tables are left out. -/
theorem C223_prewarm_partial (s : Server) (o : Options) (refs : List Ref) (hext : "pg_prewarm" ∈ s.extensions)
    (hc : Clear s refs) : ∃ names, prewarm s o refs = .ok names ∧ ∀ x, x ∈ names ↔ Wanted s o refs x := by
  have : hasExtension s "pg_prewarm" = true := by simpa [hasExtension] using hext
  rw [prewarm, if_pos this]
  exact invoke_wanted s o refs hc

/-- **C223.** Cooling down removes exactly the tables and their indexes, as selected by the options, if there are no virtual
tables. -/
theorem C223_cooldown_partial (s : Server) (o : Options) (refs : List Ref) (hext : "pg_temperature" ∈ s.extensions)
    (hc : Clear s refs) (hv : ∀ r ∈ refs, r.virtual = false) :
    ∃ names, cooldown s o refs = .ok names ∧ ∀ x, x ∈ names ↔ Wanted s o refs x := by
  have : hasExtension s "pg_temperature" = true := by simpa [hasExtension] using hext
  rw [cooldown, if_pos this]
  have hf : (refs.filter fun t => !t.virtual) = refs := List.filter_eq_self.2 fun r hr => by simp [hv r hr]
  have := invoke_wanted s o refs hc
  rwa [hf] at this

/-- **C223.** Nothing happens without the extension. -/
theorem C223_inactive (s : Server) (o : Options) (refs : List Ref) :
    ("pg_prewarm" ∉ s.extensions → prewarm s o refs = .error .inactive) ∧
    ("pg_temperature" ∉ s.extensions → cooldown s o refs = .error .inactive) := by
  constructor <;> intro h <;> simp [prewarm, cooldown, hasExtension, h]

/-- **C223 (violated).** Cooling down fails if one of the tables is virtual, such as a CTE of the query: no table is removed. -/
theorem C223_virtual_violated (s : Server) (o : Options) (refs : List Ref) (hext : "pg_temperature" ∈ s.extensions)
    (ho : o.excludePages = false) (r : Ref) (hr : r ∈ refs)
    (hn : ∀ t ∈ s.visible, t.name ≠ r.name ∧ ∀ i ∈ t.indexes, i.1 ≠ r.name) :
    cooldown s o refs = .error .unknownRelation := by
  have : hasExtension s "pg_temperature" = true := by simpa [hasExtension] using hext
  rw [cooldown, if_pos this, invoke, if_neg]
  rw [List.all_eq_true]
  intro h
  have := h r.name ((mem_relations _ _ _ _).2 (.inl ⟨ho, List.mem_map.2 ⟨r, hr, rfl⟩⟩))
  simp only [Server.finds, List.any_eq_true, Bool.or_eq_true, beq_iff_eq] at this
  obtain ⟨t, ht, h | ⟨i, hi, h⟩⟩ := this
  · exact (hn t ht).1 h
  · exact (hn t ht).2 i hi h

/-- **C223 (violated).** A table of another schema with the same name makes prewarming fail: its indexes are looked up as
well, but they cannot be found. -/
theorem C223_schema_violated (s : Server) (refs : List Ref) (hext : "pg_prewarm" ∈ s.extensions) (r : Ref) (hr : r ∈ refs)
    (hv : r.virtual = false) (t : Table) (ht : t ∈ s.hidden) (hte : t.name = r.name) (i : String × Bool)
    (hi : i ∈ t.indexes) (hn : ∀ t' ∈ s.visible, t'.name ≠ i.1 ∧ ∀ j ∈ t'.indexes, j.1 ≠ i.1) :
    prewarm s {} refs = .error .unknownRelation := by
  have : hasExtension s "pg_prewarm" = true := by simpa [hasExtension] using hext
  rw [prewarm, if_pos this, invoke, if_neg]
  rw [List.all_eq_true]
  intro h
  have := h i.1 ((mem_relations _ _ _ _).2 (.inr ((mem_selected _ _ _ _).2 ⟨r.name,
    List.mem_map.2 ⟨r, List.mem_filter.2 ⟨hr, by simp [hv]⟩, rfl⟩, i.2,
    (mem_fetch _ _ _).2 ⟨t, .inr ht, hte, hi⟩, by cases i.2 <;> simp⟩)))
  simp only [Server.finds, List.any_eq_true, Bool.or_eq_true, beq_iff_eq] at this
  obtain ⟨t', ht', h | ⟨j, hj, h⟩⟩ := this
  · exact (hn t' ht').1 h
  · exact (hn t' ht').2 j hj h

/-- A server with two tables; another schema has a table `r` as well. -/
def exServer : Server := ⟨[⟨"r", [("r_pkey", true), ("r_a", false)]⟩, ⟨"s", [("s_pkey", true)]⟩],
  [⟨"q", [("q_pkey", true)]⟩], ["pg_prewarm", "pg_temperature"]⟩

example : Clear exServer [⟨"r", false⟩, ⟨"cte", true⟩] := by
  intro r hr hv
  simp only [List.mem_cons, List.not_mem_nil, or_false] at hr
  rcases hr with rfl | rfl
  · exact ⟨⟨_, List.mem_cons_self .., rfl⟩, by decide⟩
  · simp at hv

example : prewarm exServer { secondary := false } [⟨"r", false⟩, ⟨"cte", true⟩] = .ok ["r", "r_pkey"] := by decide +kernel

example : prewarm exServer { excludePages := true } [⟨"r", false⟩, ⟨"s", false⟩] = .ok ["r_pkey", "r_a", "s_pkey"] := by
  decide +kernel

example : cooldown exServer {} [⟨"r", false⟩, ⟨"cte", true⟩] = .error .unknownRelation := by decide +kernel

example : prewarm { exServer with hidden := [⟨"r", [("old_pkey", true)]⟩] } {} [⟨"r", false⟩] = .error .unknownRelation := by
  decide +kernel

/-! ### C224 -/

/-- The prefix in capital letters. -/
def asksForJson (q : List Char) : Prop := "EXPLAIN (FORMAT JSON)".toList <+: q.map Char.toUpper

/-- **C224.** A text is sent to the server as it is if it asks for a JSON plan, otherwise with the prefix. The text that is sent
always asks for a JSON plan, and is not changed again. -/
theorem C224_explainify (q : List Char) :
    (asksForJson q → explainify q = q) ∧
    (¬ asksForJson q → explainify q = "EXPLAIN (FORMAT JSON) ".toList ++ q) ∧
    asksForJson (explainify q) ∧ explainify (explainify q) = explainify q := by
  have hpre : prefixJson = "EXPLAIN (FORMAT JSON)".toList := rfl
  have hiff : ∀ q, prefixJson.isPrefixOf (upper q) = true ↔ asksForJson q := fun q => by
    rw [List.isPrefixOf_iff_prefix]; rfl
  have h1 : ∀ q, asksForJson q → explainify q = q := fun q h => by rw [explainify, if_pos ((hiff q).2 h)]
  have h2 : ∀ q, ¬ asksForJson q → explainify q = "EXPLAIN (FORMAT JSON) ".toList ++ q := fun q h => by
    rw [explainify, if_neg (fun h' => h ((hiff q).1 h'))]
    have : ("EXPLAIN (FORMAT JSON) ".toList : List Char) = "EXPLAIN (FORMAT JSON)".toList ++ [' '] := by decide +kernel
    rw [this, hpre]; simp
  have h3 : ∀ q, asksForJson (explainify q) := fun q => by
    by_cases h : asksForJson q
    · rw [h1 q h]; exact h
    · rw [h2 q h, asksForJson, List.map_append]
      have : ("EXPLAIN (FORMAT JSON) ".toList : List Char).map Char.toUpper = "EXPLAIN (FORMAT JSON)".toList ++ [' '] := by
        decide +kernel
      rw [this, List.append_assoc]
      exact List.prefix_append _ _
  exact ⟨h1 q, h2 q, h3 q, h1 _ (h3 q)⟩

/-- **C224 (violated).** A text that asks for a plan in another way gets a second EXPLAIN, which the server rejects. -/
theorem C224_explainify_violated (c : Char) (rest : List Char) (hc : c.toUpper ≠ '(') :
    explainify ("EXPLAIN ".toList ++ c :: rest) = "EXPLAIN (FORMAT JSON) EXPLAIN ".toList ++ c :: rest := by
  have hn : ¬ asksForJson ("EXPLAIN ".toList ++ c :: rest) := by
    intro h
    rw [asksForJson, List.map_append] at h
    have e1 : ("EXPLAIN ".toList : List Char).map Char.toUpper = "EXPLAIN ".toList := by decide +kernel
    have e2 : ("EXPLAIN (FORMAT JSON)".toList : List Char) = "EXPLAIN ".toList ++ '(' :: "FORMAT JSON)".toList := by
      decide +kernel
    rw [e1, e2, List.prefix_append_right_inj, List.map_cons, List.cons_prefix_cons] at h
    exact hc h.1.symm
  rw [(C224_explainify _).2.1 hn]
  have : ("EXPLAIN (FORMAT JSON) EXPLAIN ".toList : List Char) = "EXPLAIN (FORMAT JSON) ".toList ++ "EXPLAIN ".toList := by
    decide +kernel
  rw [this, List.append_assoc]

/-- **C224.** `parse_plan` gives the same plan for the fetched rows, for the simplified result and for the document itself, and it is
the plan of `query_plan` and `analyze_plan`. -/
theorem C224_shapes (d : Doc) :
    parsePlan (.raw [[[d]]]) = parsePlan (.single d) ∧ parsePlan (.simplified [d]) = parsePlan (.single d) ∧
    queryPlan [[[d]]] = parsePlan (.single d) ∧
    analyzePlan (.rows [[[d]]]) = (parsePlan (.single d)).map some ∧ analyzePlan .timeout = some none := by
  refine ⟨?_, rfl, ?_, ?_, rfl⟩
  · simp [parsePlan, mkPlan, Input.doc]
  · simp [queryPlan, firstDoc, simplifyAnswer, parsePlan]
  · simp [analyzePlan, queryPlan, firstDoc, simplifyAnswer, parsePlan]

/-- **C224.** The estimates are those of the root of the query plan, and of the EXPLAIN output. -/
theorem C224_estimates (d : Doc) (x : XNode) (hd : d.plan = some x) (q : QNode) (hq : queryPlan [[[d]]] = some q) :
    cardinalityEstimate [[[d]]] = x.raw.planRows ∧ costEstimate [[[d]]] = x.raw.totalCost ∧
    (∀ n : Rat, cardinalityEstimate [[[d]]] = some (.fin n) → q.info.estCard = Card.ofFlt (.fin n)) ∧
    (∀ c, costEstimate [[[d]]] = some c → q.info.cost = c) := by
  have hc : cardinalityEstimate [[[d]]] = x.raw.planRows := by
    simp [cardinalityEstimate, firstDoc, simplifyAnswer, hd]
  have hk : costEstimate [[[d]]] = x.raw.totalCost := by
    simp [costEstimate, firstDoc, simplifyAnswer, hd]
  have hqep : asQep x = some q := by
    simp only [queryPlan, firstDoc, simplifyAnswer, Option.bind_some, List.head?_cons, mkPlan, Input.doc, hd,
      Option.map_eq_some_iff] at hq
    obtain ⟨p, hp, rfl⟩ := hq
    cases hx : asQep x with
    | none => simp [hx] at hp
    | some q' => simp only [hx, Option.bind_some, Option.some.injEq] at hp; subst hp; rfl
  obtain ⟨r, cs⟩ := x
  have hi : q.info = r.info 1 := by
    rw [asQep, qep, Option.bind_eq_some_iff] at hqep
    obtain ⟨a, _, ha⟩ := hqep
    unfold finish at ha
    split at ha
    · cases ha
    · cases ha; rfl
  refine ⟨hc, hk, fun n hn => ?_, fun c hn => ?_⟩
  · rw [hc] at hn
    have hn' : r.planRows = some (.fin n) := hn
    have := (describes_info [] r).estimate
    have hp1 : processes [] = 1 := rfl
    rw [hp1, hn'] at this
    rw [hi, this]
    simp [scaledRows]
  · rw [hk] at hn
    have hn' : r.totalCost = some c := hn
    rw [hi]
    simp [Raw.info, Raw.cost, hn']

/-- A sequential scan. -/
def exRaw : Raw := { nodeType := "Seq Scan", relation := some "r", planRows := some (.fin 10), totalCost := some (.fin 42) }

/-- An EXPLAIN document. -/
def exDoc : Doc := ⟨some (.node exRaw []), none, none⟩

example : (queryPlan [[[exDoc]]]).isSome ∧ cardinalityEstimate [[[exDoc]]] = some (.fin 10) ∧
    costEstimate [[[exDoc]]] = some (.fin 42) := by
  refine ⟨?_, rfl, rfl⟩
  simp [queryPlan, firstDoc, simplifyAnswer, mkPlan, Input.doc, exDoc, asQep, qep, collect, finish, exRaw]

example : explainify "select 1".toList = "EXPLAIN (FORMAT JSON) select 1".toList ∧
    explainify "explain (format json) select 1".toList = "explain (format json) select 1".toList ∧
    explainify "EXPLAIN SELECT 1".toList = "EXPLAIN (FORMAT JSON) EXPLAIN SELECT 1".toList := by decide +kernel

/-! ### C225 -/

/-- The server is known to run on the same machine. -/
def Local (w : World) : Prop := w.posix = true ∧ w.host ∈ ["localhost", "127.0.0.1", "::1"] ∧ w.foundProcess = true

/-- A library is loaded by the server process. -/
def Loaded (w : World) (name : String) : Prop := ∃ f ∈ w.openFiles, (name ++ "." ++ w.lib).toList <:+ f.toList

theorem any_loaded (w : World) (name pre : String) (h : pre = name ++ ".") :
    (w.openFiles.any fun f => (pre ++ w.lib).toList.isSuffixOf f.toList) = true ↔ Loaded w name := by
  subst h
  simp only [List.any_eq_true, List.isSuffixOf_iff_suffix, Loaded]

/-- **C225.** A backend whose setting is turned on is used, with pg_hint_plan before pg_lab. -/
theorem C225_settings (w : World) :
    (w.hintPlanSetting = some "on" → infer w = ⟨false, .pgHintPlan⟩) ∧
    (w.hintPlanSetting ≠ some "on" → w.pglabSetting = some "on" → infer w = ⟨false, .pgLab⟩) := by
  refine ⟨fun h => by simp [infer, h], fun h1 h2 => by simp [infer, h1, h2]⟩

/-- **C225.** Without such a setting, the backend whose library is loaded by a local server is used, with pg_lab before
pg_hint_plan; there is none if neither is loaded. -/
theorem C225_libraries_partial (w : World) (h1 : w.hintPlanSetting ≠ some "on") (h2 : w.pglabSetting ≠ some "on")
    (hl : Local w) :
    (Loaded w "pg_lab" → infer w = ⟨false, .pgLab⟩) ∧
    (¬ Loaded w "pg_lab" → Loaded w "pg_hint_plan" → infer w = ⟨false, .pgHintPlan⟩) ∧
    (¬ Loaded w "pg_lab" → ¬ Loaded w "pg_hint_plan" → infer w = ⟨true, .none⟩) := by
  obtain ⟨ha, hb, hc⟩ := hl
  have e1 := any_loaded w "pg_lab" "pg_lab." (by decide +kernel)
  have e2 := any_loaded w "pg_hint_plan" "pg_hint_plan." (by decide +kernel)
  have hb' : (decide (w.host ∉ ["localhost", "127.0.0.1", "::1"]) || !w.foundProcess) = false := by
    rw [hc, decide_eq_false (not_not.2 hb)]; rfl
  unfold infer
  rw [if_neg h1, if_neg h2, if_neg (by simp [ha]), hb', if_neg (by simp)]
  refine ⟨fun h => by rw [if_pos (e1.2 h)], fun h h' => ?_, fun h h' => ?_⟩
  · rw [if_neg (fun x => h (e1.1 x)), if_pos (e2.2 h')]
  · rw [if_neg (fun x => h (e1.1 x)), if_neg (fun x => h' (e2.1 x))]

/-- **C225.** Hints can be generated exactly if there is a backend, be it inferred or selected by the user. -/
theorem C225_usable (w : World) (b : Backend) :
    ((infer w).usable = true ↔ (infer w).backend ≠ .none) ∧
    ((setBackend b).usable = true ↔ b ≠ .none) ∧ (setBackend b).backend = b := by
  refine ⟨?_, by cases b <;> decide, rfl⟩
  unfold infer
  (repeat' split) <;> simp [Service.usable]

/-- **C225 (violated).** Hints are generated for pg_hint_plan although it has been turned off, because its library is loaded. -/
theorem C225_disabled_violated (w : World) (h1 : w.hintPlanSetting = some "off") (h2 : w.pglabSetting = none)
    (hl : Local w) (hlib : Loaded w "pg_hint_plan") (hno : ¬ Loaded w "pg_lab") : infer w = ⟨false, .pgHintPlan⟩ :=
  (C225_libraries_partial w (by rw [h1]; decide +kernel) (by rw [h2]; simp) hl).2.1 hno hlib

/-- **C225 (violated).** Hints are generated for pg_hint_plan on all remote servers without an active backend. -/
theorem C225_remote_violated (w : World) (h1 : w.hintPlanSetting ≠ some "on") (h2 : w.pglabSetting ≠ some "on")
    (hr : ¬ Local w) : infer w = ⟨false, .pgHintPlan⟩ := by
  unfold infer
  rw [if_neg h1, if_neg h2]
  cases hp : w.posix
  · simp
  · rw [if_neg (by simp), if_pos]
    by_cases hh : w.host ∈ ["localhost", "127.0.0.1", "::1"]
    · cases hf : w.foundProcess
      · simp
      · exact absurd ⟨hp, hh, hf⟩ hr
    · simp only [Bool.or_eq_true, decide_eq_true_eq]
      exact .inl hh

/-- A local server that has loaded pg_hint_plan. -/
def exWorld : World := ⟨none, none, true, "localhost", true, ["/usr/lib/libc.so", "/usr/lib/pg_hint_plan.so"], "so"⟩

example : Local exWorld ∧ Loaded exWorld "pg_hint_plan" ∧ ¬ Loaded exWorld "pg_lab" := by
  refine ⟨⟨rfl, by decide +kernel, rfl⟩, ⟨"/usr/lib/pg_hint_plan.so", by decide +kernel, by decide +kernel⟩, ?_⟩
  rintro ⟨f, hf, h⟩
  simp only [exWorld, List.mem_cons, List.not_mem_nil, or_false] at hf
  rcases hf with rfl | rfl <;> exact absurd h (by decide +kernel)

example : ¬ Local { exWorld with host := "db.example.org" } := fun h => absurd h.2.1 (by decide +kernel)

end PB.PgToolsProps
