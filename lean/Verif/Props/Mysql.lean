import Verif.Model.Mysql
import Mathlib.Tactic.ByContra

set_option linter.unusedSimpArgs false
set_option linter.unusedVariables false
set_option linter.unusedSectionVars false
set_option linter.unnecessarySimpa false

/-! Properties C240 (schema lookups on MySQL) and C241 (dialect and connection files of MySQL). -/

namespace PB.MysqlProps
open PB PB.Mysql

/-! ## C240: schema lookups -/

/-- Specification: the table `tab` of the database `db` has the column `col`. -/
def HasColumn (cat : Catalog) (db tab col : String) : Prop := ∃ r ∈ cat.cols, r.db = db ∧ r.tab = tab ∧ r.col = col

/-- No other database has a table with this name. -/
def OnlyIn (cat : Catalog) (db tab : String) : Prop :=
  (∀ r ∈ cat.cols, r.tab = tab → r.db = db) ∧ (∀ r ∈ cat.stats, r.tab = tab → r.db = db) ∧ (∀ r ∈ cat.keys, r.tab = tab → r.db = db)

/-- A table has at most one column of each name. -/
def ColumnsUnique (cat : Catalog) : Prop :=
  ∀ r ∈ cat.cols, ∀ r' ∈ cat.cols, r.db = r'.db → r.tab = r'.tab → r.col = r'.col → r = r'

theorem mem_fetchColumns (cat : Catalog) (t : Tab) (c : String) :
    c ∈ fetchColumns cat t ↔ ∃ r ∈ cat.cols, r.tab = t.name ∧ r.col = c := by
  simp [fetchColumns, and_assoc]

theorem fetch_iff {cat : Catalog} {db : String} {t : Tab} (h : OnlyIn cat db t.name) (c : String) :
    c ∈ fetchColumns cat t ↔ HasColumn cat db t.name c := by
  rw [mem_fetchColumns]
  constructor
  · rintro ⟨r, h1, h2, h3⟩; exact ⟨r, h1, h.1 r h1 h2, h2, h3⟩
  · rintro ⟨r, h1, -, h2, h3⟩; exact ⟨r, h1, h2, h3⟩

theorem lookupLoop_some (cat : Catalog) (c : String) (cands : List Tab) (t : Tab) :
    lookupLoop cat c cands = some t ↔
      ∃ pre post, cands = pre ++ t :: post ∧ c ∈ fetchColumns cat t ∧ ∀ x ∈ pre, c ∉ fetchColumns cat x := by
  induction cands with
  | nil => simp [lookupLoop]
  | cons x xs ih =>
    unfold lookupLoop
    by_cases h : c ∈ fetchColumns cat x
    · rw [if_pos h]
      constructor
      · intro e
        cases e
        exact ⟨[], xs, rfl, h, by simp⟩
      · rintro ⟨pre, post, e, h1, h2⟩
        cases pre with
        | nil => simp at e; rw [e.1]
        | cons y ys => simp at e; exact absurd (e.1 ▸ h) (h2 y (by simp))
    · rw [if_neg h, ih]
      constructor
      · rintro ⟨pre, post, e, h1, h2⟩
        refine ⟨x :: pre, post, by rw [e]; rfl, h1, ?_⟩
        intro y hy
        rcases List.mem_cons.1 hy with rfl | hy
        · exact h
        · exact h2 y hy
      · rintro ⟨pre, post, e, h1, h2⟩
        cases pre with
        | nil => simp at e; exact absurd (e.1 ▸ h1) h
        | cons y ys =>
          simp at e
          exact ⟨ys, post, e.2, h1, fun z hz => h2 z (by simp [hz])⟩

theorem lookupLoop_none (cat : Catalog) (c : String) (cands : List Tab) :
    lookupLoop cat c cands = none ↔ ∀ t ∈ cands, c ∉ fetchColumns cat t := by
  induction cands with
  | nil => simp [lookupLoop]
  | cons x xs ih =>
    unfold lookupLoop
    by_cases h : c ∈ fetchColumns cat x
    · simp [h]
    · simp [h, ih]

/-- **C240** (partial).  `lookup_column` returns the first candidate table of the current database that has the column; if there is
none, it returns nothing, or fails if a match is expected.

Missing: tables that also exist in other databases (`C240_lookup_violated`). -/
theorem C240_lookup_partial (cat : Catalog) (db : String) (c : String) (cands : List Tab) (expect : Bool)
    (h : ∀ t ∈ cands, OnlyIn cat db t.name) :
    (∀ t, lookupColumn cat c cands expect = .ok (some t) ↔
      ∃ pre post, cands = pre ++ t :: post ∧ HasColumn cat db t.name c ∧ ∀ x ∈ pre, ¬ HasColumn cat db x.name c) ∧
    (lookupColumn cat c cands expect = .ok none ↔ expect = false ∧ ∀ t ∈ cands, ¬ HasColumn cat db t.name c) ∧
    (lookupColumn cat c cands expect = .error .notFound ↔ expect = true ∧ ∀ t ∈ cands, ¬ HasColumn cat db t.name c) := by
  have hn : lookupLoop cat c cands = none ↔ ∀ t ∈ cands, ¬ HasColumn cat db t.name c := by
    rw [lookupLoop_none]
    constructor
    · intro h1 t ht; rw [← fetch_iff (h t ht)]; exact h1 t ht
    · intro h1 t ht; rw [fetch_iff (h t ht)]; exact h1 t ht
  refine ⟨?_, ?_, ?_⟩
  · intro t
    have : lookupColumn cat c cands expect = .ok (some t) ↔ lookupLoop cat c cands = some t := by
      unfold lookupColumn
      cases lookupLoop cat c cands with
      | none => cases expect <;> simp
      | some t' => simp
    rw [this, lookupLoop_some]
    constructor
    · rintro ⟨pre, post, e, h1, h2⟩
      refine ⟨pre, post, e, (fetch_iff (h t (by simp [e])) c).1 h1, ?_⟩
      intro x hx; rw [← fetch_iff (h x (by simp [e, hx]))]; exact h2 x hx
    · rintro ⟨pre, post, e, h1, h2⟩
      refine ⟨pre, post, e, (fetch_iff (h t (by simp [e])) c).2 h1, ?_⟩
      intro x hx; rw [fetch_iff (h x (by simp [e, hx]))]; exact h2 x hx
  · rw [← hn]
    unfold lookupColumn
    cases lookupLoop cat c cands <;> cases expect <;> simp
  · rw [← hn]
    unfold lookupColumn
    cases lookupLoop cat c cands <;> cases expect <;> simp

/-- **C240** violated: columns of tables in other databases count as well, whatever the schema of the table reference. -/
theorem C240_lookup_violated (cat : Catalog) (db : String) (r : ColRow) (hr : r ∈ cat.cols)
    (hno : ¬ HasColumn cat db r.tab r.col) (schema : String) (virt expect : Bool) :
    lookupColumn cat r.col [⟨schema, r.tab, virt⟩] expect = .ok (some ⟨schema, r.tab, virt⟩) := by
  have : r.col ∈ fetchColumns cat ⟨schema, r.tab, virt⟩ := (mem_fetchColumns _ _ _).2 ⟨r, hr, rfl, rfl⟩
  simp [lookupColumn, lookupLoop, this]

/-- The databases `shop` and `test`: both have a table `customer`. -/
def sample : Catalog where
  cols := [⟨"test", "customer", "id", "int", "PRI", false⟩, ⟨"test", "customer", "debug", "text", "", true⟩,
    ⟨"shop", "customer", "id", "bigint", "PRI", false⟩, ⟨"shop", "customer", "name", "text", "MUL", true⟩,
    ⟨"shop", "orders", "cid", "bigint", "MUL", true⟩]
  stats := [⟨"shop", "customer", "id", "PRIMARY"⟩, ⟨"shop", "customer", "name", "by_name"⟩, ⟨"shop", "orders", "cid", "by_cid"⟩]
  keys := [⟨"shop", "customer", "id", none⟩, ⟨"shop", "orders", "cid", some ("customer", "id")⟩]

example : OnlyIn sample "shop" "orders" ∧ ColumnsUnique sample ∧ HasColumn sample "shop" "orders" "cid" ∧
    ¬ HasColumn sample "shop" "customer" "debug" ∧ ⟨"test", "customer", "debug", "text", "", true⟩ ∈ sample.cols := by
  refine ⟨⟨?_, ?_, ?_⟩, ?_, ?_, ?_, ?_⟩
  · decide
  · decide
  · decide
  · unfold ColumnsUnique; decide
  · exact ⟨⟨"shop", "orders", "cid", "bigint", "MUL", true⟩, by simp [sample], rfl, rfl, rfl⟩
  · rintro ⟨r, hr, h1, h2, h3⟩
    simp only [sample, List.mem_cons, List.not_mem_nil, or_false] at hr
    rcases hr with rfl | rfl | rfl | rfl | rfl <;> simp_all
  · simp [sample]

/-- A column of a table that is not virtual. -/
def bound (t : Tab) (c : String) : Col := ⟨c, some t⟩

theorem guard_ok {t : Tab} (h : t.virt = false) (c : String) : guardCol (bound t c) = .ok t := by simp [guardCol, bound, h]

/-- **C240** (partial).  Data types, nullability, indexes and foreign keys of columns are those of the current database; data types
and nullability of missing columns cause an exception.

Missing: tables that also exist in other databases (`C240_datatype_violated`). -/
theorem C240_details_partial (cat : Catalog) (db : String) (t : Tab) (hv : t.virt = false) (h : OnlyIn cat db t.name)
    (hu : ColumnsUnique cat) (c : String) :
    (∀ ty, datatype cat (bound t c) = .ok ty ↔ ∃ r ∈ cat.cols, r.db = db ∧ r.tab = t.name ∧ r.col = c ∧ r.typ = ty) ∧
    (∀ b, isNullable cat (bound t c) = .ok b ↔ ∃ r ∈ cat.cols, r.db = db ∧ r.tab = t.name ∧ r.col = c ∧ r.nullable = b) ∧
    (datatype cat (bound t c) = .error .assertion ↔ ¬ HasColumn cat db t.name c) ∧
    (isNullable cat (bound t c) = .error .assertion ↔ ¬ HasColumn cat db t.name c) ∧
    (∃ l, indexesOn cat (bound t c) = .ok l ∧
      ∀ i, i ∈ l ↔ ∃ r ∈ cat.stats, r.db = db ∧ r.tab = t.name ∧ r.col = c ∧ r.index = i) ∧
    (∃ l, foreignKeysOn cat (bound t c) = .ok l ∧
      ∀ p, p ∈ l ↔ ∃ r ∈ cat.keys, r.db = db ∧ r.tab = t.name ∧ r.col = c ∧ r.ref = some p) := by
  have hmem : ∀ r, r ∈ colRows cat t c ↔ r ∈ cat.cols ∧ r.db = db ∧ r.tab = t.name ∧ r.col = c := by
    intro r
    simp only [colRows, List.mem_filter, decide_eq_true_eq]
    constructor
    · rintro ⟨h1, h2, h3⟩; exact ⟨h1, h.1 r h1 h2, h2, h3⟩
    · rintro ⟨h1, -, h2, h3⟩; exact ⟨h1, h2, h3⟩
  have hcol : HasColumn cat db t.name c ↔ colRows cat t c ≠ [] := by
    constructor
    · rintro ⟨r, h1, h2, h3, h4⟩ e
      have := (hmem r).2 ⟨h1, h2, h3, h4⟩
      rw [e] at this; simp at this
    · intro hne
      obtain ⟨r, hr⟩ := List.exists_mem_of_ne_nil _ hne
      obtain ⟨h1, h2, h3, h4⟩ := (hmem r).1 hr
      exact ⟨r, h1, h2, h3, h4⟩
  have hone : ∀ r rs, colRows cat t c = r :: rs → ∀ r' ∈ cat.cols, r'.db = db → r'.tab = t.name → r'.col = c → r' = r := by
    intro r rs e r' h1 h2 h3 h4
    obtain ⟨g1, g2, g3, g4⟩ := (hmem r).1 (by simp [e])
    exact hu r' h1 r g1 (h2.trans g2.symm) (h3.trans g3.symm) (h4.trans g4.symm)
  refine ⟨?_, ?_, ?_, ?_, ?_, ?_⟩
  · intro ty
    simp only [datatype, guard_ok hv]
    show (match colRows cat t c with | [] => _ | r :: _ => _) = _ ↔ _
    cases e : colRows cat t c with
    | nil =>
      simp only [reduceCtorEq, false_iff]
      rintro ⟨r, h1, h2, h3, h4, -⟩
      exact (hcol.1 ⟨r, h1, h2, h3, h4⟩) e
    | cons r rs =>
      simp only [Except.ok.injEq]
      constructor
      · intro h'
        obtain ⟨g1, g2, g3, g4⟩ := (hmem r).1 (by simp [e])
        exact ⟨r, g1, g2, g3, g4, h'⟩
      · rintro ⟨r', h1, h2, h3, h4, h5⟩
        rw [← hone r rs e r' h1 h2 h3 h4]; exact h5
  · intro b
    simp only [isNullable, guard_ok hv]
    show (match colRows cat t c with | [] => _ | r :: _ => _) = _ ↔ _
    cases e : colRows cat t c with
    | nil =>
      simp only [reduceCtorEq, false_iff]
      rintro ⟨r, h1, h2, h3, h4, -⟩
      exact (hcol.1 ⟨r, h1, h2, h3, h4⟩) e
    | cons r rs =>
      simp only [Except.ok.injEq]
      constructor
      · intro h'
        obtain ⟨g1, g2, g3, g4⟩ := (hmem r).1 (by simp [e])
        exact ⟨r, g1, g2, g3, g4, h'⟩
      · rintro ⟨r', h1, h2, h3, h4, h5⟩
        rw [← hone r rs e r' h1 h2 h3 h4]; exact h5
  · rw [hcol]
    simp only [datatype, guard_ok hv]
    show (match colRows cat t c with | [] => _ | r :: _ => _) = _ ↔ _
    cases colRows cat t c <;> simp
  · rw [hcol]
    simp only [isNullable, guard_ok hv]
    show (match colRows cat t c with | [] => _ | r :: _ => _) = _ ↔ _
    cases colRows cat t c <;> simp
  · simp only [indexesOn, guard_ok hv]
    refine ⟨(cat.stats.filter fun r => r.tab = t.name ∧ r.col = c).map (·.index), rfl, fun i => ?_⟩
    simp only [List.mem_map, List.mem_filter, decide_eq_true_eq]
    constructor
    · rintro ⟨r, ⟨h1, h2, h3⟩, h4⟩; exact ⟨r, h1, h.2.1 r h1 h2, h2, h3, h4⟩
    · rintro ⟨r, h1, -, h2, h3, h4⟩; exact ⟨r, ⟨h1, h2, h3⟩, h4⟩
  · simp only [foreignKeysOn, guard_ok hv]
    refine ⟨(cat.keys.filter fun r => r.tab = t.name ∧ r.col = c).filterMap keyRef, rfl, fun p => ?_⟩
    simp only [List.mem_filterMap, List.mem_filter, decide_eq_true_eq, keyRef]
    constructor
    · rintro ⟨r, ⟨h1, h2, h3⟩, h4⟩; exact ⟨r, h1, h.2.2 r h1 h2, h2, h3, h4⟩
    · rintro ⟨r, h1, -, h2, h3, h4⟩; exact ⟨r, ⟨h1, h2, h3⟩, h4⟩

/-- **C240** violated: if a database that is listed earlier has the same table, the data type and the nullability are the ones of
this table. -/
theorem C240_datatype_violated (cat : Catalog) (t : Tab) (hv : t.virt = false) (c : String) (pre post : List ColRow) (r : ColRow)
    (hc : cat.cols = pre ++ r :: post) (ht : r.tab = t.name) (hrc : r.col = c)
    (hpre : ∀ x ∈ pre, x.tab = t.name → x.col ≠ c) :
    datatype cat (bound t c) = .ok r.typ ∧ isNullable cat (bound t c) = .ok r.nullable := by
  have : ∃ rs, colRows cat t c = r :: rs := by
    refine ⟨post.filter fun r => r.tab = t.name ∧ r.col = c, ?_⟩
    unfold colRows
    have hp : pre.filter (fun r => decide (r.tab = t.name ∧ r.col = c)) = [] := by
      rw [List.filter_eq_nil_iff]
      intro x hx h
      simp only [decide_eq_true_eq] at h
      exact hpre x hx h.1 h.2
    rw [hc, List.filter_append, hp, List.nil_append, List.filter_cons, if_pos (by simp [ht, hrc])]
  obtain ⟨rs, e⟩ := this
  constructor
  · simp only [datatype, guard_ok hv]
    show (match colRows cat t c with | [] => _ | r :: _ => _) = _
    rw [e]
  · simp only [isNullable, guard_ok hv]
    show (match colRows cat t c with | [] => _ | r :: _ => _) = _
    rw [e]

example : datatype sample (bound ⟨"shop", "customer", false⟩ "id") = .ok "int" ∧
    ∃ r ∈ sample.cols, r.db = "shop" ∧ r.tab = "customer" ∧ r.col = "id" ∧ r.typ = "bigint" := by
  constructor
  · rfl
  · exact ⟨⟨"shop", "customer", "id", "bigint", "PRI", false⟩, by simp [sample], rfl, rfl, rfl, rfl⟩

/-- **C240** violated: `is_primary_key` and `has_secondary_index` fail for all columns. -/
theorem C240_keys_violated (cat : Catalog) (c : Col) :
    (∃ e, isPrimaryKey connector cat c = .error e) ∧ (∃ e, hasSecondaryIndex connector cat c = .error e) := by
  unfold isPrimaryKey hasSecondaryIndex
  cases guardCol c with
  | error e => exact ⟨⟨e, rfl⟩, ⟨e, rfl⟩⟩
  | ok t => exact ⟨⟨.driver, rfl⟩, ⟨.driver, rfl⟩⟩

/-- A driver that treats a text as a single parameter. -/
def lenient : Driver
  | .tuple l => some l
  | .text s => some [s]

/-- **C240** (partial).  With a driver that accepts a text as the only parameter, `is_primary_key` would hold exactly for the columns
of the primary key, and `has_secondary_index` for the columns with another key.  Missing: the driver in use, and tables that also
exist in other databases. -/
theorem C240_keys_partial (cat : Catalog) (db : String) (t : Tab) (hv : t.virt = false) (h : OnlyIn cat db t.name)
    (hu : ColumnsUnique cat) (c : String) :
    (isPrimaryKey lenient cat (bound t c) = .ok (decide (∃ r ∈ cat.cols, r.db = db ∧ r.tab = t.name ∧ r.col = c ∧ r.key = "PRI"))) ∧
    (hasSecondaryIndex lenient cat (bound t c) =
      .ok (decide (∃ r ∈ cat.cols, r.db = db ∧ r.tab = t.name ∧ r.col = c ∧ r.key ≠ "" ∧ r.key ≠ "PRI"))) := by
  have hrows : ∀ rows : List ColRow, (∀ r ∈ rows, r ∈ cat.cols ∧ r.tab = t.name ∧ r.key ≠ "") → ∀ (d : Dict String Bool),
      Dict.get? ((rows.map fun r => (r.col, decide (r.key = "PRI"))).foldl (fun d e => d.set e.1 e.2) d) c =
        if (∃ r ∈ rows, r.col = c) then some (decide (∃ r ∈ rows, r.col = c ∧ r.key = "PRI")) else d.get? c := by
    intro rows
    induction rows with
    | nil => intro _ d; simp
    | cons r rs ih =>
      intro hr d
      rw [List.map_cons, List.foldl_cons, ih (fun x hx => hr x (by simp [hx])), Dict.get?_set]
      by_cases h1 : ∃ x ∈ rs, x.col = c
      · rw [if_pos h1, if_pos (by obtain ⟨x, hx, e⟩ := h1; exact ⟨x, by simp [hx], e⟩)]
        congr 1
        rw [decide_eq_decide]
        obtain ⟨x, hx, e⟩ := h1
        constructor
        · rintro ⟨y, hy, h2⟩; exact ⟨y, by simp [hy], h2⟩
        · rintro ⟨y, hy, h2, h3⟩
          rcases List.mem_cons.1 hy with rfl | hy
          · obtain ⟨a1, a2, a3⟩ := hr y (by simp)
            obtain ⟨b1, b2, b3⟩ := hr x (by simp [hx])
            have := hu y a1 x b1 ((h.1 y a1 a2).trans (h.1 x b1 b2).symm) (a2.trans b2.symm) (h2.trans e.symm)
            exact ⟨x, hx, e, this ▸ h3⟩
          · exact ⟨y, hy, h2, h3⟩
      · rw [if_neg h1]
        by_cases h2 : r.col = c
        · rw [if_pos h2, if_pos ⟨r, by simp, h2⟩]
          congr 1
          rw [decide_eq_decide]
          constructor
          · intro h3; exact ⟨r, by simp, h2, h3⟩
          · rintro ⟨y, hy, h3, h4⟩
            rcases List.mem_cons.1 hy with rfl | hy
            · exact h4
            · exact absurd ⟨y, hy, h3⟩ h1
        · rw [if_neg h2, if_neg]
          rintro ⟨y, hy, h3⟩
          rcases List.mem_cons.1 hy with rfl | hy
          · exact h2 h3
          · exact h1 ⟨y, hy, h3⟩
  have hsub : ∀ r ∈ cat.cols.filter (fun r => decide (r.tab = t.name ∧ r.key ≠ "")), r ∈ cat.cols ∧ r.tab = t.name ∧ r.key ≠ "" := by
    intro r hr
    simpa [and_assoc] using hr
  have key := hrows _ hsub []
  have e : fetchIndexes lenient cat t = .ok (Dict.ofList ((cat.cols.filter fun r => r.tab = t.name ∧ r.key ≠ "").map
      fun r => (r.col, decide (r.key = "PRI")))) := rfl
  have hmem : ∀ (r : ColRow), r ∈ cat.cols.filter (fun r => decide (r.tab = t.name ∧ r.key ≠ "")) ↔
      r ∈ cat.cols ∧ r.db = db ∧ r.tab = t.name ∧ r.key ≠ "" := by
    intro r
    simp only [List.mem_filter, decide_eq_true_eq]
    constructor
    · rintro ⟨h1, h2, h3⟩; exact ⟨h1, h.1 r h1 h2, h2, h3⟩
    · rintro ⟨h1, -, h2, h3⟩; exact ⟨h1, h2, h3⟩
  have hget : Dict.get? (Dict.ofList ((cat.cols.filter fun r => r.tab = t.name ∧ r.key ≠ "").map
      fun r => (r.col, decide (r.key = "PRI")))) c =
        if (∃ r ∈ cat.cols, r.db = db ∧ r.tab = t.name ∧ r.col = c ∧ r.key ≠ "") then
          some (decide (∃ r ∈ cat.cols, r.db = db ∧ r.tab = t.name ∧ r.col = c ∧ r.key = "PRI")) else none := by
    have : Dict.get? (Dict.ofList ((cat.cols.filter fun r => r.tab = t.name ∧ r.key ≠ "").map
      fun r => (r.col, decide (r.key = "PRI")))) c = _ := key
    rw [this]
    have c1 : (∃ r ∈ cat.cols.filter (fun r => decide (r.tab = t.name ∧ r.key ≠ "")), r.col = c) ↔
        ∃ r ∈ cat.cols, r.db = db ∧ r.tab = t.name ∧ r.col = c ∧ r.key ≠ "" := by
      constructor
      · rintro ⟨r, hr, hc⟩
        obtain ⟨a, b, d, f⟩ := (hmem r).1 hr
        exact ⟨r, a, b, d, hc, f⟩
      · rintro ⟨r, a, b, d, hc, f⟩; exact ⟨r, (hmem r).2 ⟨a, b, d, f⟩, hc⟩
    have c2 : (∃ r ∈ cat.cols.filter (fun r => decide (r.tab = t.name ∧ r.key ≠ "")), r.col = c ∧ r.key = "PRI") ↔
        ∃ r ∈ cat.cols, r.db = db ∧ r.tab = t.name ∧ r.col = c ∧ r.key = "PRI" := by
      constructor
      · rintro ⟨r, hr, hc, hk⟩
        obtain ⟨a, b, d, f⟩ := (hmem r).1 hr
        exact ⟨r, a, b, d, hc, hk⟩
      · rintro ⟨r, a, b, d, hc, hk⟩; exact ⟨r, (hmem r).2 ⟨a, b, d, by rw [hk]; decide⟩, hc, hk⟩
    simp only [c1, c2]
    rfl
  constructor
  · simp only [isPrimaryKey, guard_ok hv, e]
    rw [show (bound t c).name = c from rfl, hget]
    congr 1
    split
    · rfl
    · rename_i hn
      simp only [Option.getD_none]
      symm
      rw [decide_eq_false_iff_not]
      rintro ⟨r, a, b, d, hc, hk⟩
      exact hn ⟨r, a, b, d, hc, by rw [hk]; decide⟩
  · simp only [hasSecondaryIndex, guard_ok hv, e]
    rw [show (bound t c).name = c from rfl, hget]
    congr 1
    split
    · rename_i hp
      obtain ⟨r, a, b, d, hc, hk⟩ := hp
      simp only [Option.getD_some]
      rw [← decide_not, decide_eq_decide]
      constructor
      · intro hn; exact ⟨r, a, b, d, hc, hk, fun hk' => hn ⟨r, a, b, d, hc, hk'⟩⟩
      · rintro ⟨r', a', b', d', hc', hk', hk2⟩ ⟨r'', a2, b2, d2, hc2, hk3⟩
        have := hu r' a' r'' a2 (b'.trans b2.symm) (d'.trans d2.symm) (hc'.trans hc2.symm)
        subst this
        exact hk2 hk3
    · rename_i hn
      simp only [Option.getD_none, Bool.not_true]
      symm
      rw [decide_eq_false_iff_not]
      rintro ⟨r, a, b, d, hc, hk, -⟩
      exact hn ⟨r, a, b, d, hc, hk⟩

/-- **C240**: lookups for columns without a table or with a virtual table fail. -/
theorem C240_unbound (cat : Catalog) (drv : Driver) (c : Col) (h : c.tab = none ∨ ∃ t, c.tab = some t ∧ t.virt = true) :
    ∃ e, (e = Err.unbound ∨ e = Err.virtualTable) ∧ isPrimaryKey drv cat c = .error e ∧ hasSecondaryIndex drv cat c = .error e ∧
      indexesOn cat c = .error e ∧ foreignKeysOn cat c = .error e ∧ datatype cat c = .error e ∧ isNullable cat c = .error e := by
  rcases h with h | ⟨t, h, hv⟩
  · exact ⟨.unbound, .inl rfl, by simp [isPrimaryKey, hasSecondaryIndex, indexesOn, foreignKeysOn, datatype, isNullable, guardCol, h]⟩
  · exact ⟨.virtualTable, .inr rfl, by simp [isPrimaryKey, hasSecondaryIndex, indexesOn, foreignKeysOn, datatype, isNullable, guardCol, h, hv]⟩

/-! ## C241: texts and connection files -/

/-- What MySQL makes of the character after a backslash. -/
def escaped (c : Char) : Char := if c = 'n' then '\n' else if c = 't' then '\t' else if c = 'r' then '\r' else c

/-- Specification: how MySQL reads the rest of a string that started with the quote `q`: up to the closing quote, where two quotes
stand for one and a backslash escapes the next character; the result is the string and the text after it. -/
def readString (q : Char) : List Char → Option (List Char × List Char)
  | [] => none
  | [c] => if c = q then some ([], []) else none
  | c :: d :: cs =>
    if c = q then (if d = q then (readString q cs).map fun r => (q :: r.1, r.2) else some ([], d :: cs))
    else if c = '\\' then (readString q cs).map fun r => (escaped d :: r.1, r.2)
    else (readString q (d :: cs)).map fun r => (c :: r.1, r.2)

/-- The whole text has to be consumed. -/
def whole : Option (List Char × List Char) → Option Lit
  | some (s, []) => some (.str s)
  | _ => none

/-- Specification: how MySQL reads a literal; the whole text has to be consumed. With `ANSI_QUOTES`, a double quote starts an
identifier. -/
def readLiteral (ansiQuotes : Bool) : List Char → Option Lit
  | '\'' :: cs => whole (readString '\'' cs)
  | '"' :: cs => if ansiQuotes then none else whole (readString '"' cs)
  | cs => if cs = "NULL".toList then some .null else some (.num cs)

theorem readString_plain (q : Char) (s tail : List Char) (h1 : q ∉ s) (h2 : '\\' ∉ s) (ht : tail ≠ []) :
    readString q (s ++ tail) = (readString q tail).map fun r => (s ++ r.1, r.2) := by
  induction s with
  | nil => simp
  | cons c cs ih =>
    simp only [List.mem_cons, not_or] at h1 h2
    obtain ⟨d, ds, e⟩ : ∃ d ds, cs ++ tail = d :: ds := by
      cases cs with
      | nil => cases tail with | nil => exact absurd rfl ht | cons d ds => exact ⟨d, ds, rfl⟩
      | cons d ds => exact ⟨d, ds ++ tail, rfl⟩
    rw [List.cons_append, e]
    have step : readString q (c :: d :: ds) = (readString q (d :: ds)).map fun r => (c :: r.1, r.2) := by
      rw [readString, if_neg (Ne.symm h1.1), if_neg (Ne.symm h2.1)]
    rw [step, ← e, ih h1.2 h2.2, Option.map_map]
    rfl

theorem readString_end (q : Char) : readString q [q] = some ([], []) := by simp [readString]

theorem readString_doubled (q : Char) (hq : q ≠ '\\') (s : List Char) (h : '\\' ∉ s) :
    readString q (doubled q s ++ [q]) = some (s, []) := by
  induction s with
  | nil => simp [doubled, readString]
  | cons c cs ih =>
    simp only [List.mem_cons, not_or] at h
    unfold doubled
    split
    · rename_i e
      subst e
      show readString c (c :: c :: (doubled c cs ++ [c])) = _
      unfold readString
      rw [if_pos rfl, if_pos rfl, ih h.2]; rfl
    · rename_i hne
      have := readString_plain q [c] (doubled q cs ++ [q]) (by simpa using Ne.symm hne) (by simpa using h.1) (by simp)
      rw [ih h.2] at this
      exact this

/-- Literals that arrive: no backslashes; numbers have texts that are no strings; without `ANSI_QUOTES` neither double quotes nor
NULL. -/
def Arrives (ansiQuotes : Bool) : Lit → Prop
  | .null => ansiQuotes = true
  | .num t => t ≠ "NULL".toList ∧ t.head? ≠ some '\'' ∧ t.head? ≠ some '"'
  | .str s => '\\' ∉ s ∧ (ansiQuotes = false → '"' ∉ s)

/-- **C241** (partial).  MySQL reads literals of formatted queries as the values they stand for.

Missing: backslashes (`C241_backslash_violated`), and, if the server does not use `ANSI_QUOTES`, double quotes
(`C241_quote_violated`) and NULL (`C241_null_violated`). -/
theorem C241_literal_partial (ansiQuotes : Bool) (l : Lit) (h : Arrives ansiQuotes l) :
    readLiteral ansiQuotes (mysqlText ansiQuotes (.lit l)) = some l := by
  cases l with
  | null => cases (h : ansiQuotes = true); decide +kernel
  | num t =>
    obtain ⟨h1, h2, h3⟩ := h
    have e : mysqlText ansiQuotes (.lit (.num t)) = t := by cases ansiQuotes <;> rfl
    rw [e]
    unfold readLiteral
    split
    · exact absurd rfl h2
    · exact absurd rfl h3
    · rw [if_neg h1]
  | str s =>
    obtain ⟨h1, h2⟩ := h
    cases ansiQuotes with
    | true =>
      show whole (readString '\'' (doubled '\'' s ++ ['\''])) = _
      rw [readString_doubled '\'' (by decide) s h1]; rfl
    | false =>
      show whole (readString '"' (s ++ ['"'])) = _
      rw [readString_plain '"' s ['"'] (h2 rfl) h1 (by simp), readString_end]
      simp [whole]

example : Arrives true (.str "it's \"x\"".toList) ∧ Arrives false (.str "it's".toList) ∧ Arrives false (.num "42".toList) := by
  refine ⟨⟨by decide +kernel, by simp⟩, ⟨by decide +kernel, fun _ => by decide +kernel⟩, by decide +kernel, by decide +kernel, by decide +kernel⟩

/-- **C241**: literals inside of other expressions are always written with single quotes, which is right in both modes. -/
theorem C241_nested_partial (ansiQuotes : Bool) (fn : List Char) (s : List Char) (h : '\\' ∉ s) :
    ∃ text, mysqlText ansiQuotes (.call fn (.lit (.str s))) = fn ++ '(' :: text ++ [')'] ∧
      readLiteral ansiQuotes text = some (.str s) := by
  refine ⟨'\'' :: doubled '\'' s ++ ['\''], rfl, ?_⟩
  show whole (readString '\'' (doubled '\'' s ++ ['\''])) = _
  rw [readString_doubled '\'' (by decide) s h]; rfl

/-- **C241** violated: without `ANSI_QUOTES`, a double quote in a text ends the literal, and the rest of the text becomes part of the
statement. -/
theorem C241_quote_violated (a b : List Char) (ha : '"' ∉ a) (ha' : '\\' ∉ a) (hb : b.head? ≠ some '"') (hne : b ≠ []) :
    mysqlText false (.lit (.str (a ++ '"' :: b))) = '"' :: (a ++ '"' :: b ++ ['"']) ∧
      readString '"' (a ++ '"' :: b ++ ['"']) = some (a, b ++ ['"']) ∧
      readLiteral false (mysqlText false (.lit (.str (a ++ '"' :: b)))) = none := by
  have e : readString '"' (a ++ '"' :: b ++ ['"']) = some (a, b ++ ['"']) := by
    rw [List.append_assoc, readString_plain '"' a _ ha ha' (by simp)]
    cases b with
    | nil => exact absurd rfl hne
    | cons d ds =>
      have hd : d ≠ '"' := by simpa using hb
      show (readString '"' ('"' :: d :: (ds ++ ['"']))).map _ = _
      unfold readString
      rw [if_pos rfl, if_neg hd]
      simp
  refine ⟨rfl, e, ?_⟩
  show whole (readString '"' (a ++ '"' :: b ++ ['"'])) = _
  rw [e]
  cases b <;> rfl

example : '"' ∉ "x".toList ∧ '\\' ∉ "x".toList ∧ " OR 1=1".toList.head? ≠ some '"' ∧ " OR 1=1".toList ≠ [] := by decide +kernel

/-- **C241** violated: without `ANSI_QUOTES`, NULL becomes the text `None`. -/
theorem C241_null_violated :
    readLiteral false (mysqlText false (.lit .null)) = some (.str "None".toList) := by decide +kernel

/-- **C241** violated: a text that ends with a backslash does not end, in either mode. -/
theorem C241_backslash_violated (ansiQuotes : Bool) (s : List Char) (h : '\\' ∉ s) (h1 : '\'' ∉ s) (h2 : '"' ∉ s) :
    readLiteral ansiQuotes (mysqlText ansiQuotes (.lit (.str (s ++ ['\\'])))) = none := by
  have hend : ∀ q : Char, q ≠ '\\' → readString q ['\\', q] = none := by
    intro q hq
    unfold readString
    rw [if_neg (Ne.symm hq), if_pos rfl]
    simp [readString]
  have hd : doubled '\'' (s ++ ['\\']) = s ++ ['\\'] := by
    clear h h2
    induction s with
    | nil => decide
    | cons c cs ih =>
      simp only [List.mem_cons, not_or] at h1
      rw [List.cons_append, doubled, if_neg (Ne.symm h1.1), ih h1.2]
  cases ansiQuotes with
  | true =>
    show whole (readString '\'' (doubled '\'' (s ++ ['\\']) ++ ['\''])) = _
    rw [hd, List.append_assoc, readString_plain '\'' s _ h1 h (by simp)]
    show whole ((readString '\'' ['\\', '\'']).map _) = _
    rw [hend _ (by decide)]; rfl
  | false =>
    show whole (readString '"' (s ++ ['\\'] ++ ['"'])) = _
    rw [List.append_assoc, readString_plain '"' s _ h2 h (by simp)]
    show whole ((readString '"' ['\\', '"']).map _) = _
    rw [hend _ (by decide)]; rfl

example : '\\' ∉ "C:".toList ∧ '\'' ∉ "C:".toList ∧ '"' ∉ "C:".toList := by decide +kernel

/-- **C241** (partial).  A cast without parameters of the type is written as `CAST(x AS t)`.  Missing: parameters of types
(`C241_cast_violated`). -/
theorem C241_cast_partial (ansiQuotes : Bool) (e : Ex) (typ : List Char) :
    mysqlText ansiQuotes (.cast e typ [] false) = ['C', 'A', 'S', 'T', '('] ++ exText e ++ [' ', 'A', 'S', ' '] ++ typ ++ [')'] := rfl

/-- **C241** violated: parameters of the type get lost, e.g. the length of a text, unless the cast is part of another
expression. -/
theorem C241_cast_violated (ansiQuotes : Bool) (e : Ex) (typ : List Char) (p : List Char) (ps : List (List Char)) (arr : Bool) :
    mysqlText ansiQuotes (.cast e typ (p :: ps) arr) = mysqlText ansiQuotes (.cast e typ [] false) ∧
      exText (.cast e typ (p :: ps) arr) ≠ exText (.cast e typ [] false) ∧
      ∀ fn, mysqlText ansiQuotes (.call fn (.cast e typ (p :: ps) arr)) ≠ mysqlText ansiQuotes (.call fn (.cast e typ [] false)) := by
  have hne : exText (.cast e typ (p :: ps) arr) ≠ exText (.cast e typ [] false) := by
    intro h
    have := congrArg List.length h
    simp only [exText, typeText, List.length_append, List.length_cons, List.isEmpty_cons, List.isEmpty_nil, Bool.false_eq_true, if_false,
      if_true, List.length_nil] at this
    omega
  have hcall : ∀ fn x, mysqlText ansiQuotes (.call fn x) = fn ++ '(' :: exText x ++ [')'] := by
    intro fn x; rw [mysqlText, exText]
    all_goals simp
  refine ⟨by rw [mysqlText, mysqlText], hne, fun fn h => hne ?_⟩
  rw [hcall, hcall] at h
  simpa using h

/-- Specification: an `EXPLAIN` clause of MySQL: `EXPLAIN [ANALYZE] [FORMAT=f]`. -/
inductive IsMysqlExplain : List Char → Prop
  | mk (analyze : List Char) (format : List Char) :
      (analyze = [] ∨ analyze = [' ', 'A', 'N', 'A', 'L', 'Y', 'Z', 'E']) → (format = [] ∨ ∃ f, format = [' ', 'F', 'O', 'R', 'M', 'A', 'T', '='] ++ f) →
      IsMysqlExplain (['E', 'X', 'P', 'L', 'A', 'I', 'N'] ++ analyze ++ format)

/-- **C241** (partial and violated).  The `EXPLAIN` clause of a formatted query is one of MySQL iff it has no format; with a format, it
is one of Postgres. -/
theorem C241_explain_violated (e : Explain) : IsMysqlExplain (formatExplain e) ↔ e.format = [] := by
  obtain ⟨an, fmt⟩ := e
  constructor
  · intro h
    by_contra hne
    have hf : fmt.isEmpty = false := by cases fmt <;> simp_all
    have h8 : (formatExplain ⟨an, fmt⟩)[8]? = some '(' := by
      cases an
      · have e : formatExplain ⟨false, fmt⟩ = ['E', 'X', 'P', 'L', 'A', 'I', 'N'] ++ ([' ', '(', 'F', 'O', 'R', 'M', 'A', 'T', ' '] ++ fmt ++ [')']) := by
          simp only [formatExplain, explainText, hf, Bool.false_and, Bool.not_false, if_true, Bool.false_eq_true, if_false]
        rw [e]
        rfl
      · have e : formatExplain ⟨true, fmt⟩ = ['E', 'X', 'P', 'L', 'A', 'I', 'N'] ++ ([' ', '(', 'A', 'N', 'A', 'L', 'Y', 'Z', 'E', ',', ' ', 'F', 'O', 'R', 'M', 'A', 'T', ' '] ++ fmt ++ [')']) := by
          simp only [formatExplain, explainText, hf, Bool.true_and, Bool.not_false, if_true]
        rw [e]
        rfl
    generalize ht : formatExplain ⟨an, fmt⟩ = t at h h8
    cases h with
    | mk a f ha hfm =>
      rcases ha with rfl | rfl
      · rcases hfm with rfl | ⟨g, rfl⟩
        · exact absurd h8 (by decide)
        · exact absurd (show some 'F' = some '(' from h8) (by decide)
      · exact absurd (show some 'A' = some '(' from h8) (by decide)
  · rintro (rfl : fmt = [])
    cases an with
    | true => exact .mk [' ', 'A', 'N', 'A', 'L', 'Y', 'Z', 'E'] [] (.inr rfl) (.inl rfl)
    | false => exact .mk [] [] (.inl rfl) (.inl rfl)

theorem optional_ok (sec : Dict String String) (ha : sec.get? "autocommit" = none) :
    (optionalSettings sec).all (fun o => decide (o.1 ∈ defaults.keys)) = true := by
  rw [List.all_eq_true]
  intro o ho
  simp only [optionalSettings, List.mem_filterMap, Option.map_eq_some_iff] at ho
  obtain ⟨k, hk, v, hv, rfl⟩ := ho
  simp only [optionalKeys, List.mem_cons, List.not_mem_nil, or_false] at hk
  rw [decide_eq_true_eq]
  rcases hk with rfl | rfl | rfl | rfl | rfl | rfl | rfl
  · exact (by decide +kernel : snake "Password" ∈ defaults.keys)
  · exact (by decide +kernel : snake "Host" ∈ defaults.keys)
  · exact (by decide +kernel : snake "Port" ∈ defaults.keys)
  · exact (by decide +kernel : snake "UseUnicode" ∈ defaults.keys)
  · exact (by decide +kernel : snake "Charset" ∈ defaults.keys)
  · rw [show lowerKey "AutoCommit" = "autocommit" by decide +kernel, ha] at hv; cases hv
  · exact (by decide +kernel : snake "SqlMode" ∈ defaults.keys)

/-- One optional setting. -/
def put (o : Option String) (n : String) (d : Dict String PyVal) : Dict String PyVal :=
  match o with
  | some v => d.set n (.text v)
  | none => d

theorem get?_put (o : Option String) (n : String) (d : Dict String PyVal) (k : String) :
    (put o n d).get? k = if n = k then (match o with | some v => some (.text v) | none => d.get? k) else d.get? k := by
  cases o with
  | none => simp [put]
  | some v => simp only [put, Dict.get?_set]

theorem fold_settings (sec : Dict String String) (d : Dict String PyVal) (ha : sec.get? "autocommit" = none) :
    (optionalSettings sec).foldl (fun d o => d.set o.1 (PyVal.text o.2)) d =
      put (sec.get? "sqlmode") "sql_mode" (put (sec.get? "charset") "charset" (put (sec.get? "useunicode") "use_unicode"
        (put (sec.get? "port") "port" (put (sec.get? "host") "host" (put (sec.get? "password") "password" d))))) := by
  have step : ∀ (k : String) (ks : List String) (d : Dict String PyVal),
      ((k :: ks).filterMap fun k => (sec.get? (lowerKey k)).map fun v => (snake k, v)).foldl (fun d o => d.set o.1 (PyVal.text o.2)) d =
        (ks.filterMap fun k => (sec.get? (lowerKey k)).map fun v => (snake k, v)).foldl (fun d o => d.set o.1 (PyVal.text o.2))
          (put (sec.get? (lowerKey k)) (snake k) d) := by
    intro k ks d
    cases h : sec.get? (lowerKey k) <;> simp [List.filterMap_cons, h, put]
  have l1 : lowerKey "Password" = "password" ∧ snake "Password" = "password" := by decide +kernel
  have l2 : lowerKey "Host" = "host" ∧ snake "Host" = "host" := by decide +kernel
  have l3 : lowerKey "Port" = "port" ∧ snake "Port" = "port" := by decide +kernel
  have l4 : lowerKey "UseUnicode" = "useunicode" ∧ snake "UseUnicode" = "use_unicode" := by decide +kernel
  have l5 : lowerKey "Charset" = "charset" ∧ snake "Charset" = "charset" := by decide +kernel
  have l6 : lowerKey "AutoCommit" = "autocommit" := by decide +kernel
  have l7 : lowerKey "SqlMode" = "sqlmode" ∧ snake "SqlMode" = "sql_mode" := by decide +kernel
  unfold optionalSettings optionalKeys
  rw [step, step, step, step, step, step, step, l1.1, l1.2, l2.1, l2.2, l3.1, l3.2, l4.1, l4.2, l5.1, l5.2, l6, l7.1, l7.2, ha]
  rfl

/-- Specification: the optional settings of a connection, with their names in the file and their default values. -/
def settingNames : List (String × String × PyVal) :=
  [("password", "password", .text ""), ("host", "host", .text "127.0.0.1"), ("port", "port", .int 3306),
    ("use_unicode", "useunicode", .bool true), ("charset", "charset", .text "utf8mb4"), ("sql_mode", "sqlmode", .text "ANSI")]

/-- **C241** (partial).  A connection file provides the user, the database and the settings in it, all as texts; other settings have
their default values.

Missing: `AutoCommit` (`C241_autocommit_violated`); numbers and truth values remain texts (`C241_types_violated`). -/
theorem C241_connection_partial (file : Dict String (Dict String String)) (sec : Dict String String) (u d : String)
    (h : file.get? "MYSQL" = some sec) (hu : sec.get? "user" = some u) (hd : sec.get? "database" = some d)
    (ha : sec.get? "autocommit" = none) :
    ∃ args, parseConnection file = .ok args ∧ args.get? "user" = some (.text u) ∧ args.get? "database" = some (.text d) ∧
      args.get? "autocommit" = some (.bool true) ∧
      ∀ s ∈ settingNames, args.get? s.1 = some (match sec.get? s.2.1 with | some v => .text v | none => s.2.2) := by
  have hc : parseConnection file = connArgs u d (optionalSettings sec) := by
    unfold parseConnection; rw [h]; simp only [hu, hd]
  rw [hc]
  unfold connArgs
  rw [if_pos (optional_ok sec ha)]
  refine ⟨_, rfl, ?_⟩
  rw [fold_settings sec _ ha]
  refine ⟨?_, ?_, ?_, ?_⟩
  · simp [get?_put, Dict.get?, defaults]
  · simp [get?_put, Dict.get?, defaults]
  · simp [get?_put, Dict.get?, defaults]
  · intro s hs
    simp only [settingNames, List.mem_cons, List.not_mem_nil, or_false] at hs
    rcases hs with rfl | rfl | rfl | rfl | rfl | rfl
    · cases hx : sec.get? "password" <;> (simp [get?_put, hx, Dict.get?, defaults])
    · cases hx : sec.get? "host" <;> (simp [get?_put, hx, Dict.get?, defaults])
    · cases hx : sec.get? "port" <;> (simp [get?_put, hx, Dict.get?, defaults])
    · cases hx : sec.get? "useunicode" <;> (simp [get?_put, hx, Dict.get?, defaults])
    · cases hx : sec.get? "charset" <;> (simp [get?_put, hx, Dict.get?, defaults])
    · cases hx : sec.get? "sqlmode" <;> (simp [get?_put, hx, Dict.get?, defaults])

/-- A connection file. -/
def connFile : Dict String (Dict String String) :=
  [("MYSQL", [("user", "me"), ("database", "imdb"), ("port", "3307")])]

example : ∃ sec, connFile.get? "MYSQL" = some sec ∧ sec.get? "user" = some "me" ∧ sec.get? "database" = some "imdb" ∧
    sec.get? "autocommit" = none ∧ sec.get? "port" = some "3307" :=
  ⟨[("user", "me"), ("database", "imdb"), ("port", "3307")], by decide +kernel⟩

/-- **C241** violated: a port from a connection file is a text, not a number; switching Unicode off in the file provides the text that
was written there, which counts as true. -/
theorem C241_types_violated (file : Dict String (Dict String String)) (sec : Dict String String) (u d p : String)
    (h : file.get? "MYSQL" = some sec) (hu : sec.get? "user" = some u) (hd : sec.get? "database" = some d)
    (ha : sec.get? "autocommit" = none) :
    ∃ args, parseConnection file = .ok args ∧
      (∀ v, sec.get? "port" = some v → args.get? "port" = some (.text v) ∧ ∀ n, args.get? "port" ≠ some (.int n)) ∧
      (∀ v, sec.get? "useunicode" = some v → args.get? "use_unicode" ≠ some (.bool false)) := by
  obtain ⟨args, h1, -, -, -, h2⟩ := C241_connection_partial file sec u d h hu hd ha
  refine ⟨args, h1, ?_, ?_⟩
  · intro v hv
    have := h2 ("port", "port", .int 3306) (by simp [settingNames])
    simp only [hv] at this
    exact ⟨this, fun n e => by rw [this] at e; cases e⟩
  · intro v hv e
    have := h2 ("use_unicode", "useunicode", .bool true) (by simp [settingNames])
    simp only [hv] at this
    rw [this] at e; cases e

/-- **C241**: files without the section or without user or database are rejected. -/
theorem C241_malformed (file : Dict String (Dict String String)) :
    parseConnection file = .error .malformed ↔
      ∀ sec, file.get? "MYSQL" = some sec → sec.get? "user" = none ∨ sec.get? "database" = none := by
  unfold parseConnection
  cases file.get? "MYSQL" with
  | none => simp
  | some sec =>
    simp only [Option.some.injEq, forall_eq']
    cases hu : sec.get? "user" with
    | none => simp
    | some u =>
      cases hd : sec.get? "database" with
      | none => simp
      | some d =>
        simp only [reduceCtorEq, or_self, iff_false]
        unfold connArgs
        split <;> simp

/-- **C241** violated: every connection file that sets `AutoCommit` is rejected. -/
theorem C241_autocommit_violated (file : Dict String (Dict String String)) (sec : Dict String String) (u d v : String)
    (h : file.get? "MYSQL" = some sec) (hu : sec.get? "user" = some u) (hd : sec.get? "database" = some d)
    (ha : sec.get? "autocommit" = some v) : parseConnection file = .error .keyword := by
  have hc : parseConnection file = connArgs u d (optionalSettings sec) := by
    unfold parseConnection; rw [h]; simp only [hu, hd]
  rw [hc]
  unfold connArgs
  rw [if_neg]
  intro hall
  rw [List.all_eq_true] at hall
  have hm : ("auto_commit", v) ∈ optionalSettings sec := by
    unfold optionalSettings
    rw [List.mem_filterMap]
    refine ⟨"AutoCommit", by simp [optionalKeys], ?_⟩
    rw [show lowerKey "AutoCommit" = "autocommit" by decide +kernel, ha, show snake "AutoCommit" = "auto_commit" by decide +kernel]
    rfl
  have := hall _ hm
  rw [decide_eq_true_eq] at this
  exact absurd this (by decide +kernel : ¬ "auto_commit" ∈ defaults.keys)

example : ∃ sec, Dict.get? [("MYSQL", [("user", "me"), ("database", "imdb"), ("autocommit", "true")])] "MYSQL" = some sec ∧
    Dict.get? sec "user" = some "me" ∧ Dict.get? sec "database" = some "imdb" ∧ Dict.get? sec "autocommit" = some "true" :=
  ⟨[("user", "me"), ("database", "imdb"), ("autocommit", "true")], by decide +kernel⟩

end PB.MysqlProps
