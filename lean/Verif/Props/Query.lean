import Verif.Model.Query
import Verif.Props.Expr

set_option linter.unusedSimpArgs false
set_option linter.unusedVariables false
set_option linter.unusedSectionVars false
set_option linter.unnecessarySimpa false
set_option linter.dupNamespace false
set_option linter.unnecessarySeqFocus false

/-! Properties C111-C114: what whole queries report about their tables, columns, subqueries, bound tables and predicates. -/

namespace PB.QueryProps
open PB PB.Qal PB.Qal.Expr PB.Query PB.ExprProps

variable {Q : Type}

/-! ### Specification: the parts of a query -/

/-- The names that a FROM item introduces: tables and names of other items, also those that are joined. -/
def sourceNames : Source Q → List Tab
  | .table t => [t]
  | .sub _ a _ => a.toList
  | .values _ a _ => a.toList
  | .func _ a => a.toList
  | .join l r _ => sourceNames l ++ sourceNames r

/-- The subqueries that are (parts of) a FROM item. -/
def sourceQueries : Source Q → List Q
  | .sub q _ _ => [q]
  | .join l r _ => sourceQueries l ++ sourceQueries r
  | _ => []

/-- The expressions that are written in a FROM item. -/
def sourceExprs : Source Q → List (Expr Q)
  | .values rows _ _ => rows
  | .func f _ => [f]
  | .join l r c => sourceExprs l ++ sourceExprs r ++ c.toList
  | _ => []

/-- The columns that VALUES lists declare in a FROM item. -/
def sourceCols : Source Q → List Col
  | .values _ _ cs => cs
  | .join l r _ => sourceCols l ++ sourceCols r
  | _ => []

/-- The FROM items. -/
def fromItems : Option (From Q) → List (Source Q)
  | none => []
  | some (.implicit ts) => ts.map .table
  | some (.general ss) => ss

/-- The FROM items, in all branches of a set query. -/
def items : Query Q → List (Source Q)
  | .plain b => fromItems b.from_
  | .set l r _ _ => items l ++ items r

/-- The expressions of the clauses other than FROM and DISTINCT ON. -/
def clauseExprs (b : Body Q) : List (Expr Q) := b.select.map (·.1) ++ b.where_.toList ++ b.group ++ b.having.toList ++ b.order

/-- The expressions that are written directly in a query. -/
def exprs : Query Q → List (Expr Q)
  | .plain b => clauseExprs b ++ b.distinctOn ++ (fromItems b.from_).flatMap sourceExprs
  | .set l r _ o => exprs l ++ exprs r ++ o

/-- The WITH queries. -/
def withs : Query Q → List (With Q)
  | .plain b => b.ctes
  | .set l r ws _ => withs l ++ withs r ++ ws

/-- The expression refers to the table. -/
def RefersTo (t : Tab) (e : Expr Q) : Prop := ∃ s, Sub s e ∧ (s = .star (some t) ∨ ∃ c, s = .col c ∧ c.tab = some t)

/-- `x` is nested directly in the query: in the WITH clause, in an expression or as a FROM item. -/
def Nested (x : Q) (q : Query Q) : Prop :=
  (∃ w ∈ withs q, w.query = x) ∨ (∃ e ∈ exprs q, Sub (.subq x) e) ∨ ∃ s ∈ items q, x ∈ sourceQueries s

/-- The query mentions the table (in FROM, as the name of a FROM item, or in an expression), on any level. -/
def Mentions : (n : Nat) → Tab → QN n → Prop
  | 0, _, q => q.elim
  | n + 1, t, q => (∃ s ∈ items q, t ∈ sourceNames s) ∨ (∃ e ∈ exprs q, RefersTo t e) ∨ ∃ x, Nested x q ∧ Mentions n t x

/-- The query mentions the column, on any level. -/
def MentionsColumn : (n : Nat) → Col → QN n → Prop
  | 0, _, q => q.elim
  | n + 1, c, q => (∃ s ∈ items q, c ∈ sourceCols s) ∨ (∃ e ∈ exprs q, Sub (.col c) e) ∨ ∃ x, Nested x q ∧ MentionsColumn n c x

/-! ### C111: tables and columns -/

theorem mem_iterExpressions_sub {e s : Expr Q} {c : Expr Q} (h : c ∈ e.iterExpressions) (hs : Sub s c) : Sub s e := hs.trans (sub_iterExpressions e c h)

theorem mem_condParts {p : Option (Expr Q)} {c : Expr Q} (h : c ∈ condParts p) : ∃ e ∈ p.toList, Sub c e := by
  obtain ⟨e, he, hc⟩ := List.mem_flatMap.1 h
  exact ⟨e, he, sub_iterExpressions e c hc⟩

/-- `MentionsTab` in terms of the parts. -/
theorem mentionsTab_iff (ops : QOps Q) (t : Tab) (e : Expr Q) :
    MentionsTab ops t e ↔ RefersTo t e ∨ ∃ q, Sub (.subq q) e ∧ t ∈ ops.tables q := by
  constructor
  · rintro ⟨s, hs, h | h | ⟨q, rfl, hq⟩⟩
    · exact .inl ⟨s, hs, .inl h⟩
    · exact .inl ⟨s, hs, .inr h⟩
    · exact .inr ⟨q, hs, hq⟩
  · rintro (⟨s, hs, h⟩ | ⟨q, hs, hq⟩)
    · exact ⟨s, hs, h.elim .inl (fun h => .inr (.inl h))⟩
    · exact ⟨_, hs, .inr (.inr ⟨q, rfl, hq⟩)⟩

theorem mentionsCol_iff (ops : QOps Q) (c : Col) (e : Expr Q) :
    MentionsCol ops c e ↔ Sub (.col c) e ∨ ∃ q, Sub (.subq q) e ∧ c ∈ ops.columns q := by
  constructor
  · rintro ⟨s, hs, rfl | ⟨q, rfl, hq⟩⟩
    · exact .inl hs
    · exact .inr ⟨q, hs, hq⟩
  · rintro (hs | ⟨q, hs, hq⟩)
    · exact ⟨_, hs, .inl rfl⟩
    · exact ⟨_, hs, .inr ⟨q, rfl, hq⟩⟩

/-- What the items of a FROM clause contribute to `tables`. -/
theorem source_tables_sound (ops : QOps Q) (t : Tab) (ht : t ≠ noTab) (s : Source Q) (h : t ∈ s.tables ops) :
    t ∈ sourceNames s ∨ (∃ e ∈ sourceExprs s, MentionsTab ops t e) ∨ ∃ q ∈ sourceQueries s, t ∈ ops.tables q := by
  induction s with
  | table u => simp [Source.tables] at h; simp [sourceNames, h]
  | sub q a l =>
    simp only [Source.tables, Finset.mem_union, Finset.mem_singleton] at h
    rcases h with h | h
    · exact .inr (.inr ⟨q, by simp [sourceQueries], h⟩)
    · cases a with
      | none => exact absurd h ht
      | some a => exact .inl (by simp [sourceNames, nameOf] at h ⊢; exact h)
  | values rows a cs =>
    simp only [Source.tables, Finset.mem_singleton] at h
    cases a with
    | none => exact absurd h ht
    | some a => exact .inl (by simp [sourceNames, nameOf] at h ⊢; exact h)
  | func f a =>
    cases a with
    | none => simp [Source.tables] at h
    | some a =>
      simp only [Source.tables, Option.isSome_some, if_true, Finset.mem_union, Finset.mem_singleton] at h
      rcases h with h | h
      · exact .inr (.inl ⟨f, by simp [sourceExprs], C82_tables_sound ops f t h⟩)
      · exact .inl (by simp [sourceNames, nameOf] at h ⊢; exact h)
  | join l r c ihl ihr =>
    simp only [Source.tables, Finset.mem_union] at h
    rcases h with h | h
    · rcases ihl h with h | ⟨e, he, h⟩ | ⟨q, hq, h⟩
      · exact .inl (by simp [sourceNames, h])
      · exact .inr (.inl ⟨e, by simp [sourceExprs, he], h⟩)
      · exact .inr (.inr ⟨q, by simp [sourceQueries, hq], h⟩)
    · rcases ihr h with h | ⟨e, he, h⟩ | ⟨q, hq, h⟩
      · exact .inl (by simp [sourceNames, h])
      · exact .inr (.inl ⟨e, by simp [sourceExprs, he], h⟩)
      · exact .inr (.inr ⟨q, by simp [sourceQueries, hq], h⟩)

theorem mem_exprTables (ops : QOps Q) (es : List (Expr Q)) (t : Tab) : t ∈ exprTables ops es ↔ ∃ e ∈ es, t ∈ e.tables ops := by
  simp [exprTables, mem_unionAll]

theorem mem_exprColumns (ops : QOps Q) (es : List (Expr Q)) (c : Col) : c ∈ exprColumns ops es ↔ ∃ e ∈ es, c ∈ e.columns ops := by
  simp [exprColumns, mem_unionAll]

theorem mem_fromTables (ops : QOps Q) (f : Option (From Q)) (t : Tab) :
    t ∈ unionAll (f.toList.map fun f => f.tables ops) ↔ ∃ s ∈ fromItems f, t ∈ s.tables ops := by
  rcases f with _ | ts | ss
  · simp [fromItems, unionAll]
  · simp [fromItems, mem_unionAll, From.tables, Source.tables]
  · simp [fromItems, mem_unionAll, From.tables]

theorem mem_fromColumns (ops : QOps Q) (f : Option (From Q)) (c : Col) :
    c ∈ unionAll (f.toList.map fun f => f.columns ops) ↔ ∃ s ∈ fromItems f, c ∈ s.columns ops := by
  rcases f with _ | ts | ss
  · simp [fromItems, unionAll]
  · simp [fromItems, mem_unionAll, From.columns, Source.columns]
  · simp [fromItems, mem_unionAll, From.columns]

theorem mem_bodyTables (ops : QOps Q) (b : Body Q) (t : Tab) :
    t ∈ b.tables ops ↔ (∃ w ∈ b.ctes, t ∈ ops.tables w.query) ∨ (∃ s ∈ fromItems b.from_, t ∈ s.tables ops) ∨
      ∃ e ∈ b.select.map (·.1) ++ b.where_.toList ++ b.group ++ condParts b.having ++ b.order, t ∈ e.tables ops := by
  simp only [Body.tables, Finset.mem_union, mem_exprTables, mem_fromTables, List.mem_append, or_and_right, exists_or]
  simp only [mem_unionAll, List.mem_map, exists_exists_and_eq_and]
  grind

theorem mem_bodyColumns (ops : QOps Q) (b : Body Q) (c : Col) :
    c ∈ b.columns ops ↔ (∃ w ∈ b.ctes, c ∈ ops.columns w.query) ∨ (∃ s ∈ fromItems b.from_, c ∈ s.columns ops) ∨
      ∃ e ∈ clauseExprs b, c ∈ e.columns ops := by
  simp only [Body.columns, clauseExprs, Finset.mem_union, mem_exprColumns, mem_fromColumns, List.mem_append, or_and_right, exists_or]
  simp only [mem_unionAll, List.mem_map, exists_exists_and_eq_and]
  grind

theorem nested_set (l r : Query Q) (ws : List (With Q)) (o : List (Expr Q)) (x : Q) :
    Nested x (.set l r ws o) ↔ Nested x l ∨ Nested x r ∨ (∃ w ∈ ws, w.query = x) ∨ ∃ e ∈ o, Sub (.subq x) e := by
  simp only [Nested, withs, exprs, items, List.mem_append]
  grind

/-- One level of `tables`: everything reported is a name, a reference or is reported by a nested query. -/
theorem tables_sound_step (ops : QOps Q) (t : Tab) (ht : t ≠ noTab) (q : Query Q) (h : t ∈ q.tables ops) :
    (∃ s ∈ items q, t ∈ sourceNames s) ∨ (∃ e ∈ exprs q, RefersTo t e) ∨ ∃ x, Nested x q ∧ t ∈ ops.tables x := by
  induction q with
  | plain b =>
    rw [Query.tables, mem_bodyTables] at h
    have key : ∀ e e', e' ∈ exprs (.plain b) → Sub e e' → t ∈ e.tables ops →
        (∃ e ∈ exprs (.plain b), RefersTo t e) ∨ ∃ x, Nested x (.plain b) ∧ t ∈ ops.tables x := by
      intro e e' he' hee h
      rcases (mentionsTab_iff ops t e).1 (C82_tables_sound ops e t h) with ⟨s, hs, h⟩ | ⟨x, hx, h⟩
      · exact .inl ⟨e', he', s, hs.trans hee, h⟩
      · exact .inr ⟨x, .inr (.inl ⟨e', he', hx.trans hee⟩), h⟩
    rcases h with ⟨w, hw, h⟩ | ⟨s, hs, h⟩ | ⟨e, he, h⟩
    · exact .inr (.inr ⟨_, .inl ⟨w, hw, rfl⟩, h⟩)
    · rcases source_tables_sound ops t ht s h with h | ⟨e, he, h⟩ | ⟨x, hx, h⟩
      · exact .inl ⟨s, hs, h⟩
      · have he' : e ∈ exprs (.plain b) := by
          simp only [exprs, List.mem_append, List.mem_flatMap]
          exact .inr ⟨s, hs, he⟩
        rcases (mentionsTab_iff ops t e).1 h with h | ⟨x, hx, h⟩
        · exact .inr (.inl ⟨e, he', h⟩)
        · exact .inr (.inr ⟨x, .inr (.inl ⟨e, he', hx⟩), h⟩)
      · exact .inr (.inr ⟨x, .inr (.inr ⟨s, hs, hx⟩), h⟩)
    · refine .inr ?_
      simp only [List.mem_append] at he
      have hin : ∃ e' ∈ exprs (.plain b), Sub e e' := by
        rcases he with (((he | he) | he) | he) | he
        · exact ⟨e, by simp only [exprs, clauseExprs, List.mem_append]; tauto, .refl _⟩
        · exact ⟨e, by simp only [exprs, clauseExprs, List.mem_append]; tauto, .refl _⟩
        · exact ⟨e, by simp only [exprs, clauseExprs, List.mem_append]; tauto, .refl _⟩
        · obtain ⟨e', he', hs⟩ := mem_condParts he
          exact ⟨e', by simp only [exprs, clauseExprs, List.mem_append]; tauto, hs⟩
        · exact ⟨e, by simp only [exprs, clauseExprs, List.mem_append]; tauto, .refl _⟩
      obtain ⟨e', he', hs⟩ := hin
      exact key e e' he' hs h
  | set l r ws o ihl ihr =>
    simp only [Query.tables, Finset.mem_union] at h
    rcases h with h | h
    · rcases ihl h with ⟨s, hs, h⟩ | ⟨e, he, h⟩ | ⟨x, hx, h⟩
      · exact .inl ⟨s, by simp [items, hs], h⟩
      · exact .inr (.inl ⟨e, by simp [exprs, he], h⟩)
      · exact .inr (.inr ⟨x, (nested_set l r ws o x).2 (.inl hx), h⟩)
    · rcases ihr h with ⟨s, hs, h⟩ | ⟨e, he, h⟩ | ⟨x, hx, h⟩
      · exact .inl ⟨s, by simp [items, hs], h⟩
      · exact .inr (.inl ⟨e, by simp [exprs, he], h⟩)
      · exact .inr (.inr ⟨x, (nested_set l r ws o x).2 (.inr (.inl hx)), h⟩)

/-- One level of `columns`. -/
theorem source_columns_sound (ops : QOps Q) (c : Col) (s : Source Q) (h : c ∈ s.columns ops) :
    c ∈ sourceCols s ∨ (∃ e ∈ sourceExprs s, MentionsCol ops c e) ∨ ∃ q ∈ sourceQueries s, c ∈ ops.columns q := by
  induction s with
  | table u => simp [Source.columns] at h
  | sub q a l => exact .inr (.inr ⟨q, by simp [sourceQueries], h⟩)
  | values rows a cs => exact .inl (by simpa [Source.columns, sourceCols] using h)
  | func f a => exact .inr (.inl ⟨f, by simp [sourceExprs], C82_columns_sound ops f c h⟩)
  | join l r cd ihl ihr =>
    simp only [Source.columns, Finset.mem_union, mem_unionAll] at h
    rcases h with (h | h) | ⟨x, hx, h⟩
    · rcases ihl h with h | ⟨e, he, h⟩ | ⟨q, hq, h⟩
      · exact .inl (by simp [sourceCols, h])
      · exact .inr (.inl ⟨e, by simp [sourceExprs, he], h⟩)
      · exact .inr (.inr ⟨q, by simp [sourceQueries, hq], h⟩)
    · rcases ihr h with h | ⟨e, he, h⟩ | ⟨q, hq, h⟩
      · exact .inl (by simp [sourceCols, h])
      · exact .inr (.inl ⟨e, by simp [sourceExprs, he], h⟩)
      · exact .inr (.inr ⟨q, by simp [sourceQueries, hq], h⟩)
    · obtain ⟨e, he, rfl⟩ := List.mem_map.1 hx
      exact .inr (.inl ⟨e, by simp only [sourceExprs, List.mem_append]; exact .inr he, C82_columns_sound ops e c h⟩)

theorem columns_sound_step (ops : QOps Q) (c : Col) (q : Query Q) (h : c ∈ q.columns ops) :
    (∃ s ∈ items q, c ∈ sourceCols s) ∨ (∃ e ∈ exprs q, Sub (.col c) e) ∨ ∃ x, Nested x q ∧ c ∈ ops.columns x := by
  induction q with
  | plain b =>
    rw [Query.columns, mem_bodyColumns] at h
    rcases h with ⟨w, hw, h⟩ | ⟨s, hs, h⟩ | ⟨e, he, h⟩
    · exact .inr (.inr ⟨_, .inl ⟨w, hw, rfl⟩, h⟩)
    · rcases source_columns_sound ops c s h with h | ⟨e, he, h⟩ | ⟨x, hx, h⟩
      · exact .inl ⟨s, hs, h⟩
      · have he' : e ∈ exprs (.plain b) := by
          simp only [exprs, List.mem_append, List.mem_flatMap]
          exact .inr ⟨s, hs, he⟩
        rcases (mentionsCol_iff ops c e).1 h with h | ⟨x, hx, h⟩
        · exact .inr (.inl ⟨e, he', h⟩)
        · exact .inr (.inr ⟨x, .inr (.inl ⟨e, he', hx⟩), h⟩)
      · exact .inr (.inr ⟨x, .inr (.inr ⟨s, hs, hx⟩), h⟩)
    · have he' : e ∈ exprs (.plain b) := by simp only [exprs, List.mem_append]; exact .inl (.inl he)
      rcases (mentionsCol_iff ops c e).1 (C82_columns_sound ops e c h) with h | ⟨x, hx, h⟩
      · exact .inr (.inl ⟨e, he', h⟩)
      · exact .inr (.inr ⟨x, .inr (.inl ⟨e, he', hx⟩), h⟩)
  | set l r ws o ihl ihr =>
    simp only [Query.columns, Finset.mem_union] at h
    rcases h with h | h
    · rcases ihl h with ⟨s, hs, h⟩ | ⟨e, he, h⟩ | ⟨x, hx, h⟩
      · exact .inl ⟨s, by simp [items, hs], h⟩
      · exact .inr (.inl ⟨e, by simp [exprs, he], h⟩)
      · exact .inr (.inr ⟨x, (nested_set l r ws o x).2 (.inl hx), h⟩)
    · rcases ihr h with ⟨s, hs, h⟩ | ⟨e, he, h⟩ | ⟨x, hx, h⟩
      · exact .inl ⟨s, by simp [items, hs], h⟩
      · exact .inr (.inl ⟨e, by simp [exprs, he], h⟩)
      · exact .inr (.inr ⟨x, (nested_set l r ws o x).2 (.inr (.inl hx)), h⟩)

/-- **C111.** `tables()` never reports a table that the query and its subqueries do not mention (apart from `None`). -/
theorem C111_tables_sound (n : Nat) (q : QN n) (t : Tab) (ht : t ≠ noTab) (h : t ∈ (info n).ops.tables q) : Mentions n t q := by
  induction n with
  | zero => exact q.elim
  | succ n ih =>
    rcases tables_sound_step (info n).ops t ht q h with h | h | ⟨x, hx, h⟩
    · exact .inl h
    · exact .inr (.inl h)
    · exact .inr (.inr ⟨x, hx, ih x h⟩)

/-- **C111.** `columns()` never reports a column that the query and its subqueries do not mention. -/
theorem C111_columns_sound (n : Nat) (q : QN n) (c : Col) (h : c ∈ (info n).ops.columns q) : MentionsColumn n c q := by
  induction n with
  | zero => exact q.elim
  | succ n ih =>
    rcases columns_sound_step (info n).ops c q h with h | h | ⟨x, hx, h⟩
    · exact .inl h
    · exact .inr (.inl h)
    · exact .inr (.inr ⟨x, hx, ih x h⟩)

/-! ### What has to be excluded -/

/-- The expression is handled by `tables()`, `columns()` and the traversal (see C82, C83). -/
def Tame (e : Expr Q) : Prop := Regular e ∧ Typed e ∧ ∀ s, Sub s e → collectableNode s = true

/-- The expression mentions no table, column or subquery. -/
def Closed (e : Expr Q) : Prop := ∀ s, Sub s e → (∀ t, s ≠ .star (some t)) ∧ (∀ c, s ≠ .col c) ∧ ∀ q, s ≠ .subq q

/-- VALUES lists are constant, functions have a name, join conditions contain no subquery and only refer to the tables that are joined. -/
def TidySource : Source Q → Prop
  | .table _ => True
  | .sub _ _ _ => True
  | .values rows _ _ => ∀ e ∈ rows, Closed e
  | .func f a => Tame f ∧ a.isSome
  | .join l r c => TidySource l ∧ TidySource r ∧ ∀ e ∈ c.toList, Tame e ∧ (∀ q, ¬ Sub (.subq q) e) ∧ ∀ t, RefersTo t e → t ∈ sourceNames l ++ sourceNames r

/-- No DISTINCT ON, regular expressions, tidy FROM items; set operations without WITH clauses of their own and without tables in ORDER BY. -/
def TidyQuery : Query Q → Prop
  | .plain b => b.distinctOn = [] ∧ (∀ e ∈ clauseExprs b, Tame e) ∧ (∀ p ∈ b.having.toList, p.isPred = true) ∧ ∀ s ∈ fromItems b.from_, TidySource s
  | .set l r ws o => TidyQuery l ∧ TidyQuery r ∧ ws = [] ∧ ∀ e ∈ o, Closed e

/-- On every level. -/
def Tidy : (n : Nat) → QN n → Prop
  | 0, q => q.elim
  | n + 1, q => TidyQuery q ∧ ∀ x, Nested x q → Tidy n x

theorem Closed.not_refers {e : Expr Q} (h : Closed e) (t : Tab) : ¬ RefersTo t e := by
  rintro ⟨s, hs, h' | ⟨c, h', _⟩⟩
  · exact (h s hs).1 t h'
  · exact (h s hs).2.1 c h'

theorem Closed.not_subq {e : Expr Q} (h : Closed e) (q : Q) : ¬ Sub (.subq q) e := fun hs => (h _ hs).2.2 q rfl
theorem Closed.not_col {e : Expr Q} (h : Closed e) (c : Col) : ¬ Sub (.col c) e := fun hs => (h _ hs).2.1 c rfl

theorem tables_tame (ops : QOps Q) {e : Expr Q} (h : Tame e) (t : Tab) :
    t ∈ e.tables ops ↔ RefersTo t e ∨ ∃ q, Sub (.subq q) e ∧ t ∈ ops.tables q := by
  rw [C82_tables_partial ops e h.1 h.2.1, mentionsTab_iff]

theorem columns_tame (ops : QOps Q) {e : Expr Q} (h : Tame e) (c : Col) :
    c ∈ e.columns ops ↔ Sub (.col c) e ∨ ∃ q, Sub (.subq q) e ∧ c ∈ ops.columns q := by
  rw [C82_columns_partial ops e h.1, mentionsCol_iff]

theorem source_names_tables (ops : QOps Q) (s : Source Q) (hs : TidySource s) (t : Tab) (h : t ∈ sourceNames s) : t ∈ s.tables ops := by
  induction s with
  | table u => simp [sourceNames] at h; simp [Source.tables, h]
  | sub q a l => cases a <;> simp [sourceNames] at h; simp [Source.tables, nameOf, h]
  | values rows a cs => cases a <;> simp [sourceNames] at h; simp [Source.tables, nameOf, h]
  | func f a => cases a <;> simp [sourceNames] at h; simp [Source.tables, nameOf, h]
  | join l r c ihl ihr =>
    simp only [sourceNames, List.mem_append] at h
    simp only [Source.tables, Finset.mem_union]
    rcases h with h | h
    · exact .inl (ihl hs.1 h)
    · exact .inr (ihr hs.2.1 h)

theorem source_tables_complete (ops : QOps Q) (s : Source Q) (hs : TidySource s) (t : Tab) :
    (∀ e ∈ sourceExprs s, RefersTo t e → t ∈ s.tables ops) ∧ (∀ e ∈ sourceExprs s, ∀ q, Sub (.subq q) e → t ∈ ops.tables q → t ∈ s.tables ops) ∧
      ∀ q ∈ sourceQueries s, t ∈ ops.tables q → t ∈ s.tables ops := by
  induction s with
  | table u => simp [sourceExprs, sourceQueries]
  | sub q a l => simp +contextual [sourceExprs, sourceQueries, Source.tables]
  | values rows a cs =>
    refine ⟨fun e he h => absurd h ((hs e he).not_refers t), fun e he q h => absurd h ((hs e he).not_subq q), by simp [sourceQueries]⟩
  | func f a =>
    obtain ⟨hf, ha⟩ := hs
    simp only [sourceExprs, List.mem_singleton, forall_eq, Source.tables, ha, if_true, Finset.mem_union]
    refine ⟨fun h => .inl ((tables_tame ops hf t).2 (.inl h)), fun q hq h => .inl ((tables_tame ops hf t).2 (.inr ⟨q, hq, h⟩)), by simp [sourceQueries]⟩
  | join l r c ihl ihr =>
    obtain ⟨hl, hr, hc⟩ := hs
    obtain ⟨l1, l2, l3⟩ := ihl hl
    obtain ⟨r1, r2, r3⟩ := ihr hr
    simp only [sourceExprs, sourceQueries, List.mem_append, Source.tables, Finset.mem_union]
    refine ⟨?_, ?_, ?_⟩
    · rintro e ((he | he) | he) h
      · exact .inl (l1 e he h)
      · exact .inr (r1 e he h)
      · have := (hc e he).2.2 t h
        rw [List.mem_append] at this
        exact this.imp (source_names_tables ops l hl t) (source_names_tables ops r hr t)
    · rintro e ((he | he) | he) q hq h
      · exact .inl (l2 e he q hq h)
      · exact .inr (r2 e he q hq h)
      · exact absurd hq ((hc e he).2.1 q)
    · rintro q (hq | hq) h
      · exact .inl (l3 q hq h)
      · exact .inr (r3 q hq h)

theorem source_columns_complete (ops : QOps Q) (s : Source Q) (hs : TidySource s) (c : Col) :
    (c ∈ sourceCols s → c ∈ s.columns ops) ∧ (∀ e ∈ sourceExprs s, Sub (.col c) e → c ∈ s.columns ops) ∧
      (∀ e ∈ sourceExprs s, ∀ q, Sub (.subq q) e → c ∈ ops.columns q → c ∈ s.columns ops) ∧
      ∀ q ∈ sourceQueries s, c ∈ ops.columns q → c ∈ s.columns ops := by
  induction s with
  | table u => simp [sourceExprs, sourceQueries, sourceCols]
  | sub q a l => simp +contextual [sourceExprs, sourceQueries, Source.columns, sourceCols]
  | values rows a cs =>
    exact ⟨fun h => by simpa [Source.columns, sourceCols] using h, fun e he h => absurd h ((hs e he).not_col c),
      fun e he q h => absurd h ((hs e he).not_subq q), by simp [sourceQueries]⟩
  | func f a =>
    obtain ⟨hf, ha⟩ := hs
    simp only [sourceExprs, List.mem_singleton, forall_eq, Source.columns]
    exact ⟨by simp [sourceCols], fun h => (columns_tame ops hf c).2 (.inl h), fun q hq h => (columns_tame ops hf c).2 (.inr ⟨q, hq, h⟩),
      by simp [sourceQueries]⟩
  | join l r cd ihl ihr =>
    obtain ⟨hl, hr, hc⟩ := hs
    obtain ⟨l0, l1, l2, l3⟩ := ihl hl
    obtain ⟨r0, r1, r2, r3⟩ := ihr hr
    simp only [sourceExprs, sourceQueries, sourceCols, List.mem_append, Source.columns, Finset.mem_union, mem_unionAll, List.mem_map, exists_exists_and_eq_and]
    refine ⟨?_, ?_, ?_, ?_⟩
    · rintro (h | h)
      · exact .inl (.inl (l0 h))
      · exact .inl (.inr (r0 h))
    · rintro e ((he | he) | he) h
      · exact .inl (.inl (l1 e he h))
      · exact .inl (.inr (r1 e he h))
      · exact .inr ⟨e, he, (columns_tame ops (hc e he).1 c).2 (.inl h)⟩
    · rintro e ((he | he) | he) q hq h
      · exact .inl (.inl (l2 e he q hq h))
      · exact .inl (.inr (r2 e he q hq h))
      · exact .inr ⟨e, he, (columns_tame ops (hc e he).1 c).2 (.inr ⟨q, hq, h⟩)⟩
    · rintro q (hq | hq) h
      · exact .inl (.inl (l3 q hq h))
      · exact .inl (.inr (r3 q hq h))

/-- The expressions of a tidy clause contribute their tables. -/
theorem clause_tables (ops : QOps Q) (b : Body Q) (hp : ∀ p ∈ b.having.toList, p.isPred = true) (t : Tab) (e : Expr Q) (he : e ∈ clauseExprs b)
    (h : t ∈ e.tables ops) : t ∈ b.tables ops := by
  rw [mem_bodyTables]
  refine .inr (.inr ?_)
  simp only [clauseExprs, List.mem_append] at he
  simp only [List.mem_append]
  rcases he with (((he | he) | he) | he) | he
  · exact ⟨e, by tauto, h⟩
  · exact ⟨e, by tauto, h⟩
  · exact ⟨e, by tauto, h⟩
  · obtain ⟨d, hd, hd'⟩ := (tabs_of_pred ops e (hp e he) t).1 h
    exact ⟨d, .inl (.inr (List.mem_flatMap.2 ⟨e, he, hd⟩)), hd'⟩
  · exact ⟨e, by tauto, h⟩

theorem tables_complete_step (ops : QOps Q) (t : Tab) (q : Query Q) (hq : TidyQuery q)
    (h : (∃ s ∈ items q, t ∈ sourceNames s) ∨ (∃ e ∈ exprs q, RefersTo t e) ∨ ∃ x, Nested x q ∧ t ∈ ops.tables x) : t ∈ q.tables ops := by
  induction q with
  | plain b =>
    obtain ⟨hd, he, hp, hs⟩ := hq
    have hfrom : ∀ s ∈ fromItems b.from_, t ∈ s.tables ops → t ∈ b.tables ops := fun s hs h => (mem_bodyTables ops b t).2 (.inr (.inl ⟨s, hs, h⟩))
    simp only [exprs, hd, List.append_nil, Nested, List.mem_append, List.mem_flatMap] at h
    rcases h with ⟨s, hs', h⟩ | ⟨e, he' | ⟨s, hs', he'⟩, h⟩ | ⟨x, ⟨w, hw, rfl⟩ | ⟨e, he' | ⟨s, hs', he'⟩, hx⟩ | ⟨s, hs', hx⟩, h⟩
    · exact hfrom s hs' (source_names_tables ops s (hs s hs') t h)
    · exact clause_tables ops b hp t e he' ((tables_tame ops (he e he') t).2 (.inl h))
    · exact hfrom s hs' ((source_tables_complete ops s (hs s hs') t).1 e he' h)
    · exact (mem_bodyTables ops b t).2 (.inl ⟨w, hw, h⟩)
    · exact clause_tables ops b hp t e he' ((tables_tame ops (he e he') t).2 (.inr ⟨x, hx, h⟩))
    · exact hfrom s hs' ((source_tables_complete ops s (hs s hs') t).2.1 e he' x hx h)
    · exact hfrom s hs' ((source_tables_complete ops s (hs s hs') t).2.2 x hx h)
  | set l r ws o ihl ihr =>
    obtain ⟨hl, hr, rfl, ho⟩ := hq
    simp only [Query.tables, Finset.mem_union]
    rcases h with ⟨s, hs, h⟩ | ⟨e, he, h⟩ | ⟨x, hx, h⟩
    · rw [items, List.mem_append] at hs
      exact hs.imp (fun hs => ihl hl (.inl ⟨s, hs, h⟩)) (fun hs => ihr hr (.inl ⟨s, hs, h⟩))
    · rw [exprs, List.mem_append, List.mem_append] at he
      rcases he with (he | he) | he
      · exact .inl (ihl hl (.inr (.inl ⟨e, he, h⟩)))
      · exact .inr (ihr hr (.inr (.inl ⟨e, he, h⟩)))
      · exact absurd h ((ho e he).not_refers t)
    · rcases (nested_set l r [] o x).1 hx with hx | hx | ⟨w, hw, _⟩ | ⟨e, he, hx⟩
      · exact .inl (ihl hl (.inr (.inr ⟨x, hx, h⟩)))
      · exact .inr (ihr hr (.inr (.inr ⟨x, hx, h⟩)))
      · simp at hw
      · exact absurd hx ((ho e he).not_subq x)

theorem columns_complete_step (ops : QOps Q) (c : Col) (q : Query Q) (hq : TidyQuery q)
    (h : (∃ s ∈ items q, c ∈ sourceCols s) ∨ (∃ e ∈ exprs q, Sub (.col c) e) ∨ ∃ x, Nested x q ∧ c ∈ ops.columns x) : c ∈ q.columns ops := by
  induction q with
  | plain b =>
    obtain ⟨hd, he, hp, hs⟩ := hq
    have hfrom : ∀ s ∈ fromItems b.from_, c ∈ s.columns ops → c ∈ b.columns ops := fun s hs h => (mem_bodyColumns ops b c).2 (.inr (.inl ⟨s, hs, h⟩))
    have hcl : ∀ e ∈ clauseExprs b, c ∈ e.columns ops → c ∈ b.columns ops := fun e he h => (mem_bodyColumns ops b c).2 (.inr (.inr ⟨e, he, h⟩))
    simp only [exprs, hd, List.append_nil, Nested, List.mem_append, List.mem_flatMap] at h
    rcases h with ⟨s, hs', h⟩ | ⟨e, he' | ⟨s, hs', he'⟩, h⟩ | ⟨x, ⟨w, hw, rfl⟩ | ⟨e, he' | ⟨s, hs', he'⟩, hx⟩ | ⟨s, hs', hx⟩, h⟩
    · exact hfrom s hs' ((source_columns_complete ops s (hs s hs') c).1 h)
    · exact hcl e he' ((columns_tame ops (he e he') c).2 (.inl h))
    · exact hfrom s hs' ((source_columns_complete ops s (hs s hs') c).2.1 e he' h)
    · exact (mem_bodyColumns ops b c).2 (.inl ⟨w, hw, h⟩)
    · exact hcl e he' ((columns_tame ops (he e he') c).2 (.inr ⟨x, hx, h⟩))
    · exact hfrom s hs' ((source_columns_complete ops s (hs s hs') c).2.2.1 e he' x hx h)
    · exact hfrom s hs' ((source_columns_complete ops s (hs s hs') c).2.2.2 x hx h)
  | set l r ws o ihl ihr =>
    obtain ⟨hl, hr, rfl, ho⟩ := hq
    simp only [Query.columns, Finset.mem_union]
    rcases h with ⟨s, hs, h⟩ | ⟨e, he, h⟩ | ⟨x, hx, h⟩
    · rw [items, List.mem_append] at hs
      exact hs.imp (fun hs => ihl hl (.inl ⟨s, hs, h⟩)) (fun hs => ihr hr (.inl ⟨s, hs, h⟩))
    · rw [exprs, List.mem_append, List.mem_append] at he
      rcases he with (he | he) | he
      · exact .inl (ihl hl (.inr (.inl ⟨e, he, h⟩)))
      · exact .inr (ihr hr (.inr (.inl ⟨e, he, h⟩)))
      · exact absurd h ((ho e he).not_col c)
    · rcases (nested_set l r [] o x).1 hx with hx | hx | ⟨w, hw, _⟩ | ⟨e, he, hx⟩
      · exact .inl (ihl hl (.inr (.inr ⟨x, hx, h⟩)))
      · exact .inr (ihr hr (.inr (.inr ⟨x, hx, h⟩)))
      · simp at hw
      · exact absurd hx ((ho e he).not_subq x)

/-- **C111 (partial).** For tidy queries `tables()` reports exactly the tables that the query and its subqueries mention. (Missing: see the violations.) -/
theorem C111_tables_partial (n : Nat) (q : QN n) (hq : Tidy n q) (t : Tab) (ht : t ≠ noTab) : t ∈ (info n).ops.tables q ↔ Mentions n t q := by
  refine ⟨C111_tables_sound n q t ht, ?_⟩
  induction n with
  | zero => exact q.elim
  | succ n ih =>
    intro h
    refine tables_complete_step (info n).ops t q hq.1 ?_
    rcases h with h | h | ⟨x, hx, h⟩
    · exact .inl h
    · exact .inr (.inl h)
    · exact .inr (.inr ⟨x, hx, ih x (hq.2 x hx) h⟩)

/-- **C111 (partial).** For tidy queries `columns()` reports exactly the columns that the query and its subqueries mention. -/
theorem C111_columns_partial (n : Nat) (q : QN n) (hq : Tidy n q) (c : Col) : c ∈ (info n).ops.columns q ↔ MentionsColumn n c q := by
  refine ⟨C111_columns_sound n q c, ?_⟩
  induction n with
  | zero => exact q.elim
  | succ n ih =>
    intro h
    refine columns_complete_step (info n).ops c q hq.1 ?_
    rcases h with h | h | ⟨x, hx, h⟩
    · exact .inl h
    · exact .inr (.inl h)
    · exact .inr (.inr ⟨x, hx, ih x (hq.2 x hx) h⟩)

/-! ### Examples and counterexamples for C111 -/

theorem sub_cases (s e : Expr Q) : Sub s e ↔ s = e ∨ ∃ c ∈ e.subs, Sub s c := by
  constructor
  · rintro (_ | ⟨hm, hs⟩)
    · exact .inl rfl
    · exact .inr ⟨_, hm, hs⟩
  · rintro (rfl | ⟨c, hm, hs⟩)
    · exact .refl _
    · exact .step hm hs

theorem sub_col (s : Expr Q) (c : Col) : Sub s (.col c) ↔ s = .col c := by rw [sub_cases]; simp [subs]
theorem sub_star (s : Expr Q) (t : Option Tab) : Sub s (.star t) ↔ s = .star t := by rw [sub_cases]; simp [subs]
theorem sub_static (s : Expr Q) (v : Val) : Sub s (.static v) ↔ s = .static v := by rw [sub_cases]; simp [subs]
theorem sub_subq (s : Expr Q) (q : Q) : Sub s (.subq q) ↔ s = .subq q := by rw [sub_cases]; simp [subs]
theorem sub_binary (s : Expr Q) (op : LogOp) (a b : Expr Q) : Sub s (.binary op a b) ↔ s = .binary op a b ∨ Sub s a ∨ Sub s b := by
  rw [sub_cases]; simp [subs]
theorem sub_unary (s : Expr Q) (op : Option LogOp) (a : Expr Q) : Sub s (.unary a op) ↔ s = .unary a op ∨ Sub s a := by
  rw [sub_cases]; simp [subs]
theorem sub_and (s : Expr Q) (op : CompOp) (a b : Expr Q) : Sub s (.compound op [a, b]) ↔ s = .compound op [a, b] ∨ Sub s a ∨ Sub s b := by
  rw [sub_cases]; simp [subs]

theorem tame_of (e : Expr Q) (h : everywhere (fun s => regularNode s && typedNode s && collectableNode s) e = true) : Tame e := by
  rw [everywhere_iff] at h
  simp only [Bool.and_eq_true] at h
  exact ⟨fun s hs => (h s hs).1.1, fun s hs => (h s hs).1.2, fun s hs => (h s hs).2⟩

/-- A query that only selects. -/
def sel (es : List (Expr Q)) (f : Option (From Q)) (w : Option (Expr Q)) : Body Q := ⟨[], es.map fun e => (e, none), [], f, w, [], none, []⟩

/-- `SELECT T3.c FROM T3 WHERE T3.c = T1.a` -/
def qInner : QN 1 := .plain (sel [.col ⟨some 3, 3⟩] (some (.implicit [3])) (some (.binary .eq (.col ⟨some 3, 3⟩) (.col ⟨some 1, 1⟩))))
/-- `SELECT T2.b FROM T2` -/
def qDerived : QN 1 := .plain (sel [.col ⟨some 2, 2⟩] (some (.implicit [2])) none)
/-- `SELECT T1.a FROM T1 JOIN (SELECT T2.b FROM T2) AS T9 ON T1.a = T9.b WHERE EXISTS (SELECT T3.c FROM T3 WHERE T3.c = T1.a)` -/
def qOuter : QN 2 := .plain (sel [.col ⟨some 1, 1⟩]
  (some (.general [.join (.table 1) (.sub qDerived (some 9) false) (some (.binary .eq (.col ⟨some 1, 1⟩) (.col ⟨some 9, 2⟩)))]))
  (some (.unary (.subq qInner) (some .existsOp))))

/-- The hypotheses are met by a query with a join, a derived table and a correlated subquery. -/
example : Tidy 2 qOuter := by
  refine ⟨⟨rfl, ?_, by simp [sel], ?_⟩, ?_⟩
  · intro e he
    simp only [sel, clauseExprs, List.map_cons, List.map_nil, Option.toList_some, Option.toList_none, List.append_nil, List.mem_append, List.mem_singleton] at he
    rcases he with rfl | rfl
    · exact tame_of _ (by decide +kernel)
    · exact tame_of _ (by decide +kernel)
  · intro s hs
    simp only [sel, fromItems, List.mem_singleton] at hs
    subst hs
    refine ⟨trivial, trivial, ?_⟩
    simp only [Option.toList_some, List.mem_singleton, forall_eq]
    refine ⟨tame_of _ (by decide +kernel), ?_, ?_⟩
    · intro q h; simp [sub_binary, sub_col] at h
    · rintro t ⟨s, hs, h⟩
      simp only [sub_binary, sub_col] at hs
      rcases hs with rfl | rfl | rfl <;> simp at h <;> simp [sourceNames, h]
  · intro x hx
    simp only [qOuter, Nested, withs, sel, exprs, items, fromItems, clauseExprs, sourceExprs, sourceQueries] at hx
    simp [sub_binary, sub_unary, sub_subq, sub_col, sourceExprs, sourceQueries] at hx
    have main : ∀ b : Body (QN 0), b.distinctOn = [] → b.having = none → (∃ ts, b.from_ = some (.implicit ts)) → (∀ e ∈ clauseExprs b, Tame e) →
        Tidy 1 (.plain b) := by
      rintro b h1 h2 ⟨ts, h3⟩ h4
      refine ⟨⟨h1, h4, by simp [h2], ?_⟩, fun x => x.elim⟩
      intro s hs
      simp only [h3, fromItems, List.mem_map] at hs
      obtain ⟨t, _, rfl⟩ := hs
      trivial
    rcases hx with rfl | rfl
    · refine main _ rfl rfl ⟨_, rfl⟩ ?_
      intro e he
      simp only [sel, clauseExprs, List.map_cons, List.map_nil, Option.toList_some, Option.toList_none, List.append_nil, List.mem_append, List.mem_singleton] at he
      rcases he with rfl | rfl
      · exact tame_of _ (by decide +kernel)
      · exact tame_of _ (by decide +kernel)
    · refine main _ rfl rfl ⟨_, rfl⟩ ?_
      intro e he
      simp only [sel, clauseExprs, List.map_cons, List.map_nil, Option.toList_some, Option.toList_none, List.append_nil, List.mem_append, List.mem_singleton] at he
      subst he
      exact tame_of _ (by decide +kernel)

example : (info 2).ops.tables qOuter = {1, 2, 3, 9} := by decide +kernel

/-- **C111 is violated.** `SELECT DISTINCT ON (T2.b) T1.a FROM T1` does not report T2 (nor T2.b). -/
theorem C111_distinct_on_violated :
    let q : QN 1 := .plain ⟨[], [(.col ⟨some 1, 1⟩, none)], [.col ⟨some 2, 2⟩], some (.implicit [1]), none, [], none, []⟩
    Mentions 1 2 q ∧ 2 ∉ (info 1).ops.tables q ∧ MentionsColumn 1 ⟨some 2, 2⟩ q ∧ ⟨some 2, 2⟩ ∉ (info 1).ops.columns q := by
  refine ⟨.inr (.inl ⟨.col ⟨some 2, 2⟩, by simp [exprs, clauseExprs], .col ⟨some 2, 2⟩, .refl _, .inr ⟨_, rfl, rfl⟩⟩), by decide +kernel,
    .inr (.inl ⟨.col ⟨some 2, 2⟩, by simp [exprs, clauseExprs], .refl _⟩), by decide +kernel⟩

/-- **C111 is violated.** The WITH clause of a set query is ignored: for `WITH T9 AS (SELECT T2.b FROM T2) SELECT T9.b FROM T9 UNION SELECT T1.a FROM T1`
neither T2 nor its column is reported, although `itercolumns()` lists the column. -/
theorem C111_set_with_violated :
    let q : QN 2 := .set (.plain (sel [.col ⟨some 9, 2⟩] (some (.implicit [9])) none)) (.plain (sel [.col ⟨some 1, 1⟩] (some (.implicit [1])) none))
      [⟨qDerived, 9⟩] []
    Mentions 2 2 q ∧ 2 ∉ (info 2).ops.tables q ∧ ⟨some 2, 2⟩ ∉ (info 2).ops.columns q ∧ ⟨some 2, 2⟩ ∈ (info 2).ops.iterCols q := by
  refine ⟨.inr (.inr ⟨qDerived, .inl ⟨⟨qDerived, 9⟩, by simp [withs], rfl⟩, .inl ⟨.table 2, by simp [qDerived, items, fromItems, sel], by simp [sourceNames]⟩⟩),
    by decide +kernel, by decide +kernel, by decide +kernel⟩

/-- **C111 is violated.** A subquery in a join condition is ignored: `SELECT * FROM T1 JOIN T2 ON EXISTS (SELECT T3.c FROM T3 WHERE T3.c = T1.a)` does not
report T3. -/
theorem C111_join_condition_violated :
    let q : QN 2 := .plain (sel [.star none] (some (.general [.join (.table 1) (.table 2) (some (.unary (.subq qInner) (some .existsOp)))])) none)
    Mentions 2 3 q ∧ 3 ∉ (info 2).ops.tables q := by
  refine ⟨.inr (.inr ⟨qInner, .inr (.inl ⟨.unary (.subq qInner) (some .existsOp), by simp [exprs, sel, fromItems, sourceExprs], .of_mem (by simp [subs])⟩),
    .inl ⟨.table 3, by simp [qInner, items, fromItems, sel], by simp [sourceNames]⟩⟩), by decide +kernel⟩

/-- **C111 is violated.** A function in the FROM clause that has no name hides its tables: `SELECT * FROM generate_series(T2.b)`. And a FROM subquery without
a name makes `tables()` contain `None`. -/
theorem C111_unnamed_violated :
    (let q : QN 1 := .plain (sel [.star none] (some (.general [.func (.func "generate_series" [.col ⟨some 2, 2⟩] false none) none])) none)
     Mentions 1 2 q ∧ 2 ∉ (info 1).ops.tables q) ∧
    (let q : QN 2 := .plain (sel [.star none] (some (.general [.sub qDerived none false])) none)
     ¬ Mentions 2 noTab q ∧ noTab ∈ (info 2).ops.tables q) := by
  refine ⟨⟨.inr (.inl ⟨.func "generate_series" [.col ⟨some 2, 2⟩] false none, by simp [exprs, sel, fromItems, sourceExprs],
    .col ⟨some 2, 2⟩, .of_mem (by simp [subs]), .inr ⟨_, rfl, rfl⟩⟩), by decide +kernel⟩, ?_, by decide +kernel⟩
  rintro (⟨s, hs, h⟩ | ⟨e, he, s, hs, h⟩ | ⟨x, hx, h⟩)
  · simp [items, fromItems, sel] at hs; subst hs; simp [sourceNames] at h
  · simp [exprs, fromItems, sel, clauseExprs, sourceExprs] at he; subst he; simp [sub_star] at hs; subst hs; simp at h
  · simp [Nested, withs, exprs, items, fromItems, sel, clauseExprs, sourceExprs, sourceQueries, sub_star] at hx
    subst hx
    rcases h with ⟨s, hs, h⟩ | ⟨e, he, s, hs, h⟩ | ⟨x, hx, h⟩
    · simp [items, fromItems, sel, qDerived] at hs; subst hs; simp [sourceNames, noTab] at h
    · simp [exprs, fromItems, sel, clauseExprs, sourceExprs, qDerived] at he; subst he; simp [sub_col] at hs; subst hs; simp [noTab] at h
    · exact x.elim

/-! ### C112: subqueries -/

theorem exprSubqueries_eq (e : Expr Q) : exprSubqueries e = match e with
    | .subq q => [q]
    | e => e.iterChildren.flatMap exprSubqueries := by
  cases e <;> rw [exprSubqueries] <;> simp [List.flatMap_subtype]

theorem exprSubqueries_other (e : Expr Q) (h : ∀ q, e ≠ .subq q) : exprSubqueries e = e.iterChildren.flatMap exprSubqueries := by
  rw [exprSubqueries_eq]
  cases e <;> first | rfl | exact absurd rfl (h _)

theorem exprSubqueries_sound (e : Expr Q) (x : Q) (h : x ∈ exprSubqueries e) : Sub (.subq x) e := by
  induction e using sizeInd with
  | h e ih =>
    by_cases hq : ∃ q, e = .subq q
    · obtain ⟨q, rfl⟩ := hq
      rw [exprSubqueries_eq] at h
      simp at h
      subst h
      exact .refl _
    · rw [exprSubqueries_other e (fun q h => hq ⟨q, h⟩), List.mem_flatMap] at h
      obtain ⟨c, hc, h⟩ := h
      exact (ih c (sizeOf_iterChildren e c hc) h).trans (sub_iterChildren e c hc)

theorem exprSubqueries_iff (e : Expr Q) (he : ∀ s, Sub s e → collectableNode s = true) (x : Q) : x ∈ exprSubqueries e ↔ Sub (.subq x) e := by
  refine ⟨exprSubqueries_sound e x, ?_⟩
  intro h
  generalize hy : (Expr.subq x : Expr Q) = y at h
  induction h with
  | refl => subst hy; rw [exprSubqueries_eq]; simp
  | @step c e hm hs ih =>
    have hne : ∀ q, e ≠ .subq q := by rintro q rfl; simp [subs] at hm
    rw [exprSubqueries_other e hne, List.mem_flatMap]
    refine ⟨c, ?_, ih (fun s hs => he s (hs.trans (.of_mem hm)))⟩
    rw [children_collectable e (he e (.refl _))]
    exact hm

/-- The same for the parts of a predicate. -/
theorem condSubqueries_iff (p : Expr Q) (hp : p.isPred = true) (he : ∀ s, Sub s p → collectableNode s = true) (ht : Typed p) (x : Q) :
    x ∈ p.iterExpressions.flatMap exprSubqueries ↔ Sub (.subq x) p := by
  rw [List.mem_flatMap]
  constructor
  · rintro ⟨c, hc, h⟩
    exact (exprSubqueries_sound c x h).trans (sub_iterExpressions p c hc)
  · intro h
    induction p using Expr.ind with
    | h p ih =>
      rcases (sub_cases _ _).1 h with rfl | ⟨c, hc, h'⟩
      · simp [isPred, isBase, isCompound] at hp
      · clear h; have h := h'
        have hcol : ∀ s, Sub s c → collectableNode s = true := fun s hs => he s (hs.trans (.of_mem hc))
        cases p with
        | binary | between | inP | unary => exact ⟨c, by simpa [iterExpressions, subs] using hc, (exprSubqueries_iff c hcol x).2 h⟩
        | compound op cs =>
          have hpc : c.isPred = true := by
            have := ht _ (.refl _)
            simp only [typedNode, List.all_eq_true] at this
            exact this c hc
          obtain ⟨d, hd, hx⟩ := ih c hc hpc hcol (ht.sub (.of_mem hc)) h
          exact ⟨d, by simp only [iterExpressions, List.mem_flatMap]; exact ⟨c, hc, hd⟩, hx⟩
        | _ => simp [isPred, isBase, isCompound] at hp

/-- The FROM item is a table, a VALUES list, a function or a subquery, not a join. -/
def notJoin : Source Q → Bool
  | .join .. => false
  | _ => true

theorem allSome_eq_some {α : Type} (l : List (Option α)) (xs : List α) : allSome l = some xs ↔ l = xs.map some := by
  induction l generalizing xs with
  | nil => cases xs <;> simp [allSome]
  | cons o l ih =>
    cases o with
    | none => cases xs <;> simp [allSome]
    | some x =>
      simp only [allSome, Option.bind_some, Option.map_eq_some_iff]
      cases xs with
      | nil => simp
      | cons y ys => simp [ih]; tauto

theorem allSome_eq_none {α : Type} (l : List (Option α)) : allSome l = none ↔ none ∈ l := by
  induction l with
  | nil => simp [allSome]
  | cons o l ih => cases o <;> simp [allSome, ih]

theorem allSome_map {α β : Type} (f : α → Option β) (g : α → β) (l : List α) (h : ∀ x ∈ l, f x = some (g x)) : allSome (l.map f) = some (l.map g) := by
  rw [allSome_eq_some, List.map_map]
  exact List.map_congr_left h

/-- The subqueries of a FROM clause without joins. -/
theorem from_subqueries (f : Option (From Q)) (h : ∀ s ∈ fromItems f, notJoin s = true) :
    (allSome (f.toList.map From.subqueries)).map List.flatten = some ((fromItems f).flatMap sourceQueries) := by
  rcases f with _ | ts | ss
  · simp [allSome, fromItems]
  · simp [allSome, fromItems, From.subqueries, List.flatMap_map, sourceQueries]
  · have : allSome (ss.map Source.subqueries) = some (ss.map sourceQueries) := by
      refine allSome_map _ _ _ ?_
      intro s hs
      have := h s hs
      cases s <;> simp [notJoin, Source.subqueries, sourceQueries] at this ⊢
    simp [allSome, fromItems, From.subqueries, this, List.flatMap]

theorem body_subqueries (b : Body Q) (h : ∀ s ∈ fromItems b.from_, notJoin s = true) :
    b.subqueries = some ((b.select.flatMap fun p => exprSubqueries p.1) ++ (fromItems b.from_).flatMap sourceQueries ++
      (condParts b.where_).flatMap exprSubqueries ++ b.group.flatMap exprSubqueries ++ (condParts b.having).flatMap exprSubqueries ++
      b.order.flatMap exprSubqueries) := by
  have := from_subqueries b.from_ h
  rw [Option.map_eq_some_iff] at this
  obtain ⟨fs, h1, h2⟩ := this
  simp [Body.subqueries, h1, h2]

/-- `x` is nested directly in the query, but not in a WITH clause (which `subqueries()` excludes by contract). -/
def NestedInner (x : Q) (q : Query Q) : Prop := (∃ e ∈ exprs q, Sub (.subq x) e) ∨ ∃ s ∈ items q, x ∈ sourceQueries s

/-- **C112.** `subqueries()` only returns queries that are nested directly in the query. -/
theorem C112_sound (q : Query Q) (qs : List Q) (h : q.subqueries = some qs) (x : Q) (hx : x ∈ qs) : NestedInner x q := by
  induction q generalizing qs with
  | plain b =>
    have hj : ∀ s ∈ fromItems b.from_, notJoin s = true := by
      intro s hs
      by_contra hn
      have : b.subqueries = none := by
        rcases hb : b.from_ with _ | ts | ss
        · simp [hb, fromItems] at hs
        · simp only [hb, fromItems, List.mem_map] at hs
          obtain ⟨t, _, rfl⟩ := hs
          simp [notJoin] at hn
        · have h0 : allSome (ss.map Source.subqueries) = none := by
            rw [allSome_eq_none, List.mem_map]
            refine ⟨s, by simpa [hb, fromItems] using hs, ?_⟩
            cases s <;> simp [notJoin, Source.subqueries] at hn ⊢
          simp [Body.subqueries, hb, From.subqueries, allSome, h0]
      rw [Query.subqueries, this] at h
      simp at h
    rw [Query.subqueries, body_subqueries b hj, Option.some.injEq] at h
    subst h
    simp only [List.mem_append, List.mem_flatMap] at hx
    have hcl : ∀ e ∈ clauseExprs b, Sub (.subq x) e → NestedInner x (.plain b) := by
      intro e he hs
      exact .inl ⟨e, by simp only [exprs, List.mem_append]; exact .inl (.inl he), hs⟩
    have hcond : ∀ (p : Option (Expr Q)) e, e ∈ condParts p → x ∈ exprSubqueries e → ∃ e' ∈ p.toList, Sub (.subq x) e' := by
      intro p e he hx
      obtain ⟨e', he', hs⟩ := mem_condParts he
      exact ⟨e', he', (exprSubqueries_sound e x hx).trans hs⟩
    rcases hx with ((((⟨p, hp, hx⟩ | ⟨s, hs, hx⟩) | ⟨e, he, hx⟩) | ⟨e, he, hx⟩) | ⟨e, he, hx⟩) | ⟨e, he, hx⟩
    · refine hcl p.1 ?_ (exprSubqueries_sound _ x hx)
      simp only [clauseExprs, List.mem_append]
      exact .inl (.inl (.inl (.inl (List.mem_map_of_mem hp))))
    · exact .inr ⟨s, hs, hx⟩
    · obtain ⟨e', he', hs⟩ := hcond _ e he hx
      exact hcl e' (by simp only [clauseExprs, List.mem_append]; tauto) hs
    · exact hcl e (by simp only [clauseExprs, List.mem_append]; tauto) (exprSubqueries_sound e x hx)
    · obtain ⟨e', he', hs⟩ := hcond _ e he hx
      exact hcl e' (by simp only [clauseExprs, List.mem_append]; tauto) hs
    · exact hcl e (by simp only [clauseExprs, List.mem_append]; tauto) (exprSubqueries_sound e x hx)
  | set l r ws o ihl ihr =>
    simp only [Query.subqueries, Option.bind_eq_some_iff, Option.map_eq_some_iff] at h
    obtain ⟨a, ha, c, hc, rfl⟩ := h
    rcases List.mem_append.1 hx with hx | hx
    · rcases ihl a ha hx with ⟨e, he, h⟩ | ⟨s, hs, h⟩
      · exact .inl ⟨e, by simp [exprs, he], h⟩
      · exact .inr ⟨s, by simp [items, hs], h⟩
    · rcases ihr c hc hx with ⟨e, he, h⟩ | ⟨s, hs, h⟩
      · exact .inl ⟨e, by simp [exprs, he], h⟩
      · exact .inr ⟨s, by simp [items, hs], h⟩

/-- Conditions are predicates, expressions are regular, no DISTINCT ON, no joins and no subqueries in VALUES and functions; set operations without subqueries
in ORDER BY. -/
def Searchable : Query Q → Prop
  | .plain b => b.distinctOn = [] ∧ (∀ e ∈ clauseExprs b, Tame e) ∧ (∀ p ∈ b.where_.toList ++ b.having.toList, p.isPred = true) ∧
      ∀ s ∈ fromItems b.from_, notJoin s = true ∧ ∀ e ∈ sourceExprs s, ∀ q, ¬ Sub (.subq q) e
  | .set l r _ o => Searchable l ∧ Searchable r ∧ ∀ e ∈ o, ∀ q, ¬ Sub (.subq q) e

/-- **C112 (partial).** For such queries `subqueries()` returns exactly the queries that are nested directly in the query, WITH queries excepted. (Missing: the
method raises an exception for every query with JOIN syntax and overlooks some subqueries, see the violations.) -/
theorem C112_subqueries_partial (q : Query Q) (hq : Searchable q) : ∃ qs, q.subqueries = some qs ∧ ∀ x, x ∈ qs ↔ NestedInner x q := by
  induction q with
  | plain b =>
    have hs := body_subqueries b (fun s hs => (hq.2.2.2 s hs).1)
    refine ⟨_, hs, fun x => ⟨C112_sound (.plain b) _ hs x, ?_⟩⟩
    obtain ⟨hd, he, hp, hf⟩ := hq
    simp only [NestedInner, exprs, hd, List.append_nil, List.mem_append, List.mem_flatMap]
    rintro (⟨e, he' | ⟨s, hs', he'⟩, hx⟩ | ⟨s, hs', hx⟩)
    · simp only [clauseExprs, List.mem_append, List.mem_map] at he'
      have hc := he e (by simp only [clauseExprs, List.mem_append, List.mem_map]; exact he')
      have hin := (exprSubqueries_iff e hc.2.2 x).2 hx
      rcases he' with (((⟨p, hp', rfl⟩ | he') | he') | he') | he'
      · exact .inl (.inl (.inl (.inl (.inl ⟨p, hp', hin⟩))))
      · refine .inl (.inl (.inl (.inr ?_)))
        have := (condSubqueries_iff e (hp e (List.mem_append_left _ he')) hc.2.2 hc.2.1 x).2 hx
        obtain ⟨d, hd, hx⟩ := List.mem_flatMap.1 this
        exact ⟨d, List.mem_flatMap.2 ⟨e, he', hd⟩, hx⟩
      · exact .inl (.inl (.inr ⟨e, he', hin⟩))
      · refine .inl (.inr ?_)
        have := (condSubqueries_iff e (hp e (List.mem_append_right _ he')) hc.2.2 hc.2.1 x).2 hx
        obtain ⟨d, hd, hx⟩ := List.mem_flatMap.1 this
        exact ⟨d, List.mem_flatMap.2 ⟨e, he', hd⟩, hx⟩
      · exact .inr ⟨e, he', hin⟩
    · exact absurd hx ((hf s hs').2 e he' x)
    · exact .inl (.inl (.inl (.inl (.inr ⟨s, hs', hx⟩))))
  | set l r ws o ihl ihr =>
    obtain ⟨hl, hr, ho⟩ := hq
    obtain ⟨a, ha, ha'⟩ := ihl hl
    obtain ⟨c, hc, hc'⟩ := ihr hr
    refine ⟨a ++ c, by simp [Query.subqueries, ha, hc], fun x => ?_⟩
    rw [List.mem_append, ha', hc']
    simp only [NestedInner, exprs, items, List.mem_append]
    have := fun e he => ho e he x
    grind

/-- The hypotheses are met: a query with a derived table and a correlated subquery. -/
def qShallow : QN 2 := .plain (sel [.col ⟨some 1, 1⟩] (some (.general [.table 1, .sub qDerived (some 9) false]))
  (some (.compound .and [.binary .eq (.col ⟨some 1, 1⟩) (.col ⟨some 9, 2⟩), .unary (.subq qInner) (some .existsOp)])))

theorem qShallow_searchable : Searchable qShallow := by
  refine ⟨rfl, ?_, by simp [sel, isPred, isCompound], ?_⟩
  · intro e he
    simp only [sel, clauseExprs, List.map_cons, List.map_nil, Option.toList_some, Option.toList_none, List.append_nil, List.mem_append, List.mem_singleton] at he
    rcases he with rfl | rfl
    · exact tame_of _ (by decide +kernel)
    · exact tame_of _ (by decide +kernel)
  · intro s hs
    simp only [sel, fromItems, List.mem_cons, List.not_mem_nil, or_false] at hs
    rcases hs with rfl | rfl <;> simp [notJoin, sourceExprs]

example : ∃ qs, Query.subqueries qShallow = some qs ∧ ∀ x, x ∈ qs ↔ NestedInner x qShallow := C112_subqueries_partial _ qShallow_searchable

/-- **C112 is violated.** Whenever the FROM clause contains a join (JOIN syntax), `subqueries()` raises an exception. -/
theorem C112_join_violated (b : Body Q) (s : Source Q) (hs : s ∈ fromItems b.from_) (hj : notJoin s = false) : Query.subqueries (.plain b) = none := by
  rcases hb : b.from_ with _ | ts | ss
  · simp [hb, fromItems] at hs
  · simp only [hb, fromItems, List.mem_map] at hs
    obtain ⟨t, _, rfl⟩ := hs
    simp [notJoin] at hj
  · have h0 : allSome (ss.map Source.subqueries) = none := by
      rw [allSome_eq_none, List.mem_map]
      refine ⟨s, by simpa [hb, fromItems] using hs, ?_⟩
      cases s <;> simp [notJoin, Source.subqueries] at hj ⊢
    simp [Query.subqueries, Body.subqueries, hb, From.subqueries, allSome, h0]

example : Query.subqueries qOuter = none := C112_join_violated _ _ (by simp [qOuter, sel, fromItems]; rfl) rfl

/-- **C112 is violated.** Subqueries in DISTINCT ON, in the arguments of a function in the FROM clause and in a VALUES list are not returned. -/
theorem C112_overlooked_violated :
    (let q : QN 2 := .plain ⟨[], [(.col ⟨some 1, 1⟩, none)], [.subq qDerived], some (.implicit [1]), none, [], none, []⟩
     NestedInner qDerived q ∧ Query.subqueries q = some []) ∧
    (let q : QN 2 := .plain (sel [.star none] (some (.general [.func (.func "f" [.subq qDerived] false none) (some 9)])) none)
     NestedInner qDerived q ∧ Query.subqueries q = some []) ∧
    (let q : QN 2 := .plain (sel [.star none] (some (.general [.values [.subq qDerived] (some 9) []])) none)
     NestedInner qDerived q ∧ Query.subqueries q = some []) := by
  have h1 : exprSubqueries (.col ⟨some 1, 1⟩ : Expr (QN 1)) = [] := by
    rw [exprSubqueries_other _ (by simp), iterChildren_eq]; simp [grandParts, directParts]
  have h2 : exprSubqueries (.star none : Expr (QN 1)) = [] := by
    rw [exprSubqueries_other _ (by simp), iterChildren_eq]; simp [grandParts, directParts]
  refine ⟨⟨.inl ⟨.subq qDerived, by simp [exprs], .refl _⟩, ?_⟩, ⟨.inl ⟨.func "f" [.subq qDerived] false none, by simp [exprs, sel, fromItems, sourceExprs],
    .of_mem (by simp [subs])⟩, ?_⟩, .inl ⟨.subq qDerived, by simp [exprs, sel, fromItems, sourceExprs], .refl _⟩, ?_⟩
  all_goals simp [Query.subqueries, Body.subqueries, sel, allSome, From.subqueries, Source.subqueries, condParts, h1, h2]

/-! ### C113: bound and unbound tables -/

/-- The subqueries of a FROM item that are LATERAL (`true`) or not (`false`). -/
def derived (lat : Bool) : Source Q → List Q
  | .sub q _ l => if l = lat then [q] else []
  | .join l r _ => derived lat l ++ derived lat r
  | _ => []

/-- SQL scoping, one level: the expressions of a query (and LATERAL subqueries) can refer to the FROM items. Other references have to be provided by an outer
query. WITH queries and ordinary FROM subqueries cannot refer to the FROM items. -/
def FreeIn (free : Q → Prop) (t : Tab) : Query Q → Prop
  | .plain b =>
    (∃ w ∈ b.ctes, free w.query) ∨ (∃ s ∈ fromItems b.from_, ∃ x ∈ derived false s, free x) ∨
      ((∀ s ∈ fromItems b.from_, t ∉ sourceNames s) ∧
        ((∃ e ∈ exprs (.plain b), RefersTo t e ∨ ∃ x, Sub (.subq x) e ∧ free x) ∨ ∃ s ∈ fromItems b.from_, ∃ x ∈ derived true s, free x))
  | .set l r ws o => FreeIn free t l ∨ FreeIn free t r ∨ (∃ w ∈ ws, free w.query) ∨ ∃ e ∈ o, RefersTo t e ∨ ∃ x, Sub (.subq x) e ∧ free x

/-- The query refers to the table `t`, which has to be provided by an outer query. -/
def Free : (n : Nat) → Tab → QN n → Prop
  | 0, _, q => q.elim
  | n + 1, t, q => FreeIn (Free n t) t q

/-- The table name is introduced in the query: in the FROM clause of the query or of an inner query, or it occurs in the WITH clause. -/
def IntroIn (intro ment : Q → Prop) (t : Tab) (q : Query Q) : Prop :=
  (∃ s ∈ items q, t ∈ sourceNames s) ∨ (∃ w ∈ withs q, w.name = t ∨ ment w.query) ∨ ∃ x, NestedInner x q ∧ intro x

/-- On all levels. -/
def Introduced : (n : Nat) → Tab → QN n → Prop
  | 0, _, q => q.elim
  | n + 1, t, q => IntroIn (Introduced n t) (Mentions n t) t q

/-- No name has two meanings: what a query needs from an outer query is not introduced in it. -/
def NoCapture (free intro ment : Tab → Q → Prop) : Query Q → Prop
  | .plain b => ∀ t, FreeIn (free t) t (.plain b) → ¬ IntroIn (intro t) (ment t) t (.plain b)
  | .set l r _ _ => NoCapture free intro ment l ∧ NoCapture free intro ment r

/-- A table. -/
def isTable : Source Q → Bool
  | .table _ => true
  | _ => false

/-- An ordinary query, not a set query. -/
def Ordinary : (n : Nat) → QN n → Prop
  | 0, q => q.elim
  | _ + 1, .plain _ => True
  | _ + 1, .set _ _ _ _ => False

/-- The FROM clauses are present and their items are allowed by `ok`; the expressions are regular. -/
def ShapeIn (ok : Source Q → Prop) : Query Q → Prop
  | .plain b => b.distinctOn = [] ∧ (∀ e ∈ clauseExprs b, Tame e) ∧ (∀ p ∈ b.where_.toList ++ b.having.toList, p.isPred = true) ∧
      b.from_ ≠ none ∧ ∀ s ∈ fromItems b.from_, ok s
  | .set l r ws o => ShapeIn ok l ∧ ShapeIn ok r ∧ ws = [] ∧ ∀ e ∈ o, Closed e

/-- Only tables in the FROM clauses, here and in the subqueries. -/
def Flat : (n : Nat) → QN n → Prop
  | 0, q => q.elim
  | n + 1, q => ShapeIn (fun s => isTable s = true) q ∧ ∀ x, NestedInner x q → Flat n x

/-- A table or an ordinary subquery. -/
def tableOrSub (plain : Q → Prop) : Source Q → Prop
  | .table _ => True
  | .sub x _ _ => plain x
  | _ => False

/-- Only tables and ordinary subqueries in the FROM clauses, only tables in those of the subqueries. -/
def Shallow : (n : Nat) → QN n → Prop
  | 0, q => q.elim
  | n + 1, q => ShapeIn (tableOrSub (Ordinary n)) q ∧ ∀ x, NestedInner x q → Flat n x

/-- What is known about subqueries. -/
def Inv (i : Info Q) (free intro : Tab → Q → Prop) (x : Q) : Prop :=
  ∃ bs, i.bound x = some bs ∧ (∀ t ∈ bs, t ≠ noTab → intro t x) ∧ (∀ t ∈ i.ops.tables x, t ≠ noTab → t ∈ bs ∨ free t x) ∧
    ∀ t, free t x → t ∈ i.ops.tables x ∨ intro t x

/-- And about those in FROM clauses. -/
def InvFrom (i : Info Q) (intro : Tab → Q → Prop) (x : Q) : Prop := ∃ fb, i.fromBound x = some fb ∧ ∀ t ∈ fb, t ≠ noTab → intro t x

theorem derived_iff (s : Source Q) (x : Q) : x ∈ sourceQueries s ↔ x ∈ derived false s ∨ x ∈ derived true s := by
  induction s with
  | sub q a l => cases l <;> simp [sourceQueries, derived]
  | join l r c ihl ihr => simp only [sourceQueries, derived, List.mem_append, ihl, ihr]; tauto
  | _ => simp [sourceQueries, derived]

/-- A query that is free in something nested is nested. -/
theorem freeIn_cases (free : Q → Prop) (t : Tab) (q : Query Q) (h : FreeIn free t q) : (∃ e ∈ exprs q, RefersTo t e) ∨ ∃ x, Nested x q ∧ free x := by
  induction q with
  | plain b =>
    rcases h with ⟨w, hw, h⟩ | ⟨s, hs, x, hx, h⟩ | ⟨_, ⟨e, he, h | ⟨x, hx, h⟩⟩ | ⟨s, hs, x, hx, h⟩⟩
    · exact .inr ⟨_, .inl ⟨w, hw, rfl⟩, h⟩
    · exact .inr ⟨x, .inr (.inr ⟨s, hs, (derived_iff s x).2 (.inl hx)⟩), h⟩
    · exact .inl ⟨e, he, h⟩
    · exact .inr ⟨x, .inr (.inl ⟨e, he, hx⟩), h⟩
    · exact .inr ⟨x, .inr (.inr ⟨s, hs, (derived_iff s x).2 (.inr hx)⟩), h⟩
  | set l r ws o ihl ihr =>
    rcases h with h | h | ⟨w, hw, h⟩ | ⟨e, he, h | ⟨x, hx, h⟩⟩
    · rcases ihl h with ⟨e, he, h⟩ | ⟨x, hx, h⟩
      · exact .inl ⟨e, by simp [exprs, he], h⟩
      · exact .inr ⟨x, (nested_set l r ws o x).2 (.inl hx), h⟩
    · rcases ihr h with ⟨e, he, h⟩ | ⟨x, hx, h⟩
      · exact .inl ⟨e, by simp [exprs, he], h⟩
      · exact .inr ⟨x, (nested_set l r ws o x).2 (.inr (.inl hx)), h⟩
    · exact .inr ⟨_, (nested_set l r ws o _).2 (.inr (.inr (.inl ⟨w, hw, rfl⟩))), h⟩
    · exact .inl ⟨e, by simp [exprs, he], h⟩
    · exact .inr ⟨x, (nested_set l r ws o x).2 (.inr (.inr (.inr ⟨e, he, hx⟩))), h⟩

theorem nested_inner (x : Q) (q : Query Q) : Nested x q ↔ (∃ w ∈ withs q, w.query = x) ∨ NestedInner x q := Iff.rfl

theorem free_mentions (n : Nat) (t : Tab) (q : QN n) (h : Free n t q) : Mentions n t q := by
  induction n with
  | zero => exact q.elim
  | succ n ih =>
    rcases freeIn_cases (Free n t) t q h with h | ⟨x, hx, h⟩
    · exact .inr (.inl h)
    · exact .inr (.inr ⟨x, hx, ih x h⟩)

theorem shape_tidy {ok : Source Q → Prop} {plain : Q → Prop} (hok : ∀ s, ok s → tableOrSub plain s) (q : Query Q) (h : ShapeIn ok q) : TidyQuery q := by
  induction q with
  | plain b =>
    obtain ⟨h1, h2, h3, h4, h5⟩ := h
    refine ⟨h1, h2, fun p hp => h3 p (List.mem_append_right _ hp), fun s hs => ?_⟩
    have := hok s (h5 s hs)
    cases s <;> simp [tableOrSub, TidySource] at this ⊢
  | set l r ws o ihl ihr => exact ⟨ihl h.1, ihr h.2.1, h.2.2.1, h.2.2.2⟩

theorem shape_searchable {ok : Source Q → Prop} {plain : Q → Prop} (hok : ∀ s, ok s → tableOrSub plain s) (q : Query Q) (h : ShapeIn ok q) : Searchable q := by
  induction q with
  | plain b =>
    obtain ⟨h1, h2, h3, h4, h5⟩ := h
    refine ⟨h1, h2, h3, fun s hs => ?_⟩
    have := hok s (h5 s hs)
    cases s <;> simp [tableOrSub, notJoin, sourceExprs] at this ⊢
  | set l r ws o ihl ihr => exact ⟨ihl h.1, ihr h.2.1, fun e he q => (h.2.2.2 e he).not_subq q⟩

/-- What the FROM clause binds itself. -/
theorem fromBound_step (i : Info Q) (intro : Tab → Q → Prop) (f : From Q) (plain : Q → Prop) (hf : ∀ s ∈ fromItems (some f), tableOrSub plain s)
    (hx : ∀ s ∈ fromItems (some f), ∀ x ∈ sourceQueries s, InvFrom i intro x) :
    ∃ fb, fromBound i (some f) = some fb ∧ (∀ t, .table t ∈ fromItems (some f) → t ∈ fb) ∧
      ∀ t ∈ fb, t ≠ noTab → .table t ∈ fromItems (some f) ∨ ∃ s ∈ fromItems (some f), ∃ x ∈ sourceQueries s, intro t x := by
  cases f with
  | implicit ts => exact ⟨ts.toFinset, rfl, by simp [fromItems], by simp +contextual [fromItems]⟩
  | general ss =>
    simp only [fromItems] at hf hx ⊢
    have : ∀ s ∈ ss, ∃ fb, s.bound i = some fb ∧ (∀ t, s = .table t → t ∈ fb) ∧ ∀ t ∈ fb, t ≠ noTab → s = .table t ∨ ∃ x ∈ sourceQueries s, intro t x := by
      intro s hs
      have h1 := hf s hs
      cases s with
      | table t => exact ⟨{t}, rfl, by simp, by simp⟩
      | sub x a l =>
        obtain ⟨fb, h2, h3⟩ := hx _ hs x (by simp [sourceQueries])
        exact ⟨fb, h2, by simp, fun t ht h0 => .inr ⟨x, by simp [sourceQueries], h3 t ht h0⟩⟩
      | _ => exact h1.elim
    choose! g hg1 hg2 hg3 using this
    refine ⟨unionAll (ss.map g), ?_, ?_, ?_⟩
    · rw [fromBound, allSome_map _ g _ hg1]; rfl
    · intro t ht
      rw [mem_unionAll]
      exact ⟨_, List.mem_map_of_mem ht, hg2 _ ht t rfl⟩
    · intro t ht h0
      rw [mem_unionAll] at ht
      obtain ⟨fs, hfs, ht⟩ := ht
      obtain ⟨s, hs, rfl⟩ := List.mem_map.1 hfs
      rcases hg3 s hs t ht h0 with rfl | ⟨x, hx, h⟩
      · exact .inl hs
      · exact .inr ⟨s, hs, x, hx, h⟩

/-- What an ordinary query binds. -/
theorem bound_step (i : Info Q) (free intro ment : Tab → Q → Prop) (plain : Q → Prop) (b : Body Q) (hb : ShapeIn (tableOrSub plain) (.plain b))
    (hm : ∀ x t, t ≠ noTab → t ∈ i.ops.tables x → ment t x) (hfm : ∀ x t, free t x → ment t x)
    (hin : ∀ x, NestedInner x (.plain b) → Inv i free intro x) (hif : ∀ s ∈ fromItems b.from_, ∀ x ∈ sourceQueries s, InvFrom i intro x) :
    ∃ bs, b.bound i = some bs ∧ (∀ t ∈ bs, t ≠ noTab → IntroIn (intro t) (ment t) t (.plain b)) ∧
      (∀ t ∈ b.tables i.ops, t ≠ noTab → t ∈ bs ∨ t ∈ subqueryTargets b.from_ ∨ FreeIn (free t) t (.plain b)) ∧
      ∀ t, FreeIn (free t) t (.plain b) → t ∈ b.tables i.ops ∨ IntroIn (intro t) (ment t) t (.plain b) := by
  have hs := shape_searchable (fun s h => h) _ hb
  have htidy := shape_tidy (fun s h => h) _ hb
  obtain ⟨qs, hqs, hqs'⟩ := C112_subqueries_partial (.plain b) hs
  obtain ⟨_, hex, _, hne, hsrc⟩ := hb
  obtain ⟨f, hf⟩ := Option.ne_none_iff_exists'.1 hne
  rw [hf] at hsrc hif
  obtain ⟨fb, hfb1, hfb2, hfb3⟩ := fromBound_step i intro f plain hsrc hif
  have hbs : ∀ x ∈ qs, ∃ bs, i.bound x = some bs ∧ (∀ t ∈ bs, t ≠ noTab → intro t x) ∧ (∀ t ∈ i.ops.tables x, t ≠ noTab → t ∈ bs ∨ free t x) ∧
      ∀ t, free t x → t ∈ i.ops.tables x ∨ intro t x := fun x hx => hin x ((hqs' x).1 hx)
  choose! g hg1 hg2 hg3 hg4 using hbs
  have hres : b.bound i = some (fb ∪ unionAll (qs.map g) ∪ cteTables i b.ctes) := by
    have h1 : b.subqueries = some qs := hqs
    simp [Body.bound, h1, allSome_map i.bound g qs hg1, hf, hfb1]
  refine ⟨_, hres, ?_, ?_, ?_⟩
  · intro t ht h0
    rw [Finset.mem_union, Finset.mem_union] at ht
    rcases ht with (ht | ht) | ht
    · rcases hfb3 t ht h0 with h | ⟨s, hs, x, hx, h⟩
      · exact .inl ⟨.table t, by simpa [items, hf] using h, by simp [sourceNames]⟩
      · exact .inr (.inr ⟨x, .inr ⟨s, by simpa [items, hf] using hs, hx⟩, h⟩)
    · rw [mem_unionAll] at ht
      obtain ⟨_, hx0, ht⟩ := ht
      obtain ⟨x, hx, rfl⟩ := List.mem_map.1 hx0
      exact .inr (.inr ⟨x, (hqs' x).1 hx, hg2 x hx t ht h0⟩)
    · rw [cteTables, mem_unionAll] at ht
      obtain ⟨_, hw0, ht⟩ := ht
      obtain ⟨w, hw, rfl⟩ := List.mem_map.1 hw0
      rw [Finset.mem_union, Finset.mem_singleton] at ht
      refine .inr (.inl ⟨w, hw, ?_⟩)
      rcases ht with ht | rfl
      · exact .inr (hm _ t h0 ht)
      · exact .inl rfl
  · intro t ht h0
    have hname : ∀ s ∈ fromItems b.from_, t ∈ sourceNames s → t ∈ fb ∨ t ∈ subqueryTargets b.from_ := by
      intro s hs ht
      rw [hf] at hs
      have hk := hsrc s hs
      cases s with
      | table u => simp [sourceNames] at ht; subst ht; exact .inl (hfb2 _ hs)
      | sub x a l =>
        cases a with
        | none => simp [sourceNames] at ht
        | some a =>
          simp [sourceNames] at ht
          subst ht
          refine .inr ?_
          cases f with
          | implicit ts => simp [fromItems] at hs
          | general ss =>
            simp only [subqueryTargets, hf, List.mem_toFinset, List.mem_filterMap]
            exact ⟨_, hs, by simp [nameOf]⟩
      | _ => exact hk.elim
    have hnest : ∀ x, NestedInner x (.plain b) → t ∈ i.ops.tables x →
        t ∈ fb ∪ unionAll (qs.map g) ∪ cteTables i b.ctes ∨ free t x := by
      intro x hx h
      have hxq := (hqs' x).2 hx
      rcases hg3 x hxq t h h0 with h | h
      · refine .inl ?_
        rw [Finset.mem_union, Finset.mem_union, mem_unionAll]
        exact .inl (.inr ⟨_, List.mem_map_of_mem hxq, h⟩)
      · exact .inr h
    have hfbs : t ∈ fb → t ∈ fb ∪ unionAll (qs.map g) ∪ cteTables i b.ctes := fun h => Finset.mem_union_left _ (Finset.mem_union_left _ h)
    by_cases hown : ∃ s ∈ fromItems b.from_, t ∈ sourceNames s
    · obtain ⟨s, hs, h⟩ := hown
      rcases hname s hs h with h | h
      · exact .inl (hfbs h)
      · exact .inr (.inl h)
    · push Not at hown
      rcases tables_sound_step i.ops t h0 (.plain b) ht with ⟨s, hs, h⟩ | ⟨e, he, h⟩ | ⟨x, hx, h⟩
      · exact absurd h (hown s hs)
      · exact .inr (.inr (.inr (.inr ⟨hown, .inl ⟨e, he, .inl h⟩⟩)))
      · rcases hx with ⟨w, hw, rfl⟩ | ⟨e, he, hx⟩ | ⟨s, hs, hx⟩
        · refine .inl (Finset.mem_union_right _ ?_)
          rw [cteTables, mem_unionAll]
          exact ⟨_, List.mem_map_of_mem hw, Finset.mem_union_left _ h⟩
        · rcases hnest x (.inl ⟨e, he, hx⟩) h with h | h
          · exact .inl h
          · exact .inr (.inr (.inr (.inr ⟨hown, .inl ⟨e, he, .inr ⟨x, hx, h⟩⟩⟩)))
        · rcases hnest x (.inr ⟨s, hs, hx⟩) h with h | h
          · exact .inl h
          · refine .inr (.inr ?_)
            rcases (derived_iff s x).1 hx with hx | hx
            · exact .inr (.inl ⟨s, hs, x, hx, h⟩)
            · exact .inr (.inr ⟨hown, .inr ⟨s, hs, x, hx, h⟩⟩)
  · intro t ht
    have hcomp := tables_complete_step i.ops t (.plain b) htidy
    rcases freeIn_cases (free t) t (.plain b) ht with h | ⟨x, hx, h⟩
    · exact .inl (hcomp (.inr (.inl h)))
    · rcases (nested_inner x (.plain b)).1 hx with ⟨w, hw, rfl⟩ | hx'
      · exact .inr (.inr (.inl ⟨w, hw, .inr (hfm _ t h)⟩))
      · rcases hg4 x ((hqs' x).2 hx') t h with h | h
        · exact .inl (hcomp (.inr (.inr ⟨x, hx, h⟩)))
        · exact .inr (.inr (.inr ⟨x, hx', h⟩))

theorem intro_mono_set (intro ment : Q → Prop) (t : Tab) (l r : Query Q) (ws : List (With Q)) (o : List (Expr Q))
    (h : IntroIn intro ment t l ∨ IntroIn intro ment t r) : IntroIn intro ment t (.set l r ws o) := by
  have hi : ∀ x, NestedInner x l ∨ NestedInner x r → NestedInner x (.set l r ws o) := by
    rintro x ((⟨e, he, h⟩ | ⟨s, hs, h⟩) | ⟨e, he, h⟩ | ⟨s, hs, h⟩)
    · exact .inl ⟨e, by simp [exprs, he], h⟩
    · exact .inr ⟨s, by simp [items, hs], h⟩
    · exact .inl ⟨e, by simp [exprs, he], h⟩
    · exact .inr ⟨s, by simp [items, hs], h⟩
  rcases h with (⟨s, hs, h⟩ | ⟨w, hw, h⟩ | ⟨x, hx, h⟩) | ⟨s, hs, h⟩ | ⟨w, hw, h⟩ | ⟨x, hx, h⟩
  · exact .inl ⟨s, by simp [items, hs], h⟩
  · exact .inr (.inl ⟨w, by simp [withs, hw], h⟩)
  · exact .inr (.inr ⟨x, hi x (.inl hx), h⟩)
  · exact .inl ⟨s, by simp [items, hs], h⟩
  · exact .inr (.inl ⟨w, by simp [withs, hw], h⟩)
  · exact .inr (.inr ⟨x, hi x (.inr hx), h⟩)

theorem nestedInner_set (l r : Query Q) (ws : List (With Q)) (o : List (Expr Q)) (x : Q) (h : NestedInner x l ∨ NestedInner x r) :
    NestedInner x (.set l r ws o) := by
  rcases h with (⟨e, he, h⟩ | ⟨s, hs, h⟩) | ⟨e, he, h⟩ | ⟨s, hs, h⟩
  · exact .inl ⟨e, by simp [exprs, he], h⟩
  · exact .inr ⟨s, by simp [items, hs], h⟩
  · exact .inl ⟨e, by simp [exprs, he], h⟩
  · exact .inr ⟨s, by simp [items, hs], h⟩

theorem targets_flat (f : Option (From Q)) (h : ∀ s ∈ fromItems f, isTable s = true) : subqueryTargets f = ∅ := by
  rcases f with _ | ts | ss
  · rfl
  · rfl
  · simp only [subqueryTargets]
    rw [List.toFinset_eq_empty_iff, List.filterMap_eq_nil_iff]
    intro s hs
    have := h s hs
    cases s <;> simp [isTable] at this ⊢

theorem flat_shape (q : Query Q) (plain : Q → Prop) (h : ShapeIn (fun s => isTable s = true) q) : ShapeIn (tableOrSub plain) q := by
  induction q with
  | plain b =>
    obtain ⟨h1, h2, h3, h4, h5⟩ := h
    refine ⟨h1, h2, h3, h4, fun s hs => ?_⟩
    have := h5 s hs
    cases s <;> simp [isTable, tableOrSub] at this ⊢
  | set l r ws o ihl ihr => exact ⟨ihl h.1, ihr h.2.1, h.2.2.1, h.2.2.2⟩

/-- One level of flat queries. -/
theorem flat_step (i : Info Q) (free intro ment : Tab → Q → Prop) (q : Query Q) (hq : ShapeIn (fun s => isTable s = true) q)
    (hm : ∀ x t, t ≠ noTab → t ∈ i.ops.tables x → ment t x) (hfm : ∀ x t, free t x → ment t x)
    (hin : ∀ x, NestedInner x q → Inv i free intro x) :
    ∃ bs, q.bound i = some bs ∧ (∀ t ∈ bs, t ≠ noTab → IntroIn (intro t) (ment t) t q) ∧
      (∀ t ∈ q.tables i.ops, t ≠ noTab → t ∈ bs ∨ FreeIn (free t) t q) ∧
      ∀ t, FreeIn (free t) t q → t ∈ q.tables i.ops ∨ IntroIn (intro t) (ment t) t q := by
  induction q with
  | plain b =>
    have hno : ∀ s ∈ fromItems b.from_, ∀ x ∈ sourceQueries s, InvFrom i intro x := by
      intro s hs x hx
      have := hq.2.2.2.2 s hs
      cases s <;> simp [isTable, sourceQueries] at this hx
    obtain ⟨bs, h1, h2, h3, h4⟩ := bound_step i free intro ment (fun _ => True) b (flat_shape _ _ hq) hm hfm hin hno
    refine ⟨bs, h1, h2, ?_, h4⟩
    intro t ht h0
    rcases h3 t ht h0 with h | h | h
    · exact .inl h
    · rw [targets_flat _ hq.2.2.2.2] at h; simp at h
    · exact .inr h
  | set l r ws o ihl ihr =>
    obtain ⟨hl, hr, rfl, ho⟩ := hq
    obtain ⟨a, a1, a2, a3, a4⟩ := ihl hl (fun x hx => hin x (nestedInner_set l r _ o x (.inl hx)))
    obtain ⟨c, c1, c2, c3, c4⟩ := ihr hr (fun x hx => hin x (nestedInner_set l r _ o x (.inr hx)))
    refine ⟨a ∪ c, by simp [Query.bound, a1, c1], ?_, ?_, ?_⟩
    · intro t ht h0
      refine intro_mono_set _ _ t l r [] o ?_
      rcases Finset.mem_union.1 ht with ht | ht
      · exact .inl (a2 t ht h0)
      · exact .inr (c2 t ht h0)
    · intro t ht h0
      simp only [Query.tables, Finset.mem_union] at ht ⊢
      rcases ht with ht | ht
      · rcases a3 t ht h0 with h | h
        · exact .inl (.inl h)
        · exact .inr (.inl h)
      · rcases c3 t ht h0 with h | h
        · exact .inl (.inr h)
        · exact .inr (.inr (.inl h))
    · rintro t (h | h | ⟨w, hw, _⟩ | ⟨e, he, h | ⟨x, hx, _⟩⟩)
      · rcases a4 t h with h | h
        · exact .inl (by simp [Query.tables, h])
        · exact .inr (intro_mono_set _ _ t l r [] o (.inl h))
      · rcases c4 t h with h | h
        · exact .inl (by simp [Query.tables, h])
        · exact .inr (intro_mono_set _ _ t l r [] o (.inr h))
      · simp at hw
      · exact absurd h ((ho e he).not_refers t)
      · exact absurd hx ((ho e he).not_subq x)

theorem flat_inv (n : Nat) (x : QN n) (hx : Flat n x) : Inv (info n) (Free n) (Introduced n) x := by
  induction n with
  | zero => exact x.elim
  | succ n ih =>
    obtain ⟨bs, h1, h2, h3, h4⟩ := flat_step (info n) (Free n) (Introduced n) (Mentions n) x hx.1 (fun y t h0 h => C111_tables_sound n y t h0 h)
      (fun y t h => free_mentions n t y h) (fun y hy => ih y (hx.2 y hy))
    exact ⟨bs, h1, h2, h3, h4⟩

theorem flat_invFrom (n : Nat) (x : QN n) (hx : Flat n x) (ho : Ordinary n x) : InvFrom (info n) (Introduced n) x := by
  match n, x with
  | n + 1, .set _ _ _ _ => exact ho.elim
  | n + 1, .plain b =>
    have hq := hx.1
    obtain ⟨f, hf⟩ := Option.ne_none_iff_exists'.1 hq.2.2.2.1
    have hsrc : ∀ s ∈ fromItems (some f), isTable s = true := by rw [← hf]; exact hq.2.2.2.2
    obtain ⟨fb, h1, h2, h3⟩ := fromBound_step (info n) (Introduced n) f (fun _ => True)
      (fun s hs => by have := hsrc s hs; cases s <;> simp [isTable, tableOrSub] at this ⊢)
      (fun s hs x hx => by have := hsrc s hs; cases s <;> simp [isTable, sourceQueries] at this hx)
    refine ⟨fb, ?_, ?_⟩
    · show PB.Query.fromBound (info n) b.from_ = some fb
      rw [hf, h1]
    · intro t ht h0
      rcases h3 t ht h0 with h | ⟨s, hs, x, hx, h⟩
      · exact .inl ⟨.table t, by simpa [items, hf] using h, by simp [sourceNames]⟩
      · exact .inr (.inr ⟨x, .inr ⟨s, by simpa [items, hf] using hs, hx⟩, h⟩)

theorem mem_targets (f : Option (From Q)) (t : Tab) (h0 : t ≠ noTab) (h : t ∈ subqueryTargets f) : ∃ s ∈ fromItems f, t ∈ sourceNames s := by
  rcases f with _ | ts | ss
  · simp [subqueryTargets] at h
  · simp [subqueryTargets] at h
  · simp only [subqueryTargets, List.mem_toFinset, List.mem_filterMap] at h
    obtain ⟨s, hs, h⟩ := h
    refine ⟨s, hs, ?_⟩
    cases s with
    | sub x a l =>
      cases a with
      | none => simp [nameOf] at h; exact absurd h.symm h0
      | some a => simp [nameOf] at h; simp [sourceNames, h]
    | _ => simp at h

/-- **C113 (partial).** For such queries, `unbound_tables()` returns exactly the tables that have to be provided by an outer query. (Missing: JOIN syntax, VALUES,
functions and missing FROM clauses raise exceptions; FROM subqueries inside of subqueries, shadowed names and WITH queries with outer references are handled
wrongly, see the violations.) -/
theorem C113_unbound_partial (n : Nat) (q : QN (n + 1)) (hq : Shallow (n + 1) q) (hc : NoCapture (Free n) (Introduced n) (Mentions n) q) :
    ∃ s, Query.unbound (info n) q = some s ∧ ∀ t, t ≠ noTab → (t ∈ s ↔ Free (n + 1) t q) := by
  obtain ⟨hs, hx⟩ := hq
  show ∃ s, Query.unbound (info n) q = some s ∧ ∀ t, t ≠ noTab → (t ∈ s ↔ FreeIn (Free n t) t q)
  revert q
  intro (q : Query (QN n)) hc hs hx
  induction q with
  | plain b =>
    obtain ⟨bs, h1, h2, h3, h4⟩ := bound_step (info n) (Free n) (Introduced n) (Mentions n) (Ordinary n) b hs (fun y t h0 h => C111_tables_sound n y t h0 h)
      (fun y t h => free_mentions n t y h) (fun y hy => flat_inv n y (hx y hy))
      (fun s hs' y hy => by
        refine flat_invFrom n y (hx y (.inr ⟨s, hs', hy⟩)) ?_
        have := hs.2.2.2.2 s hs'
        cases s <;> simp [sourceQueries, tableOrSub] at hy this
        subst hy; exact this)
    refine ⟨_, by simp [Query.unbound, Body.unbound, h1]; rfl, fun t h0 => ?_⟩
    simp only [Finset.mem_sdiff, List.mem_toFinset, List.mem_map]
    constructor
    · rintro ⟨⟨⟨ht, hb⟩, htg⟩, hw⟩
      rcases h3 t ht h0 with h | h | h
      · exact absurd h hb
      · exact absurd h htg
      · exact h
    · intro hf
      have hni := hc t hf
      refine ⟨⟨⟨?_, fun h => hni (h2 t h h0)⟩, fun h => hni (.inl (mem_targets _ t h0 h))⟩, ?_⟩
      · rcases h4 t hf with h | h
        · exact h
        · exact absurd h hni
      · rintro ⟨w, hw, rfl⟩
        exact hni (.inr (.inl ⟨w, hw, .inl rfl⟩))
  | set l r ws o ihl ihr =>
    obtain ⟨hl, hr, rfl, ho⟩ := hs
    obtain ⟨a, a1, a2⟩ := ihl hc.1 hl (fun x h => hx x (nestedInner_set l r _ o x (.inl h)))
    obtain ⟨c, c1, c2⟩ := ihr hc.2 hr (fun x h => hx x (nestedInner_set l r _ o x (.inr h)))
    refine ⟨a ∪ c, by simp [Query.unbound, a1, c1], fun t h0 => ?_⟩
    rw [Finset.mem_union, a2 t h0, c2 t h0]
    constructor
    · rintro (h | h)
      · exact .inl h
      · exact .inr (.inl h)
    · rintro (h | h | ⟨w, hw, _⟩ | ⟨e, he, h | ⟨x, h, _⟩⟩)
      · exact .inl h
      · exact .inr h
      · simp at hw
      · exact absurd h ((ho e he).not_refers t)
      · exact absurd h ((ho e he).not_subq x)

/-- **C113 (partial).** For such queries without FROM subqueries, `is_dependent()` tells whether the query refers to tables of an outer query. -/
theorem C113_dependent_partial (n : Nat) (q : QN (n + 1)) (hq : Flat (n + 1) q) (hc : NoCapture (Free n) (Introduced n) (Mentions n) q)
    (h0 : ∀ t, t ∈ (info (n + 1)).ops.tables q → t ≠ noTab) :
    ∃ d, Query.dependent (info n) q = some d ∧ (d = true ↔ ∃ t, Free (n + 1) t q) := by
  obtain ⟨hs, hx⟩ := hq
  show ∃ d, Query.dependent (info n) q = some d ∧ (d = true ↔ ∃ t, FreeIn (Free n t) t q)
  have h0 : ∀ t, t ∈ Query.tables (info n).ops q → t ≠ noTab := h0
  revert q
  intro (q : Query (QN n)) hc _ hs hx h0
  induction q with
  | plain b =>
    obtain ⟨bs, h1, h2, h3, h4⟩ := flat_step (info n) (Free n) (Introduced n) (Mentions n) (.plain b) hs (fun y t h0 h => C111_tables_sound n y t h0 h)
      (fun y t h => free_mentions n t y h) (fun y hy => flat_inv n y (hx y hy))
    have h1 : b.bound (info n) = some bs := h1
    refine ⟨_, by simp only [Query.dependent, h1, Option.map_some]; rfl, ?_⟩
    rw [decide_eq_true_iff, Finset.not_subset]
    constructor
    · rintro ⟨t, ht, hb⟩
      rcases h3 t ht (h0 t ht) with h | h
      · exact absurd h hb
      · exact ⟨t, h⟩
    · rintro ⟨t, hf⟩
      have hni := hc t hf
      have ht : t ∈ b.tables (info n).ops := (h4 t hf).resolve_right hni
      exact ⟨t, ht, fun h => hni (h2 t h (h0 t ht))⟩
  | set l r ws o ihl ihr =>
    obtain ⟨hl, hr, rfl, ho⟩ := hs
    obtain ⟨a, a1, a2⟩ := ihl hc.1 (fun t ht => h0 t (Finset.mem_union_left _ ht)) hl (fun x h => hx x (nestedInner_set l r _ o x (.inl h))) (fun t ht => h0 t (by simp [Query.tables, ht]))
    obtain ⟨c, c1, c2⟩ := ihr hc.2 (fun t ht => h0 t (Finset.mem_union_right _ ht)) hr (fun x h => hx x (nestedInner_set l r _ o x (.inr h))) (fun t ht => h0 t (by simp [Query.tables, ht]))
    refine ⟨a || c, by cases a <;> simp [Query.dependent, a1, c1], ?_⟩
    rw [Bool.or_eq_true, a2, c2]
    constructor
    · rintro (⟨t, h⟩ | ⟨t, h⟩)
      · exact ⟨t, .inl h⟩
      · exact ⟨t, .inr (.inl h)⟩
    · rintro ⟨t, h | h | ⟨w, hw, _⟩ | ⟨e, he, h | ⟨x, h, _⟩⟩⟩
      · exact .inl ⟨t, h⟩
      · exact .inr ⟨t, h⟩
      · simp at hw
      · exact absurd h ((ho e he).not_refers t)
      · exact absurd h ((ho e he).not_subq x)

/-! ### Examples and counterexamples for C113 -/

theorem refersTo_col (t : Tab) (c : Col) : RefersTo t (.col c : Expr Q) ↔ c.tab = some t := by
  constructor
  · rintro ⟨s, hs, h⟩
    rw [sub_col] at hs; subst hs
    rcases h with h | ⟨c', h, h'⟩
    · simp at h
    · cases h; exact h'
  · intro h; exact ⟨_, .refl _, .inr ⟨c, rfl, h⟩⟩

theorem refersTo_subs (t : Tab) (e : Expr Q) (h1 : ∀ t, e ≠ .star t) (h2 : ∀ c, e ≠ .col c) : RefersTo t e ↔ ∃ c ∈ e.subs, RefersTo t c := by
  constructor
  · rintro ⟨s, hs, h⟩
    rcases (sub_cases s e).1 hs with rfl | ⟨c, hc, hs⟩
    · rcases h with rfl | ⟨c, rfl, _⟩
      · exact absurd rfl (h1 _)
      · exact absurd rfl (h2 _)
    · exact ⟨c, hc, s, hs, h⟩
  · rintro ⟨c, hc, s, hs, h⟩
    exact ⟨s, .step hc hs, h⟩

theorem refersTo_binary (t : Tab) (op : LogOp) (a b : Expr Q) : RefersTo t (.binary op a b) ↔ RefersTo t a ∨ RefersTo t b := by
  rw [refersTo_subs _ _ (by simp) (by simp)]; simp [subs]
theorem refersTo_unary (t : Tab) (op : Option LogOp) (a : Expr Q) : RefersTo t (.unary a op) ↔ RefersTo t a := by
  rw [refersTo_subs _ _ (by simp) (by simp)]; simp [subs]
theorem refersTo_subq (t : Tab) (q : Q) : ¬ RefersTo t (.subq q) := by
  rw [refersTo_subs _ _ (by simp) (by simp)]; simp [subs]
theorem refersTo_and (t : Tab) (op : CompOp) (a b : Expr Q) : RefersTo t (.compound op [a, b]) ↔ RefersTo t a ∨ RefersTo t b := by
  rw [refersTo_subs _ _ (by simp) (by simp)]; simp [subs]
theorem refersTo_star (t : Tab) : ¬ RefersTo t (.star none : Expr Q) := by
  rintro ⟨s, hs, h⟩
  rw [sub_star] at hs; subst hs
  simp at h

/-- What a query that only selects needs from outside. -/
theorem free_sel (n : Nat) (t : Tab) (es : List (Expr (QN n))) (f : From (QN n)) (w : Option (Expr (QN n))) :
    Free (n + 1) t (.plain (sel es (some f) w)) ↔ (∃ s ∈ fromItems (some f), ∃ x ∈ derived false s, Free n t x) ∨
      ((∀ s ∈ fromItems (some f), t ∉ sourceNames s) ∧
        ((∃ e ∈ es ++ w.toList ++ (fromItems (some f)).flatMap sourceExprs, RefersTo t e ∨ ∃ x, Sub (.subq x) e ∧ Free n t x) ∨
          ∃ s ∈ fromItems (some f), ∃ x ∈ derived true s, Free n t x)) := by
  have : exprs (.plain (sel es (some f) w)) = es ++ w.toList ++ (fromItems (some f)).flatMap sourceExprs := by
    simp [exprs, sel, clauseExprs, Function.comp_def]
  show FreeIn (Free n t) t (.plain (sel es (some f) w)) ↔ _
  rw [FreeIn, this]
  simp [sel]

theorem free_qInner (t : Tab) : Free 1 t qInner ↔ t = 1 := by
  rw [qInner, free_sel]
  simp [fromItems, derived, sourceNames, sourceExprs, refersTo_col, refersTo_binary, sub_col, sub_binary]
  constructor
  · rintro ⟨h, h'⟩
    rcases h' with h' | h'
    · exact absurd h'.symm h
    · exact h'.symm
  · rintro rfl; simp

theorem free_qDerived (t : Tab) : ¬ Free 1 t qDerived := by
  rw [qDerived, free_sel]
  simp [fromItems, derived, sourceNames, sourceExprs, refersTo_col, sub_col]
  intro h h'; exact absurd h'.symm h

/-- `SELECT T1.a FROM T1, (SELECT T2.b FROM T2) AS T9 WHERE T1.a = T7.x AND EXISTS (SELECT T3.c FROM T3 WHERE T3.c = T1.a)` -/
def qFree : QN 2 := .plain (sel [.col ⟨some 1, 1⟩] (some (.general [.table 1, .sub qDerived (some 9) false]))
  (some (.compound .and [.binary .eq (.col ⟨some 1, 1⟩) (.col ⟨some 7, 7⟩), .unary (.subq qInner) (some .existsOp)])))

theorem free_qFree (t : Tab) : Free 2 t qFree ↔ t = 7 := by
  rw [qFree, free_sel]
  simp [fromItems, derived, sourceNames, sourceExprs, refersTo_col, refersTo_binary, refersTo_and, refersTo_unary, refersTo_subq, sub_col, sub_binary, sub_and,
    sub_unary, sub_subq, free_qInner, free_qDerived]
  constructor
  · rintro ⟨⟨h1, h2⟩, h | (h | h) | h⟩
    · exact absurd h.symm h1
    · exact absurd h.symm h1
    · exact h.symm
    · exact absurd h h1
  · rintro rfl; simp

theorem flat_sel (es : List (Expr (QN 0))) (ts : List Tab) (w : Option (Expr (QN 0))) (h : ∀ e ∈ es ++ w.toList, Tame e) (hw : ∀ p ∈ w.toList, p.isPred = true) :
    Flat 1 (.plain (sel es (some (.implicit ts)) w)) := by
  refine ⟨⟨rfl, ?_, ?_, by simp [sel], ?_⟩, fun x => x.elim⟩
  · simpa [clauseExprs, sel, Function.comp_def] using h
  · simpa [sel] using hw
  · simp [sel, fromItems, isTable]

theorem flat_qInner : Flat 1 qInner := by
  refine flat_sel _ _ _ ?_ (by simp [isPred, isBase])
  intro e he
  simp only [Option.toList_some, List.cons_append, List.nil_append, List.mem_cons, List.not_mem_nil, or_false] at he
  rcases he with rfl | rfl <;> exact tame_of _ (by decide +kernel)

theorem flat_qDerived : Flat 1 qDerived := by
  refine flat_sel _ _ _ ?_ (by simp)
  intro e he
  simp only [Option.toList_none, List.append_nil, List.mem_cons, List.not_mem_nil, or_false] at he
  subst he; exact tame_of _ (by decide +kernel)

theorem nested_qFree (x : QN 1) (h : NestedInner x qFree) : x = qInner ∨ x = qDerived := by
  simp [NestedInner, qFree, exprs, items, sel, clauseExprs, fromItems, sourceExprs, sourceQueries, sub_col, sub_binary, sub_and, sub_unary, sub_subq] at h
  exact h

theorem introduced_qInner (t : Tab) (h : Introduced 1 t qInner) : t = 3 := by
  rcases h with ⟨s, hs, h⟩ | ⟨w, hw, h⟩ | ⟨x, hx, h⟩
  · simp [qInner, items, sel, fromItems] at hs; subst hs; simpa [sourceNames] using h
  · simp [qInner, withs, sel] at hw
  · exact x.elim

theorem introduced_qDerived (t : Tab) (h : Introduced 1 t qDerived) : t = 2 := by
  rcases h with ⟨s, hs, h⟩ | ⟨w, hw, h⟩ | ⟨x, hx, h⟩
  · simp [qDerived, items, sel, fromItems] at hs; subst hs; simpa [sourceNames] using h
  · simp [qDerived, withs, sel] at hw
  · exact x.elim

/-- The hypotheses are met by a query with a FROM subquery, a correlated subquery and an outer reference. -/
example : ∃ s, Query.unbound (info 1) qFree = some s ∧ ∀ t, t ≠ noTab → (t ∈ s ↔ Free 2 t qFree) := by
  refine C113_unbound_partial 1 qFree ⟨⟨rfl, ?_, by simp [sel, isPred, isCompound], by simp [sel], ?_⟩, ?_⟩ ?_
  · intro e he
    simp only [sel, clauseExprs, List.map_cons, List.map_nil, Option.toList_some, Option.toList_none, List.append_nil, List.mem_append, List.mem_singleton] at he
    rcases he with rfl | rfl
    · exact tame_of _ (by decide +kernel)
    · exact tame_of _ (by decide +kernel)
  · simp only [sel, fromItems, List.mem_cons, List.not_mem_nil, or_false, forall_eq_or_imp, forall_eq]
    exact ⟨trivial, trivial⟩
  · intro x hx
    rcases nested_qFree x hx with rfl | rfl
    · exact flat_qInner
    · exact flat_qDerived
  · intro t hf
    have hf : Free 2 t qFree := hf
    rw [free_qFree] at hf
    subst hf
    rintro (⟨s, hs, h⟩ | ⟨w, hw, h⟩ | ⟨x, hx, h⟩)
    · simp [items, sel, fromItems] at hs
      rcases hs with rfl | rfl <;> simp [sourceNames] at h
    · simp [withs, sel] at hw
    · rcases nested_qFree x hx with rfl | rfl
      · exact absurd (introduced_qInner 7 h) (by decide)
      · exact absurd (introduced_qDerived 7 h) (by decide)

example : Query.unbound (info 1) qFree = some {7} := by decide +kernel

/-- The hypotheses of the second theorem are met. -/
example : ∃ d, Query.dependent (info 0) qInner = some d ∧ (d = true ↔ ∃ t, Free 1 t qInner) := by
  refine C113_dependent_partial 0 qInner flat_qInner ?_ ?_
  · intro t hf
    have hf : Free 1 t qInner := hf
    rw [free_qInner] at hf
    subst hf
    intro h
    exact absurd (introduced_qInner 1 h) (by decide)
  · intro t ht
    have : (info 1).ops.tables qInner = {1, 3} := by decide +kernel
    rw [this] at ht
    simp at ht
    rcases ht with rfl | rfl <;> decide

/-- **C113 is violated.** Whenever the FROM clause contains a join, a VALUES list or a function, or is missing, `bound_tables()`, `unbound_tables()` and
`is_dependent()` raise an exception. -/
theorem C113_exceptions_violated (i : Info Q) (b : Body Q)
    (h : b.from_ = none ∨ ∃ s ∈ fromItems b.from_, (∃ l r c, s = .join l r c) ∨ (∃ rs a cs, s = .values rs a cs) ∨ ∃ f a, s = .func f a) :
    b.bound i = none ∧ Query.unbound i (.plain b) = none ∧ Query.dependent i (.plain b) = none := by
  have key : b.bound i = none := by
    have hfb : fromBound i b.from_ = none := by
      rcases h with h | ⟨s, hs, h⟩
      · rw [h]; rfl
      · rcases hb : b.from_ with _ | ts | ss
        · rfl
        · simp only [hb, fromItems, List.mem_map] at hs
          obtain ⟨t, _, rfl⟩ := hs
          rcases h with ⟨_, _, _, h⟩ | ⟨_, _, _, h⟩ | ⟨_, _, h⟩ <;> cases h
        · have : allSome (ss.map fun s => s.bound i) = none := by
            rw [allSome_eq_none, List.mem_map]
            refine ⟨s, by simpa [hb, fromItems] using hs, ?_⟩
            rcases h with ⟨_, _, _, rfl⟩ | ⟨_, _, _, rfl⟩ | ⟨_, _, rfl⟩ <;> rfl
          simp [fromBound, this]
    rw [Body.bound, hfb]
    cases b.subqueries with
    | none => rfl
    | some qs => cases h2 : allSome (qs.map i.bound) <;> simp [h2]
  exact ⟨key, by simp [Query.unbound, Body.unbound, key], by simp [Query.dependent, key]⟩

example : Query.dependent (info 1) qOuter = none := (C113_exceptions_violated (info 1) _ (.inr ⟨_, List.mem_singleton.2 rfl, .inl ⟨_, _, _, rfl⟩⟩)).2.2

/-- **C113 is violated.** A query with a named FROM subquery is reported as dependent by `is_dependent()`, no matter what it refers to (unless another FROM clause
lists a table of that name). -/
theorem C113_from_subquery_violated (i : Info Q) (b : Body Q) (bs : Finset Tab) (x : Q) (a : Tab) (l : Bool) (hs : .sub x (some a) l ∈ fromItems b.from_)
    (hb : b.bound i = some bs) (ha : a ∉ bs) : Query.dependent i (.plain b) = some true ∧ a ∈ b.tables i.ops ∧ a ∉ bs ∧
      ∀ s, b.unbound i = some s → a ∉ s := by
  have ht : a ∈ b.tables i.ops := (mem_bodyTables i.ops b a).2 (.inr (.inl ⟨_, hs, by simp [Source.tables, nameOf]⟩))
  refine ⟨?_, ht, ha, ?_⟩
  · simp only [Query.dependent, hb, Option.map_some, Option.some.injEq, decide_eq_true_iff, Finset.not_subset]
    exact ⟨a, ht, ha⟩
  · intro s h
    simp only [Body.unbound, hb, Option.map_some, Option.some.injEq] at h
    subst h
    simp only [Finset.mem_sdiff, not_and, not_not]
    intro ⟨_, h⟩
    refine absurd ?_ h
    rcases hf : b.from_ with _ | ts | ss
    · simp [hf, fromItems] at hs
    · simp [hf, fromItems] at hs
    · simp only [subqueryTargets, List.mem_toFinset, List.mem_filterMap]
      exact ⟨_, by simpa [hf, fromItems] using hs, by simp [nameOf]⟩

/-- `SELECT T9.b FROM (SELECT T2.b FROM T2) AS T9` -/
def qWrap : QN 2 := .plain (sel [.col ⟨some 9, 2⟩] (some (.general [.sub qDerived (some 9) false])) none)

example : Query.dependent (info 1) qWrap = some true ∧ ¬ ∃ t, Free 2 t qWrap := by
  refine ⟨by decide +kernel, ?_⟩
  rintro ⟨t, h⟩
  rw [qWrap, free_sel] at h
  simp [fromItems, derived, sourceNames, sourceExprs, refersTo_col, sub_col, free_qDerived] at h
  exact h.1 h.2.symm

/-- **C113 is violated.** The name of a FROM subquery inside of a subquery is reported as unbound: T9 in
`SELECT T1.a FROM T1 WHERE EXISTS (SELECT T9.b FROM (SELECT T2.b FROM T2) AS T9)`. -/
theorem C113_nested_derived_violated :
    let q : QN 3 := .plain (sel [.col ⟨some 1, 1⟩] (some (.implicit [1])) (some (.unary (.subq qWrap) (some .existsOp))))
    Query.unbound (info 2) q = some {9} ∧ ¬ Free 3 9 q := by
  refine ⟨by decide +kernel, ?_⟩
  rw [free_sel]
  simp [fromItems, derived, sourceNames, sourceExprs, refersTo_col, refersTo_unary, refersTo_subq, sub_col, sub_unary, sub_subq]
  rw [qWrap, free_sel]
  simp [fromItems, derived, sourceNames, sourceExprs, refersTo_col, sub_col, free_qDerived]

/-- **C113 is violated.** If a subquery lists the table in its own FROM clause, the outer reference is overlooked: T2 in
`SELECT T1.a FROM T1 WHERE T1.a = T2.b AND EXISTS (SELECT T2.b FROM T2)`. -/
theorem C113_shadowed_violated :
    let q : QN 2 := .plain (sel [.col ⟨some 1, 1⟩] (some (.implicit [1]))
      (some (.compound .and [.binary .eq (.col ⟨some 1, 1⟩) (.col ⟨some 2, 2⟩), .unary (.subq qDerived) (some .existsOp)])))
    Free 2 2 q ∧ Query.unbound (info 1) q = some ∅ ∧ Query.dependent (info 1) q = some false := by
  refine ⟨?_, by decide +kernel, by decide +kernel⟩
  rw [free_sel]
  simp [fromItems, derived, sourceNames, sourceExprs, refersTo_col, refersTo_binary, refersTo_and]

/-- **C113 is violated.** An outer reference in a WITH query is overlooked: T1 in `WITH T9 AS (SELECT T3.c FROM T3 WHERE T3.c = T1.a) SELECT T9.c FROM T9`. -/
theorem C113_with_violated :
    let q : QN 2 := .plain ⟨[⟨qInner, 9⟩], [(.col ⟨some 9, 3⟩, none)], [], some (.implicit [9]), none, [], none, []⟩
    Free 2 1 q ∧ Query.unbound (info 1) q = some ∅ ∧ Query.dependent (info 1) q = some false :=
  ⟨.inl ⟨⟨qInner, 9⟩, by simp, (free_qInner 1).2 rfl⟩, by decide +kernel, by decide +kernel⟩

/-! ### C114: the predicates of a query -/

/-- The conditions that apply to the FROM item: join conditions and the predicates of subqueries. -/
def sourceConds (p : Q → Option (Expr Q)) : Source Q → List (Expr Q)
  | .sub q _ _ => (p q).toList
  | .join l r c => sourceConds p l ++ sourceConds p r ++ c.toList
  | _ => []

/-- The base predicates of a list of predicates. -/
def bases (ps : List (Expr Q)) : List (Expr Q) := ps.flatMap basePredicates

theorem bases_createAnd (ps : List (Expr Q)) (r : Expr Q) (h : Expr.createAnd ps = some r) : basePredicates r = bases ps := by
  match ps with
  | [] => simp [Expr.createAnd] at h
  | [p] => simp [Expr.createAnd] at h; subst h; simp [bases]
  | p :: p' :: ps => simp [Expr.createAnd] at h; subst h; rw [basePredicates]; simp [bases]

theorem bases_append (a b : List (Expr Q)) : bases (a ++ b) = bases a ++ bases b := by simp [bases]

theorem createAnd_isSome (ps : List (Expr Q)) (h : ps.isEmpty = false) : ∃ r, Expr.createAnd ps = some r := by
  match ps with
  | [] => simp at h
  | [p] => exact ⟨p, rfl⟩
  | p :: p' :: ps => exact ⟨_, rfl⟩

/-- The conjunction of a list, or nothing. -/
theorem bases_ifEmpty (ps : List (Expr Q)) :
    ∃ r, (if ps.isEmpty then some none else (Expr.createAnd ps).map some) = some r ∧ bases r.toList = bases ps := by
  cases h : ps.isEmpty with
  | true => refine ⟨none, by simp, ?_⟩; simp at h; subst h; rfl
  | false =>
    obtain ⟨r, hr⟩ := createAnd_isSome ps h
    exact ⟨some r, by simp [hr], by simp [bases, bases_createAnd ps r hr]⟩

theorem source_predicates (preds : Q → Option (Option (Expr Q))) (p : Q → Option (Expr Q)) (s : Source Q)
    (h : ∀ x ∈ sourceQueries s, preds x = some (p x)) : ∃ r, s.predicates preds = some r ∧ bases r.toList = bases (sourceConds p s) := by
  induction s with
  | sub q a l => exact ⟨p q, h q (by simp [sourceQueries]), rfl⟩
  | join l r c ihl ihr =>
    obtain ⟨x, hx, hx'⟩ := ihl (fun y hy => h y (by simp [sourceQueries, hy]))
    obtain ⟨y, hy, hy'⟩ := ihr (fun y hy => h y (by simp [sourceQueries, hy]))
    obtain ⟨z, hz, hz'⟩ := bases_ifEmpty (x.toList ++ y.toList ++ c.toList)
    refine ⟨z, by simp only [Source.predicates, hx, hy, Option.bind_some, hz], ?_⟩
    rw [hz', sourceConds]
    simp only [bases_append, hx', hy']
  | _ => exact ⟨none, rfl, rfl⟩

theorem bases_andRoots (a b : Option (Expr Q)) : bases (QueryPreds.andRoots a b).toList = bases a.toList ++ bases b.toList := by
  cases a <;> cases b <;> simp [QueryPreds.andRoots, bases, Expr.createAnd]
  rw [basePredicates]; simp

theorem bases_fold (cs : List (Option (Expr Q))) (a : Option (Expr Q)) :
    bases (cs.foldl QueryPreds.andRoots a).toList = bases a.toList ++ bases (cs.flatMap Option.toList) := by
  induction cs generalizing a with
  | nil => simp [bases]
  | cons c cs ih => rw [List.foldl_cons, ih, bases_andRoots, List.flatMap_cons, bases_append, List.append_assoc]

/-- **C114 (partial).** If the query has a FROM clause and the predicates of the WITH queries and FROM subqueries can be determined, the base predicates of
`predicates()` are exactly those of the WITH queries, of the WHERE clause and of the FROM clause (join conditions and FROM subqueries). (Missing: queries
without FROM clause and queries that contain set queries raise exceptions, see the violations.) -/
theorem C114_predicates_partial (preds : Q → Option (Option (Expr Q))) (p : Q → Option (Expr Q)) (b : Body Q) (hf : b.from_ ≠ none)
    (hp : ∀ x, (∃ w ∈ b.ctes, w.query = x) ∨ (∃ s ∈ fromItems b.from_, x ∈ sourceQueries s) → preds x = some (p x)) :
    ∃ r, Query.predicates preds (.plain b) = some r ∧
      bases r.toList = bases ((b.ctes.flatMap fun w => (p w.query).toList) ++ b.where_.toList ++ (fromItems b.from_).flatMap (sourceConds p)) := by
  obtain ⟨f, hf⟩ := Option.ne_none_iff_exists'.1 hf
  have h1 : allSome (b.ctes.map fun w => preds w.query) = some (b.ctes.map fun w => p w.query) :=
    allSome_map _ _ _ (fun w hw => hp _ (.inl ⟨w, hw, rfl⟩))
  have h2 : ∃ r, f.predicates preds = some r ∧ bases r.toList = bases ((fromItems b.from_).flatMap (sourceConds p)) := by
    rw [hf]
    cases f with
    | implicit ts => exact ⟨none, rfl, by simp [fromItems, bases, sourceConds, List.flatMap_map]⟩
    | general ss =>
      have : ∀ s ∈ ss, ∃ r, s.predicates preds = some r ∧ bases r.toList = bases (sourceConds p s) := fun s hs =>
        source_predicates preds p s (fun x hx => hp x (.inr ⟨s, by simpa [hf, fromItems] using hs, hx⟩))
      choose! g hg1 hg2 using this
      have h3 : allSome (ss.map fun s => s.predicates preds) = some (ss.map g) := allSome_map _ _ _ hg1
      obtain ⟨r, hr, hr'⟩ := bases_ifEmpty ((ss.map g).flatMap Option.toList)
      refine ⟨r, by simp only [From.predicates, h3, Option.bind_some, hr], ?_⟩
      rw [hr', fromItems]
      clear hr hr' h3 h1 hp hf
      induction ss with
      | nil => rfl
      | cons s ss ih =>
        simp only [List.map_cons, List.flatMap_cons, bases_append]
        rw [hg2 s (by simp), ih (fun s hs => hg1 s (by simp [hs])) (fun s hs => hg2 s (by simp [hs]))]
  obtain ⟨fp, h2, h2'⟩ := h2
  refine ⟨_, by simp only [Query.predicates, Body.predicates, h1, hf, Option.bind_some, h2, Option.map_some]; rfl, ?_⟩
  rw [bases_andRoots, bases_andRoots, bases_fold, h2', bases_append, bases_append]
  simp [bases, List.flatMap_map]

/-- The hypotheses are met by the query with a join: its predicates are the join condition and the WHERE condition. -/
example : ∃ r, Query.predicates (fun _ => some none) qOuter = some r ∧
    bases r.toList = [.unary (.subq qInner) (some .existsOp), .binary .eq (.col ⟨some 1, 1⟩) (.col ⟨some 9, 2⟩)] := by
  obtain ⟨r, h, h'⟩ := C114_predicates_partial (fun _ => some none) (fun _ => none) (sel [.col ⟨some 1, 1⟩]
    (some (.general [.join (.table 1) (.sub qDerived (some 9) false) (some (.binary .eq (.col ⟨some 1, 1⟩) (.col ⟨some 9, 2⟩)))]))
    (some (.unary (.subq qInner) (some .existsOp)))) (by simp [sel]) (fun _ _ => rfl)
  refine ⟨r, h, ?_⟩
  rw [h']
  simp [sel, fromItems, sourceConds, bases, basePredicates]

/-- **C114 is violated.** `predicates()` raises an exception for every query without FROM clause, and for every query with a WITH query or FROM subquery whose own
`predicates()` raises one. That is the case for all set queries. -/
theorem C114_exceptions_violated (preds : Q → Option (Option (Expr Q))) (b : Body Q) :
    (b.from_ = none → Query.predicates preds (.plain b) = none) ∧
      (∀ w ∈ b.ctes, preds w.query = none → Query.predicates preds (.plain b) = none) ∧
      (∀ x a l, .sub x a l ∈ fromItems b.from_ → preds x = none → Query.predicates preds (.plain b) = none) ∧
      ∀ l r ws o, Query.predicates preds (.set l r ws o) = none := by
  refine ⟨fun h => ?_, fun w hw h => ?_, fun x a l hs h => ?_, fun _ _ _ _ => rfl⟩
  · simp only [Query.predicates, Body.predicates, h, Option.bind_none]
    cases allSome (b.ctes.map fun w => preds w.query) <;> rfl
  · have : allSome (b.ctes.map fun w => preds w.query) = none := (allSome_eq_none _).2 (List.mem_map.2 ⟨w, hw, h⟩)
    simp [Query.predicates, Body.predicates, this]
  · rcases hf : b.from_ with _ | ts | ss
    · simp [hf, fromItems] at hs
    · simp [hf, fromItems] at hs
    · have : allSome (ss.map fun s => s.predicates preds) = none :=
        (allSome_eq_none _).2 (List.mem_map.2 ⟨.sub x a l, by simpa [hf, fromItems] using hs, h⟩)
      simp only [Query.predicates, Body.predicates, hf, From.predicates, this, Option.bind_none, Option.bind_some, Option.map_none]
      cases allSome (b.ctes.map fun w => preds w.query) <;> rfl

/-- **C114 is violated.** `contains_cross_product()` raises an exception for every query with a FROM clause. -/
theorem C114_cross_product_violated (preds : Q → Option (Option (Expr Q))) (b : Body Q) (h : b.from_ ≠ none) : b.containsCrossProduct preds = none := by
  obtain ⟨f, hf⟩ := Option.ne_none_iff_exists'.1 h
  simp only [Body.containsCrossProduct, hf]
  cases b.predicates preds <;> simp

/-! ### C115: output columns -/

/-- What the result of an ordinary query calls its columns: the given name, the name of a plain column, nothing otherwise. Stars are expanded to an unknown
number of columns. -/
def outputName : Expr Q × Option Nat → Option Nat
  | (_, some n) => some n
  | (.col c, none) => some c.name
  | _ => none

/-- A star that is not renamed. -/
def isBareStar : Expr Q × Option Nat → Bool
  | (.star _, none) => true
  | _ => false

/-- The number of the anonymous columns among the given ones. -/
def anonymous (ps : List (Expr Q × Option Nat)) : Nat := (ps.filter fun p => !isBareStar p && (outputName p).isNone).length

theorem output_get (ps : List (Expr Q × Option Nat)) (hs : ∀ p ∈ ps, isBareStar p = false) (k : Nat) :
    (outputColumns k ps).length = ps.length ∧ ∀ j (h : j < ps.length), (outputColumns k ps)[j]? = some (match outputName ps[j] with
      | some n => .inl n
      | none => .inr (k + anonymous (ps.take j))) := by
  induction ps generalizing k with
  | nil => simp [outputColumns]
  | cons p ps ih =>
    have hs' := fun q hq => hs q (List.mem_cons_of_mem _ hq)
    have h0 := hs p (by simp)
    obtain ⟨e, nm⟩ := p
    have key : ∃ hd, outputColumns k ((e, nm) :: ps) = hd :: outputColumns (k + anonymous [(e, nm)]) ps ∧
        hd = (match outputName (e, nm) with | some n => .inl n | none => .inr k) := by
      cases nm with
      | some n => exact ⟨.inl n, by simp [outputColumns, anonymous, outputName], rfl⟩
      | none => cases e <;> first | (simp [isBareStar] at h0; done) | exact ⟨_, by simp only [outputColumns]; rfl, rfl⟩
    obtain ⟨hd, h1, h2⟩ := key
    obtain ⟨i1, i2⟩ := ih hs' (k + anonymous [(e, nm)])
    rw [h1]
    refine ⟨by simp [i1], ?_⟩
    intro j hj
    cases j with
    | zero => simp [h2, anonymous]
    | succ j =>
      have hj' : j < ps.length := by simpa using hj
      rw [List.getElem?_cons_succ, i2 j hj']
      have : anonymous ((e, nm) :: ps.take j) = anonymous [(e, nm)] + anonymous (ps.take j) := by
        simp only [anonymous, List.filter_cons, List.filter_nil]
        split <;> simp <;> omega
      simp only [List.getElem_cons_succ, List.take_succ_cons, this]
      cases outputName ps[j] <;> simp [Nat.add_assoc]

/-- **C115.** Without stars, `output_columns()` of an ordinary query lists one column per projection, in order: its name, or the name of the plain column, or
`column_k` for the `k`-th anonymous projection. -/
theorem C115_output_columns (ps : List (Expr Q × Option Nat)) (hs : ∀ p ∈ ps, isBareStar p = false) (j : Nat) (hj : j < ps.length) :
    (outputColumns 1 ps).length = ps.length ∧ (outputColumns 1 ps)[j]? = some (match outputName ps[j] with
      | some n => .inl n
      | none => .inr (1 + anonymous (ps.take j))) := ⟨(output_get ps hs 1).1, (output_get ps hs 1).2 j hj⟩

/-- **C115.** The same for `output_columns()` of the query object, which never fails for ordinary queries. -/
theorem C115_query_columns (b : Body Q) (hs : ∀ p ∈ b.select, isBareStar p = false) :
    ∃ cs, PB.Query.Query.outputColumns (.plain b) = some cs ∧ cs.length = b.select.length ∧
      ∀ j (hj : j < b.select.length), cs[j]? = some (match outputName b.select[j] with
        | some n => .inl n
        | none => .inr (1 + anonymous (b.select.take j))) :=
  ⟨_, rfl, (output_get b.select hs 1).1, fun j hj => (output_get b.select hs 1).2 j hj⟩

example : outputColumns 1 [((.col ⟨some 1, 5⟩ : Expr Unit), none), (.static (.num 1), none), (.static (.num 2), some 8), (.static (.num 3), none)] =
    [.inl 5, .inr 1, .inl 8, .inr 2] := by decide +kernel

/-- The name of a column of a set query: that of the left side, else that of the right side. -/
def setName (a b : Nat ⊕ Nat) : Option Nat := match a, b with
  | .inl n, _ => some n
  | _, .inl n => some n
  | _, _ => none

theorem merge_get (xs ys : List (Nat ⊕ Nat)) (h : xs.length = ys.length) (k : Nat) :
    (mergeColumns k xs ys).length = xs.length ∧ ∀ j (hx : j < xs.length) (hy : j < ys.length), (mergeColumns k xs ys)[j]? = some (match setName xs[j] ys[j] with
      | some n => .inl n
      | none => .inr (k + (((xs.take j).zip (ys.take j)).filter fun p => (setName p.1 p.2).isNone).length)) := by
  induction xs generalizing ys k with
  | nil => cases ys <;> simp [mergeColumns] at h ⊢
  | cons x xs ih =>
    cases ys with
    | nil => simp at h
    | cons y ys =>
      have h : xs.length = ys.length := by simpa using h
      have key : ∃ m, mergeColumns k (x :: xs) (y :: ys) = (match setName x y with | some n => .inl n | none => .inr k) :: mergeColumns m xs ys ∧
          m = k + ([(x, y)].filter fun p => (setName p.1 p.2).isNone).length := by
        cases x <;> cases y <;> exact ⟨_, rfl, by simp [setName]⟩
      obtain ⟨m, h1, h2⟩ := key
      obtain ⟨i1, i2⟩ := ih ys h m
      rw [h1]
      refine ⟨by simp [i1], fun j hx hy => ?_⟩
      cases j with
      | zero => simp
      | succ j =>
        have hx' : j < xs.length := by simpa using hx
        have hy' : j < ys.length := by simpa using hy
        rw [List.getElem?_cons_succ, i2 j hx' hy']
        subst h2
        simp only [List.getElem_cons_succ, List.take_succ_cons, List.zip_cons_cons, List.filter_cons, List.filter_nil]
        split
        · rename_i hn; simp [hn]
        · rename_i hn
          split <;> simp [hn] <;> omega

/-- **C115.** `output_columns()` of a set query: if both sides have the same number of columns, each column has the name that the left side provides, else the
one that the right side provides, else `column_k` for the `k`-th of the remaining columns. -/
theorem C115_set_columns (l r : Query Q) (ws : List (With Q)) (o : List (Expr Q)) (xs ys : List (Nat ⊕ Nat)) (hl : l.outputColumns = some xs)
    (hr : r.outputColumns = some ys) :
    (xs.length ≠ ys.length → PB.Query.Query.outputColumns (.set l r ws o) = none) ∧
    (xs.length = ys.length → ∃ zs, PB.Query.Query.outputColumns (.set l r ws o) = some zs ∧ zs.length = xs.length ∧
      ∀ j (hx : j < xs.length) (hy : j < ys.length), zs[j]? = some (match setName xs[j] ys[j] with
        | some n => .inl n
        | none => .inr (1 + (((xs.take j).zip (ys.take j)).filter fun p => (setName p.1 p.2).isNone).length))) := by
  refine ⟨fun h => by simp [PB.Query.Query.outputColumns, hl, hr, h], fun h => ⟨_, by simp only [PB.Query.Query.outputColumns, hl, hr, Option.bind_some, if_pos h]; rfl, ?_⟩⟩
  exact merge_get xs ys h 1

/-- **C115 is violated.** Stars contribute no column: `SELECT T1.*, T2.b FROM T1, T2` is said to have the single column `b`. -/
theorem C115_star_violated : outputColumns 1 [((.star (some 1) : Expr Unit), none), (.col ⟨some 2, 2⟩, none)] = [.inl 2] := by decide +kernel

end PB.QueryProps
