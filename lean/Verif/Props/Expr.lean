import Verif.Model.Expr

set_option linter.unusedSimpArgs false
set_option linter.unusedVariables false
set_option linter.unusedSectionVars false
set_option linter.unnecessarySimpa false

/-! Properties C82, C83: what `columns()`, `itercolumns()`, `tables()` and `ExpressionCollector` report about an
expression, compared with what syntactically occurs in it. -/

namespace PB.ExprProps
open PB PB.Qal PB.Qal.Expr

variable {Q : Type}

/-! ### Specification -/

/-- `Sub s e`: `s` occurs in `e` (or is `e`). -/
inductive Sub : Expr Q → Expr Q → Prop
  | refl (e) : Sub e e
  | step {s c e} : c ∈ e.subs → Sub s c → Sub s e

/-- The column is mentioned somewhere in the expression, or in a subquery of it. -/
def MentionsCol (ops : QOps Q) (c : Col) (e : Expr Q) : Prop :=
  ∃ s, Sub s e ∧ (s = .col c ∨ ∃ q, s = .subq q ∧ c ∈ ops.columns q)

/-- The table is mentioned somewhere in the expression, or in a subquery of it. -/
def MentionsTab (ops : QOps Q) (t : Tab) (e : Expr Q) : Prop :=
  ∃ s, Sub s e ∧ (s = .star (some t) ∨ (∃ c, s = .col c ∧ c.tab = some t) ∨ ∃ q, s = .subq q ∧ t ∈ ops.tables q)

/-- No CASE, no window function and no arithmetic with more than two operands at the root. -/
def regularNode : Expr Q → Bool
  | .case .. => false
  | .window .. => false
  | .math _ _ bs => bs.length ≤ 1
  | _ => true

/-- No CASE, no window function and no arithmetic with more than two operands in the expression. -/
def Regular (e : Expr Q) : Prop := ∀ s, Sub s e → regularNode s = true

/-- AND, OR and NOT combine predicates, FILTER conditions are predicates. -/
def typedNode : Expr Q → Bool
  | .compound _ cs => cs.all isPred
  | .func _ _ _ f => f.toList.all isPred
  | .window _ _ _ _ f => f.toList.all isPred
  | _ => true

/-- Well-typed: AND, OR and NOT combine predicates, FILTER conditions are predicates. -/
def Typed (e : Expr Q) : Prop := ∀ s, Sub s e → typedNode s = true

/-! ### Unfolding -/

theorem mem_unionAll {α : Type} [DecidableEq α] (l : List (Finset α)) (x : α) :
    x ∈ unionAll l ↔ ∃ s ∈ l, x ∈ s := by
  induction l with
  | nil => simp [unionAll]
  | cons a l ih => simp [unionAll] at ih ⊢; simp [ih]

theorem tables_eq (ops : QOps Q) (e : Expr Q) :
    e.tables ops = e.ownTables ops ∪ unionAll (e.tabParts.map fun c => c.tables ops) := by
  rw [tables]; simp

theorem columns_eq (ops : QOps Q) (e : Expr Q) :
    e.columns ops = e.ownColumns ops ∪ unionAll (e.colParts.map fun c => c.columns ops) := by
  rw [columns]; simp

theorem iterColumns_eq (ops : QOps Q) (e : Expr Q) :
    e.iterColumns ops = e.ownIterCols ops ++ e.iterColParts.flatMap fun c => c.iterColumns ops := by
  rw [iterColumns]; simp [List.flatMap_subtype]

theorem collectBase_eq (e : Expr Q) :
    e.collectBase = if e.isBaseExpr then [e] else e.iterChildren.flatMap fun c => c.collectBase := by
  rw [collectBase]; simp [List.flatMap_subtype]

theorem collectMatches_eq (m : Expr Q → Bool) (k : Bool) (e : Expr Q) :
    e.collectMatches m k =
      if m e && !k then [e]
      else (if m e then [e] else []) ++ e.iterChildren.flatMap fun c => c.collectMatches m k := by
  rw [collectMatches]; simp [List.flatMap_subtype]

theorem Sub.trans {a b c : Expr Q} (h : Sub a b) (h' : Sub b c) : Sub a c := by
  induction h' with
  | refl => exact h
  | step hm _ ih => exact .step hm ih

theorem Sub.of_mem {c e : Expr Q} (h : c ∈ e.subs) : Sub c e := .step h (.refl c)

theorem sub_iterExpressions (e : Expr Q) : ∀ c ∈ e.iterExpressions, Sub c e := by
  induction e using Expr.ind with
  | h e ih =>
    intro c hc
    cases e with
    | binary | between | inP | unary =>
      simp only [iterExpressions] at hc
      exact .of_mem hc
    | compound op cs =>
      simp only [iterExpressions, List.mem_flatMap] at hc
      obtain ⟨d, hd, hc⟩ := hc
      exact (ih d hd c hc).trans (.of_mem hd)
    | _ => simp [iterExpressions] at hc

theorem sub_directParts (e : Expr Q) : ∀ c ∈ e.directParts, Sub c e := by
  intro c hc
  cases e with
  | static | star | col | subq | case => simp [directParts] at hc
  | func n as d f => exact .of_mem (by simp [subs, directParts] at hc ⊢; simp [hc])
  | window fn p o d f =>
    simp only [directParts, List.mem_append, List.mem_flatMap] at hc
    obtain h1 | ⟨x, hx, h1⟩ := hc
    · exact .of_mem (by simp [subs, h1])
    · exact (sub_iterExpressions x c h1).trans (.of_mem (by simp [subs] at hx ⊢; simp [hx]))
  | _ => exact .of_mem hc

theorem sub_iterChildren (e : Expr Q) : ∀ c ∈ e.iterChildren, Sub c e := by
  induction e using Expr.ind with
  | h e ih =>
    intro c hc
    rw [iterChildren_eq, List.mem_append, List.mem_flatMap] at hc
    obtain ⟨d, hd, hc⟩ | hc := hc
    · have hs := grandParts_subs e d hd
      exact (ih d hs c hc).trans (.of_mem hs)
    · exact sub_directParts e c hc

theorem sub_tabParts (e : Expr Q) : ∀ c ∈ e.tabParts, Sub c e := by
  intro c hc
  cases e with
  | static | star | col | subq => simp [tabParts] at hc
  | cast | func | array | arrGet | quant => exact .of_mem hc
  | math op a bs =>
    rw [tabParts.eq_def] at hc
    split at hc <;> try contradiction
    · rename_i h; cases h; exact .of_mem hc
    · rename_i h; cases h; simp at hc; subst hc; exact .of_mem (by simp [subs])
  | window | case => exact sub_iterChildren _ _ hc
  | binary | between | inP | unary | compound => exact sub_iterExpressions _ _ hc

theorem sub_colParts (e : Expr Q) : ∀ c ∈ e.colParts, Sub c e := by
  intro c hc
  cases e with
  | static | star | col | subq => simp [colParts] at hc
  | cast | func | array | arrGet | quant | binary | between | inP | unary | compound => exact .of_mem hc
  | math op a bs =>
    rw [colParts.eq_def] at hc
    split at hc <;> try contradiction
    · rename_i h; cases h; exact .of_mem hc
    · rename_i h; cases h; simp at hc; subst hc; exact .of_mem (by simp [subs])
  | window | case => exact sub_iterChildren _ _ hc

theorem sub_iterColParts (e : Expr Q) : ∀ c ∈ e.iterColParts, Sub c e := by
  intro c hc
  cases e with
  | static | star | col | subq => simp [iterColParts] at hc
  | cast | math | func | array | arrGet | quant | binary | between | inP | unary | compound => exact .of_mem hc
  | window | case => exact sub_iterChildren _ _ hc

/-- Induction over occurrences: strong induction on size. -/
theorem sizeInd {P : Expr Q → Prop} (h : ∀ e, (∀ c, sizeOf c < sizeOf e → P c) → P e) (e : Expr Q) : P e :=
  h e (fun c hc => sizeInd h c)
termination_by sizeOf e

theorem Regular.sub {s e : Expr Q} (h : Regular e) (hs : Sub s e) : Regular s := fun t ht => h t (ht.trans hs)
theorem Typed.sub {s e : Expr Q} (h : Typed e) (hs : Sub s e) : Typed s := fun t ht => h t (ht.trans hs)

/-- A test holds for all occurrences. -/
def everywhere (p : Expr Q → Bool) (e : Expr Q) : Bool :=
  p e && e.subs.attach.all fun ⟨c, h⟩ => have := sizeOf_subs h; everywhere p c
termination_by sizeOf e

theorem everywhere_iff (p : Expr Q → Bool) (e : Expr Q) : everywhere p e = true ↔ ∀ s, Sub s e → p s = true := by
  induction e using Expr.ind with
  | h e ih =>
    rw [everywhere]
    simp only [Bool.and_eq_true, List.all_eq_true, List.mem_attach, forall_const, Subtype.forall]
    constructor
    · rintro ⟨h1, h2⟩ s hs
      cases hs with
      | refl => exact h1
      | step hm hs => exact (ih _ hm).1 (h2 _ hm) s hs
    · intro h
      exact ⟨h e (.refl e), fun c hc => (ih c hc).2 fun s hs => h s (.step hc hs)⟩

/-! ### C82: columns and tables -/

/-- **C82.** `columns()` never reports a column that is not mentioned in the expression or one of its subqueries. -/
theorem C82_columns_sound (ops : QOps Q) (e : Expr Q) (c : Col) (h : c ∈ e.columns ops) : MentionsCol ops c e := by
  induction e using sizeInd with
  | h e ih =>
    rw [columns_eq, Finset.mem_union, mem_unionAll] at h
    obtain h | ⟨s, hs, hc⟩ := h
    · cases e <;> simp [ownColumns] at h
      · subst h; exact ⟨_, .refl _, .inl rfl⟩
      · exact ⟨_, .refl _, .inr ⟨_, rfl, h⟩⟩
    · obtain ⟨d, hd, rfl⟩ := List.mem_map.1 hs
      obtain ⟨t, ht, ho⟩ := ih d (sizeOf_colParts e d hd) hc
      exact ⟨t, ht.trans (sub_colParts e d hd), ho⟩

/-- **C82.** `itercolumns()` never lists a column that is not mentioned, if that holds for the subqueries. -/
theorem C82_itercolumns_sound (ops : QOps Q) (hq : ∀ q, ∀ c ∈ ops.iterCols q, c ∈ ops.columns q) (e : Expr Q) (c : Col)
    (h : c ∈ e.iterColumns ops) : MentionsCol ops c e := by
  induction e using sizeInd with
  | h e ih =>
    rw [iterColumns_eq, List.mem_append, List.mem_flatMap] at h
    obtain h | ⟨d, hd, hc⟩ := h
    · cases e <;> simp [ownIterCols] at h
      · subst h; exact ⟨_, .refl _, .inl rfl⟩
      · exact ⟨_, .refl _, .inr ⟨_, rfl, hq _ _ h⟩⟩
    · obtain ⟨t, ht, ho⟩ := ih d (sizeOf_iterColParts e d hd) hc
      exact ⟨t, ht.trans (sub_iterColParts e d hd), ho⟩

/-- **C82.** `tables()` never reports a table that is not mentioned. -/
theorem C82_tables_sound (ops : QOps Q) (e : Expr Q) (t : Tab) (h : t ∈ e.tables ops) : MentionsTab ops t e := by
  induction e using sizeInd with
  | h e ih =>
    rw [tables_eq, Finset.mem_union, mem_unionAll] at h
    obtain h | ⟨s, hs, hc⟩ := h
    · cases e with
      | star o => cases o <;> simp [ownTables, tabSet] at h; subst h; exact ⟨_, .refl _, .inl rfl⟩
      | col c =>
        refine ⟨_, .refl _, .inr (.inl ⟨c, rfl, ?_⟩)⟩
        simp only [ownTables] at h
        cases hc : c.tab <;> simp [hc, tabSet] at h ⊢; exact h.symm
      | subq q => exact ⟨_, .refl _, .inr (.inr ⟨q, rfl, by simpa [ownTables] using h⟩)⟩
      | _ => simp [ownTables] at h
    · obtain ⟨d, hd, rfl⟩ := List.mem_map.1 hs
      obtain ⟨x, hx, ho⟩ := ih d (sizeOf_tabParts e d hd) hc
      exact ⟨x, hx.trans (sub_tabParts e d hd), ho⟩

theorem colParts_regular (e : Expr Q) (h : regularNode e = true) : ∀ c ∈ e.subs, c ∈ e.colParts := by
  intro c hc
  cases e with
  | math op a bs =>
    match bs, h with
    | [], _ => exact hc
    | [b], _ => exact hc
  | case | window => simp [regularNode] at h
  | _ => simpa [colParts, subs] using hc

theorem iterColParts_regular (e : Expr Q) (h : regularNode e = true) : ∀ c ∈ e.subs, c ∈ e.iterColParts := by
  intro c hc
  cases e with
  | case | window => simp [regularNode] at h
  | _ => simpa [iterColParts, subs] using hc

theorem columns_mono (ops : QOps Q) {e d : Expr Q} (h : d ∈ e.colParts) {c : Col} (hc : c ∈ d.columns ops) :
    c ∈ e.columns ops := by
  rw [columns_eq, Finset.mem_union, mem_unionAll]
  exact .inr ⟨_, List.mem_map_of_mem h, hc⟩

theorem tables_mono (ops : QOps Q) {e d : Expr Q} (h : d ∈ e.tabParts) {t : Tab} (hc : t ∈ d.tables ops) :
    t ∈ e.tables ops := by
  rw [tables_eq, Finset.mem_union, mem_unionAll]
  exact .inr ⟨_, List.mem_map_of_mem h, hc⟩

theorem iterColumns_mono (ops : QOps Q) {e d : Expr Q} (h : d ∈ e.iterColParts) {c : Col}
    (hc : c ∈ d.iterColumns ops) : c ∈ e.iterColumns ops := by
  rw [iterColumns_eq, List.mem_append, List.mem_flatMap]
  exact .inr ⟨_, h, hc⟩

/-- **C82 (partial).** In an expression without CASE, window functions and arithmetic over more than two operands,
`columns()` reports exactly the mentioned columns. (Missing: CASE results, PARTITION BY columns and longer arithmetic
are not reported, see `C82_columns_violated`.) -/
theorem C82_columns_partial (ops : QOps Q) (e : Expr Q) (hr : Regular e) (c : Col) :
    c ∈ e.columns ops ↔ MentionsCol ops c e := by
  refine ⟨C82_columns_sound ops e c, ?_⟩
  rintro ⟨s, hs, ho⟩
  induction hs with
  | refl =>
    rw [columns_eq, Finset.mem_union]
    rcases ho with rfl | ⟨q, rfl, hq⟩ <;> simp_all [ownColumns]
  | step hm h ih =>
    exact columns_mono ops (colParts_regular _ (hr _ (.refl _)) _ hm) (ih (hr.sub (.of_mem hm)))

/-- **C82 (partial).** The same for `itercolumns()`. Here longer arithmetic is handled, so only CASE and window
functions have to be excluded (see `C82_columns_violated`). -/
theorem C82_itercolumns_partial (ops : QOps Q) (hq : ∀ q c, c ∈ ops.iterCols q ↔ c ∈ ops.columns q) (e : Expr Q)
    (hr : ∀ s, Sub s e → (match s with | .case .. => False | .window .. => False | _ => True)) (c : Col) :
    c ∈ e.iterColumns ops ↔ MentionsCol ops c e := by
  refine ⟨C82_itercolumns_sound ops (fun q c => (hq q c).1) e c, ?_⟩
  rintro ⟨s, hs, ho⟩
  induction hs with
  | refl =>
    rw [iterColumns_eq, List.mem_append]
    rcases ho with rfl | ⟨q, rfl, h⟩ <;> simp_all [ownIterCols]
  | @step c' e' hm h ih =>
    have hin : c' ∈ e'.iterColParts := by
      have hn := hr e' (.refl _)
      cases e' with
      | case | window => exact hn.elim
      | _ => simpa [iterColParts, subs] using hm
    exact iterColumns_mono ops hin (ih (fun t ht => hr t (ht.trans (.of_mem hm))))

theorem tabs_of_pred (ops : QOps Q) (p : Expr Q) (hp : p.isPred = true) (t : Tab) :
    t ∈ p.tables ops ↔ ∃ d ∈ p.iterExpressions, t ∈ d.tables ops := by
  rw [tables_eq, Finset.mem_union, mem_unionAll]
  cases p <;> simp [isPred, isBase, isCompound] at hp <;> simp [ownTables, tabParts]

/-- The children of a compound predicate contribute their tables. -/
theorem tables_compound (ops : QOps Q) (op : CompOp) (cs : List (Expr Q)) (h : ∀ c ∈ cs, c.isPred = true) (t : Tab) :
    t ∈ (Expr.compound op cs).tables ops ↔ ∃ c ∈ cs, t ∈ c.tables ops := by
  rw [tabs_of_pred ops _ rfl]
  simp only [iterExpressions, List.mem_flatMap]
  constructor
  · rintro ⟨d, ⟨c, hc, hd⟩, ht⟩
    exact ⟨c, hc, (tabs_of_pred ops c (h c hc) t).2 ⟨d, hd, ht⟩⟩
  · rintro ⟨c, hc, ht⟩
    obtain ⟨d, hd, ht⟩ := (tabs_of_pred ops c (h c hc) t).1 ht
    exact ⟨d, ⟨c, hc, hd⟩, ht⟩

theorem tables_sub_regular (ops : QOps Q) (e c : Expr Q) (hr : regularNode e = true) (ht : typedNode e = true) (hc : c ∈ e.subs) (t : Tab)
    (h : t ∈ c.tables ops) : t ∈ e.tables ops := by
  cases e with
  | case | window => simp [regularNode] at hr
  | compound op cs => exact (tables_compound ops op cs (by simpa [typedNode] using ht) t).2 ⟨c, hc, h⟩
  | math op a bs =>
    refine tables_mono ops (d := c) ?_ h
    match bs, hr with
    | [], _ => exact hc
    | [b], _ => exact hc
  | static | star | col | subq => simp [subs] at hc
  | _ => exact tables_mono ops (d := c) (by simpa [tabParts, subs, iterExpressions] using hc) h

/-- **C82 (partial).** In such an expression `tables()` reports exactly the mentioned tables. -/
theorem C82_tables_partial (ops : QOps Q) (e : Expr Q) (hr : Regular e) (ht : Typed e) (t : Tab) :
    t ∈ e.tables ops ↔ MentionsTab ops t e := by
  refine ⟨C82_tables_sound ops e t, ?_⟩
  rintro ⟨s, hs, ho⟩
  induction hs with
  | refl =>
    rw [tables_eq, Finset.mem_union]
    rcases ho with rfl | ⟨c, rfl, hc⟩ | ⟨q, rfl, hq⟩ <;> simp_all [ownTables, tabSet]
  | @step c' e' hm h ih =>
    exact tables_sub_regular ops e' c' (hr _ (.refl _)) (ht _ (.refl _)) hm t
      (ih (hr.sub (.of_mem hm)) (ht.sub (.of_mem hm)))

/-- A column of table 1 and one of table 2. -/
def cx : Col := ⟨some 1, 10⟩
def cy : Col := ⟨some 2, 20⟩
/-- Subqueries that mention nothing. -/
def noOps : QOps Unit := ⟨fun _ => ∅, fun _ => ∅, fun _ => [], fun _ => ∅⟩

/-- The hypotheses are met: `CAST(r.x + 1 AS int) = s.y OR COUNT(*) FILTER (WHERE r.x = 1) = 1`. -/
def sampleOr : Expr Unit :=
  .compound .or [.binary .eq (.cast (.math .add (.col cx) [.static (.num 1)]) "int" [] false) (.col cy),
    .binary .eq (.func "COUNT" [.star none] false (some (.binary .eq (.col cx) (.static (.num 1))))) (.static (.num 1))]

example : sampleOr.columns noOps = {cx, cy} ∧ sampleOr.tables noOps = {1, 2} := by decide +kernel

example : Regular sampleOr ∧ Typed sampleOr :=
  ⟨(everywhere_iff _ _).1 (by decide +kernel), (everywhere_iff _ _).1 (by decide +kernel)⟩

/-- **C82 is violated.** The result of a CASE branch, a PARTITION BY column and the third operand of an arithmetic
expression occur in the expression, but `columns()` and `tables()` do not report them. -/
theorem C82_columns_violated :
    (MentionsCol noOps cx (.case [.binary .eq (.col cy) (.static (.num 1))] [.col cx] none none) ∧
      cx ∉ (Expr.case [.binary .eq (.col cy) (.static (.num 1))] [.col cx] none none : Expr Unit).columns noOps ∧
      1 ∉ (Expr.case [.binary .eq (.col cy) (.static (.num 1))] [.col cx] none none : Expr Unit).tables noOps) ∧
    (MentionsCol noOps cx (.window (.func "SUM" [.col cy] false none) [.col cx] [] [] none) ∧
      cx ∉ (Expr.window (.func "SUM" [.col cy] false none) [.col cx] [] [] none : Expr Unit).columns noOps) ∧
    (MentionsCol noOps cx (.math .add (.col cy) [.static (.num 1), .col cx]) ∧
      cx ∉ (Expr.math .add (.col cy) [.static (.num 1), .col cx] : Expr Unit).columns noOps ∧
      cx ∈ (Expr.math .add (.col cy) [.static (.num 1), .col cx] : Expr Unit).iterColumns noOps) := by
  refine ⟨⟨⟨.col cx, .of_mem (by simp [subs]), .inl rfl⟩, ?_, ?_⟩, ⟨⟨.col cx, .of_mem (by simp [subs]), .inl rfl⟩, ?_⟩,
    ⟨.col cx, .of_mem (by simp [subs]), .inl rfl⟩, ?_, ?_⟩
  all_goals decide +kernel

/-- **C82.** `tables()` contains the table of every column in `columns()`, provided subqueries do so. -/
theorem C82_tables_of_columns (ops : QOps Q) (hq : ∀ q c t, c ∈ ops.columns q → c.tab = some t → t ∈ ops.tables q)
    (e : Expr Q) (ht : Typed e) (c : Col) (t : Tab) (hc : c ∈ e.columns ops) (hct : c.tab = some t) :
    t ∈ e.tables ops := by
  induction e using sizeInd with
  | h e ih =>
    rw [columns_eq, Finset.mem_union, mem_unionAll] at hc
    obtain h | ⟨s, hs, hc⟩ := hc
    · rw [tables_eq, Finset.mem_union]
      refine .inl ?_
      cases e <;> simp [ownColumns] at h
      · subst h; simp [ownTables, hct, tabSet]
      · exact hq _ _ _ h hct
    · obtain ⟨d, hd, rfl⟩ := List.mem_map.1 hs
      have hsub := sub_colParts e d hd
      have := ih d (sizeOf_colParts e d hd) (ht.sub hsub) hc
      cases e with
      | compound op cs => exact (tables_compound ops op cs (by simpa [typedNode] using ht _ (.refl _)) t).2 ⟨d, hd, this⟩
      | static | star | col | subq => simp [colParts] at hd
      | math op a bs =>
        refine tables_mono ops (d := d) ?_ this
        match bs, hd with
        | [], hd => exact hd
        | [b], hd => exact hd
        | _ :: _ :: _, hd => exact hd
      | _ => exact tables_mono ops (d := d) (by simpa [tabParts, colParts, iterExpressions] using hd) this

/-! ### C83: ExpressionCollector -/

/-- **C83.** Everything an `ExpressionCollector` returns occurs in the expression and satisfies the matcher. -/
theorem C83_collector_sound (m : Expr Q → Bool) (k : Bool) (e s : Expr Q) (h : s ∈ e.collectMatches m k) :
    Sub s e ∧ m s = true := by
  induction e using sizeInd with
  | h e ih =>
    rw [collectMatches_eq] at h
    split at h
    · rename_i hm; simp at h hm; subst h; exact ⟨.refl _, hm.1⟩
    · rw [List.mem_append, List.mem_flatMap] at h
      obtain h | ⟨d, hd, h⟩ := h
      · split at h
        · rename_i hm; simp at h; subst h; exact ⟨.refl _, hm⟩
        · simp at h
      · obtain ⟨h1, h2⟩ := ih d (sizeOf_iterChildren e d hd) h
        exact ⟨h1.trans (sub_iterChildren e d hd), h2⟩

/-- Nothing at the root that the collector does not descend into: CASE, window functions, FILTER. -/
def collectableNode : Expr Q → Bool
  | .case .. => false
  | .window .. => false
  | .func _ _ _ f => f.isNone
  | _ => true

theorem children_collectable (e : Expr Q) (h : collectableNode e = true) : e.iterChildren = e.subs := by
  rw [iterChildren_eq]
  cases e <;> simp_all [grandParts, directParts, subs, collectableNode]

/-- **C83 (partial).** Without CASE, window functions and FILTER conditions, a collector that continues after a match
returns exactly the occurrences that satisfy the matcher. (Missing: see `C83_collector_violated`.) -/
theorem C83_collector_partial (m : Expr Q → Bool) (e s : Expr Q) (hc : ∀ t, Sub t e → collectableNode t = true) :
    s ∈ e.collectMatches m true ↔ Sub s e ∧ m s = true := by
  refine ⟨C83_collector_sound m true e s, ?_⟩
  rintro ⟨hs, hm⟩
  induction hs with
  | refl =>
    rw [collectMatches_eq]; simp [hm]
  | @step c' e' hmem h ih =>
    rw [collectMatches_eq]
    simp only [Bool.not_true, Bool.and_false, Bool.false_eq_true, if_false, List.mem_append, List.mem_flatMap]
    exact .inr ⟨c', by rw [children_collectable e' (hc _ (.refl _))]; exact hmem,
      ih (fun t ht => hc t (ht.trans (.of_mem hmem)))⟩

/-- **C83 (partial).** Without continuing after a match, the result contains, for every occurrence that satisfies the
matcher, a returned expression in which it occurs. -/
theorem C83_collector_outermost_partial (m : Expr Q → Bool) (e s : Expr Q) (hc : ∀ t, Sub t e → collectableNode t = true)
    (hs : Sub s e) (hm : m s = true) : ∃ r ∈ e.collectMatches m false, Sub s r := by
  induction hs with
  | refl => refine ⟨_, ?_, .refl _⟩; rw [collectMatches_eq]; simp [hm]
  | @step c' e' hmem h ih =>
    obtain ⟨r, hr, hsr⟩ := ih (fun t ht => hc t (ht.trans (.of_mem hmem)))
    by_cases he : m e' = true
    · exact ⟨e', by rw [collectMatches_eq]; simp [he], .step hmem h⟩
    · refine ⟨r, ?_, hsr⟩
      rw [collectMatches_eq]
      simp only [he, Bool.false_and, Bool.false_eq_true, if_false, List.mem_append, List.mem_flatMap]
      exact .inr ⟨c', by rw [children_collectable e' (hc _ (.refl _))]; exact hmem, hr⟩

/-- `First m s e`: `s` satisfies the matcher and can be reached from `e` without passing an expression that does. -/
inductive First (m : Expr Q → Bool) : Expr Q → Expr Q → Prop
  | here {s} : m s = true → First m s s
  | under {s c e} : m e = false → c ∈ e.subs → First m s c → First m s e

/-- **C83 (partial).** Without continuing after a match, the collector returns exactly the expressions that satisfy the matcher and are not part of another
expression that does on the way to them. -/
theorem C83_collector_first_partial (m : Expr Q → Bool) (e s : Expr Q) (hc : ∀ t, Sub t e → collectableNode t = true) :
    s ∈ e.collectMatches m false ↔ First m s e := by
  constructor
  · intro h
    induction e using sizeInd with
    | h e ih =>
      rw [collectMatches_eq] at h
      by_cases hm : m e = true
      · simp only [hm, Bool.not_false, Bool.and_true, if_true, List.mem_singleton] at h
        subst h; exact .here hm
      · simp only [hm, Bool.false_and, Bool.false_eq_true, if_false, List.nil_append, List.mem_flatMap] at h
        obtain ⟨d, hd, h⟩ := h
        have hd' : d ∈ e.subs := by rw [← children_collectable e (hc _ (.refl _))]; exact hd
        exact .under (by simpa using hm) hd' (ih d (sizeOf_iterChildren e d hd) (fun t ht => hc t (ht.trans (.of_mem hd'))) h)
  · intro h
    induction h with
    | here hm => rw [collectMatches_eq]; simp [hm]
    | @under c e hm hmem h ih =>
      rw [collectMatches_eq]
      simp only [hm, Bool.false_and, Bool.false_eq_true, if_false, List.nil_append, List.mem_flatMap]
      exact ⟨c, by rw [children_collectable e (hc _ (.refl _))]; exact hmem, ih (fun t ht => hc t (ht.trans (.of_mem hmem)))⟩

/-- A matcher for columns. -/
def isCol : Expr Unit → Bool
  | .col _ => true
  | _ => false

example : (∀ t : Expr Unit, Sub t (.binary .eq (.col cx) (.math .add (.col cy) [.static (.num 1)])) → collectableNode t = true) ∧
    (Expr.binary .eq (.col cx) (.math .add (.col cy) [.static (.num 1)]) : Expr Unit).collectMatches isCol true =
      [.col cx, .col cy] :=
  ⟨(everywhere_iff _ _).1 (by decide +kernel), by decide +kernel⟩

/-- **C83 is violated.** A column in the FILTER condition of an aggregate, and one in the result of a CASE branch, are
not found by a collector for columns. -/
theorem C83_collector_violated :
    (Sub (.col cx) (.func "COUNT" [.star none] false (some (.unary (.col cx) (some .isNot))) : Expr Unit) ∧
      (Expr.func "COUNT" [.star none] false (some (.unary (.col cx) (some .isNot))) : Expr Unit).collectMatches isCol true
        = []) ∧
    (Sub (.col cx) (.case [.binary .eq (.static (.num 1)) (.static (.num 1))] [.col cx] none none : Expr Unit) ∧
      (Expr.case [.binary .eq (.static (.num 1)) (.static (.num 1))] [.col cx] none none : Expr Unit).collectMatches
        isCol true = []) := by
  refine ⟨⟨.step (c := .unary (.col cx) (some .isNot)) (by simp [subs]) (.of_mem (by simp [subs])), ?_⟩,
    .of_mem (by simp [subs]), ?_⟩
  all_goals decide +kernel

end PB.ExprProps
