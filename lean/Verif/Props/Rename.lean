import Verif.Model.Transform
import Verif.Props.Pred

set_option linter.unusedSimpArgs false
set_option linter.unusedVariables false
set_option linter.unusedSectionVars false
set_option linter.unnecessarySimpa false

/-! Property C41: renaming columns in expressions and predicates. -/

namespace PB.RenameProps
open PB PB.Qal PB.Qal.Expr PB.ExprProps PB.PredProps PB.Transform

variable {Q : Type}

/-! ### Specification: simultaneous substitution of columns, evaluation -/

mutual
/-- Replaces every column `c` by `σ c` and every subquery `q` by `μ q`, and nothing else. -/
def mapCols (σ : Col → Col) (μ : Q → Q) : Expr Q → Expr Q
  | .static v => .static v
  | .star t => .star t
  | .col c => .col (σ c)
  | .cast e ty ps arr => .cast (mapCols σ μ e) ty (mapColsL σ μ ps) arr
  | .math op a bs => .math op (mapCols σ μ a) (mapColsL σ μ bs)
  | .arrGet a i l u => .arrGet (mapCols σ μ a) (mapColsO σ μ i) (mapColsO σ μ l) (mapColsO σ μ u)
  | .func n args d f => .func n (mapColsL σ μ args) d (mapColsO σ μ f)
  | .subq q => .subq (μ q)
  | .window fn p o ds f => .window (mapCols σ μ fn) (mapColsL σ μ p) (mapColsL σ μ o) ds (mapColsO σ μ f)
  | .case w t s e => .case (mapColsL σ μ w) (mapColsL σ μ t) (mapColsO σ μ s) (mapColsO σ μ e)
  | .quant q e => .quant q (mapCols σ μ e)
  | .array es => .array (mapColsL σ μ es)
  | .binary op a b => .binary op (mapCols σ μ a) (mapCols σ μ b)
  | .between e l u => .between (mapCols σ μ e) (mapCols σ μ l) (mapCols σ μ u)
  | .inP e vs => .inP (mapCols σ μ e) (mapColsL σ μ vs)
  | .unary e op => .unary (mapCols σ μ e) op
  | .compound op cs => .compound op (mapColsL σ μ cs)
def mapColsL (σ : Col → Col) (μ : Q → Q) : List (Expr Q) → List (Expr Q)
  | [] => []
  | e :: es => mapCols σ μ e :: mapColsL σ μ es
def mapColsO (σ : Col → Col) (μ : Q → Q) : Option (Expr Q) → Option (Expr Q)
  | none => none
  | some e => some (mapCols σ μ e)
end

/-- The renaming a dictionary stands for: columns without entry are kept. -/
def renamed (ρ : Dict Col Col) (c : Col) : Col := (Dict.get? ρ c).getD c

/-- An expression with its direct parts blanked out: which operation it is, and how many parts it has. -/
def blank (e : Expr Q) : Expr Q :=
  let b : Expr Q → Expr Q := fun _ => .static .null
  match e with
  | .static v => .static v
  | .star t => .star t
  | .col c => .col c
  | .cast e ty ps arr => .cast (b e) ty (ps.map b) arr
  | .math op a bs => .math op (b a) (bs.map b)
  | .arrGet a i l u => .arrGet (b a) (i.map b) (l.map b) (u.map b)
  | .func n args d f => .func n (args.map b) d (f.map b)
  | .subq q => .subq q
  | .window fn p o ds f => .window (b fn) (p.map b) (o.map b) ds (f.map b)
  | .case w t s e => .case (w.map b) (t.map b) (s.map b) (e.map b)
  | .quant q e => .quant q (b e)
  | .array es => .array (es.map b)
  | .binary op a c => .binary op (b a) (b c)
  | .between e l u => .between (b e) (b l) (b u)
  | .inP e vs => .inP (b e) (vs.map b)
  | .unary e op => .unary (b e) op
  | .compound op cs => .compound op (cs.map b)

/-- Evaluation of an expression on a row: columns are looked up, subqueries are evaluated by `S` in the context of the
row, every other expression combines the values of its parts by the (arbitrary) meaning `A` of its operation. -/
def eval {V : Type} (A : Expr Q → List V → V) (S : Q → (Col → V) → V) (row : Col → V) : Expr Q → V
  | .col c => row c
  | .subq q => S q row
  | e => A (blank e) (e.subs.attach.map fun ⟨c, _⟩ => eval A S row c)
termination_by e => sizeOf e
decreasing_by exact sizeOf_subs ‹_›

/-- Nodes the renaming handles: no FILTER on functions, at most two operands of an arithmetic operation, only
predicates as conditions of CASE, as FILTER of window functions and as parts of AND/OR/NOT. -/
def renNode : Expr Q → Bool
  | .func _ _ _ f => f.isNone
  | .math _ _ bs => decide (bs.length ≤ 1)
  | .window _ _ _ _ f => f.toList.all isPred
  | .case w _ _ _ => w.all isPred
  | .compound _ cs => cs.all isPred
  | _ => true

/-! ### Lemmas -/

theorem mapColsL_eq (σ : Col → Col) (μ : Q → Q) (l : List (Expr Q)) : mapColsL σ μ l = l.map (mapCols σ μ) := by
  induction l with
  | nil => simp [mapColsL]
  | cons a l ih => simp [mapColsL, ih]

theorem mapColsO_eq (σ : Col → Col) (μ : Q → Q) (o : Option (Expr Q)) : mapColsO σ μ o = o.map (mapCols σ μ) := by
  cases o <;> simp [mapColsO]

/-- The parts of the renamed expression are the renamed parts. -/
theorem subs_mapCols (σ : Col → Col) (μ : Q → Q) (e : Expr Q) : (mapCols σ μ e).subs = e.subs.map (mapCols σ μ) := by
  have h : ∀ o : Option (Expr Q), (o.map (mapCols σ μ)).toList = o.toList.map (mapCols σ μ) := by
    intro o; cases o <;> simp
  cases e <;> simp [mapCols, subs, mapColsL_eq, mapColsO_eq, h]

theorem blank_mapCols (σ : Col → Col) (μ : Q → Q) (e : Expr Q) (hc : ∀ c, e ≠ .col c) (hq : ∀ q, e ≠ .subq q) :
    blank (mapCols σ μ e) = blank e := by
  cases e <;> simp [mapCols, blank, mapColsL_eq, mapColsO_eq, Function.comp_def] at hc hq ⊢

theorem eval_other {V : Type} (A : Expr Q → List V → V) (S : Q → (Col → V) → V) (row : Col → V) (e : Expr Q)
    (hc : ∀ c, e ≠ .col c) (hq : ∀ q, e ≠ .subq q) :
    eval A S row e = A (blank e) (e.subs.map (eval A S row)) := by
  cases e <;> first | (exfalso; exact hc _ rfl) | (exfalso; exact hq _ rfl) | (rw [eval] <;> simp)

theorem renameL_spec (ren : Q → Option Q) (ρ : Dict Col Col) (g : Expr Q → Expr Q) (l : List (Expr Q))
    (h : ∀ e ∈ l, renameE ren ρ e = some (g e)) : renameL ren ρ l = some (l.map g) := by
  induction l with
  | nil => simp [renameL]
  | cons a l ih => rw [renameL, h a (by simp), ih fun e he => h e (by simp [he])]; rfl

theorem renameO_spec (ren : Q → Option Q) (ρ : Dict Col Col) (g : Expr Q → Expr Q) (o : Option (Expr Q))
    (h : ∀ e ∈ o.toList, renameE ren ρ e = some (g e)) : renameO ren ρ o = some (o.map g) := by
  cases o with
  | none => simp [renameO]
  | some a => rw [renameO, h a (by simp)]; rfl

/-- **C41 (partial).** On expressions of supported form renaming is the simultaneous substitution of columns.
Missing: functions with FILTER (which is dropped), arithmetic with three or more operands and CASE with a comparison
value (which are rejected), see `C41_rename_violated`. -/
theorem C41_rename_partial (ren : Q → Option Q) (ρ : Dict Col Col) (μ : Q → Q) (e : Expr Q)
    (hb : Built e) (hn : ∀ s, Sub s e → renNode s = true) (hq : ∀ q, Sub (.subq q) e → ren q = some (μ q)) :
    renameE ren ρ e = some (mapCols (renamed ρ) μ e) := by
  induction e using Expr.ind with
  | h e ih =>
    have ih' : ∀ c ∈ e.subs, renameE ren ρ c = some (mapCols (renamed ρ) μ c) := fun c hc =>
      ih c hc (hb.sub (.of_mem hc)) (fun s hs => hn s (hs.trans (.of_mem hc))) fun q h => hq q (h.trans (.of_mem hc))
    have h0 := hn e (.refl _)
    cases e with
    | static | star => simp [renameE, mapCols]
    | col c => simp [renameE, mapCols, renamed]
    | subq q => simp [renameE, mapCols, hq q (.refl _)]
    | cast e ty ps arr =>
      rw [renameE, ih' e (by simp [subs]), renameL_spec ren ρ _ ps fun c hc => ih' c (by simp [subs, hc])]
      simp [mapCols, mapColsL_eq]
    | math op a bs =>
      simp only [renNode, decide_eq_true_eq] at h0
      rw [renameE, ih' a (by simp [subs]), renameL_spec ren ρ _ bs fun c hc => ih' c (by simp [subs, hc])]
      simp [mapCols, mapColsL_eq, h0]
    | arrGet a i l u =>
      rw [renameE, ih' a (by simp [subs]),
        renameO_spec ren ρ _ i fun c hc => ih' c (by simp only [Option.mem_toList] at hc; simp [subs, hc]),
        renameO_spec ren ρ _ l fun c hc => ih' c (by simp only [Option.mem_toList] at hc; simp [subs, hc]),
        renameO_spec ren ρ _ u fun c hc => ih' c (by simp only [Option.mem_toList] at hc; simp [subs, hc])]
      simp [mapCols, mapColsO_eq]
    | func n args d f =>
      simp only [renNode, Option.isNone_iff_eq_none] at h0
      subst h0
      rw [renameE, renameL_spec ren ρ _ args fun c hc => ih' c (by simp [subs, hc])]
      simp [mapCols, mapColsL_eq, mapColsO]
    | window fn p o ds f =>
      simp only [renNode] at h0
      rw [renameE, ih' fn (by simp [subs]), renameL_spec ren ρ _ p fun c hc => ih' c (by simp [subs, hc]),
        renameL_spec ren ρ _ o fun c hc => ih' c (by simp [subs, hc]), h0,
        renameO_spec ren ρ _ f fun c hc => ih' c (by simp only [Option.mem_toList] at hc; simp [subs, hc])]
      simp [mapCols, mapColsL_eq, mapColsO_eq]
    | case w t s e =>
      simp only [renNode] at h0
      rw [renameE, h0, renameL_spec ren ρ _ w fun c hc => ih' c (by simp [subs, hc]),
        renameL_spec ren ρ _ t fun c hc => ih' c (by simp [subs, hc]),
        renameO_spec ren ρ _ s fun c hc => ih' c (by simp only [Option.mem_toList] at hc; simp [subs, hc]),
        renameO_spec ren ρ _ e fun c hc => ih' c (by simp only [Option.mem_toList] at hc; simp [subs, hc])]
      simp [mapCols, mapColsL_eq, mapColsO_eq]
    | quant q e => rw [renameE, ih' e (by simp [subs])]; simp [mapCols]
    | array es =>
      rw [renameE, renameL_spec ren ρ _ es fun c hc => ih' c (by simp [subs, hc])]
      simp [mapCols, mapColsL_eq]
    | binary op a b => rw [renameE, ih' a (by simp [subs]), ih' b (by simp [subs])]; simp [mapCols]
    | between e l u =>
      rw [renameE, ih' e (by simp [subs]), ih' l (by simp [subs]), ih' u (by simp [subs])]; simp [mapCols]
    | inP e vs =>
      rw [renameE, ih' e (by simp [subs]), renameL_spec ren ρ _ vs fun c hc => ih' c (by simp [subs, hc])]
      simp [mapCols, mapColsL_eq]
    | unary e op => rw [renameE, ih' e (by simp [subs])]; simp [mapCols]
    | compound op cs =>
      simp only [renNode] at h0
      rw [renameE, h0, renameL_spec ren ρ _ cs fun c hc => ih' c (by simp [subs, hc])]
      have hbn := hb _ (.refl _)
      simp only [if_true, Option.bind_some, mapCols, mapColsL_eq]
      match op, cs with
      | .not, [] => simp [builtNode] at hbn
      | .and, [] => simp [builtNode] at hbn
      | .or, [] => simp [builtNode] at hbn
      | .not, [_] => rfl
      | .not, _ :: _ :: _ => simp [builtNode] at hbn
      | .and, [_] => simp [builtNode] at hbn
      | .or, [_] => simp [builtNode] at hbn
      | .and, _ :: _ :: _ => rfl
      | .or, _ :: _ :: _ => rfl

theorem mapCols_id (e : Expr Q) : mapCols id id e = e := by
  induction e using Expr.ind with
  | h e ih =>
    have hl : ∀ l : List (Expr Q), (∀ c ∈ l, mapCols id id c = c) → l.map (mapCols id id) = l := by
      intro l h; rw [List.map_congr_left h]; simp
    have ho : ∀ o : Option (Expr Q), (∀ c ∈ o, mapCols id id c = c) → o.map (mapCols id id) = o := by
      intro o h; cases o with
      | none => rfl
      | some a => rw [Option.map_some, h a rfl]
    cases e <;> simp only [subs, List.mem_cons, List.mem_append, List.not_mem_nil, or_false, Option.mem_toList] at ih <;>
      simp only [mapCols, mapColsL_eq, mapColsO_eq, id_eq] <;> congr 1 <;>
      first
      | (exact ih _ (by simp))
      | (exact hl _ fun c hc => ih c (by simp [hc]))
      | (exact ho _ fun c hc => ih c (by simp at hc; simp [hc]))

/-- **C41 (partial).** Renaming no column, or each column to itself, returns the expression itself. -/
theorem C41_identity_partial (ren : Q → Option Q) (ρ : Dict Col Col) (e : Expr Q) (hb : Built e)
    (hn : ∀ s, Sub s e → renNode s = true) (hq : ∀ q, Sub (.subq q) e → ren q = some q)
    (hid : ∀ c d, Dict.get? ρ c = some d → d = c) : renameE ren ρ e = some e := by
  rw [C41_rename_partial ren ρ id e hb hn hq]
  have : renamed ρ = id := by
    funext c
    unfold renamed
    cases h : Dict.get? ρ c with
    | none => rfl
    | some d => simp [hid c d h]
  rw [this, mapCols_id]

/-- **C41 (partial).** The columns of the renamed expression are exactly the renamed columns of the original one, all
replaced simultaneously: swapping two columns works. -/
theorem C41_columns_partial (ren : Q → Option Q) (ρ : Dict Col Col) (μ : Q → Q) (e : Expr Q)
    (hb : Built e) (hn : ∀ s, Sub s e → renNode s = true) (hq : ∀ q, Sub (.subq q) e → ren q = some (μ q)) :
    ∃ f, renameE ren ρ e = some f ∧
      ∀ d, HasCol d f ↔ ∃ c, HasCol c e ∧ (Dict.get? ρ c = some d ∨ (Dict.get? ρ c = none ∧ d = c)) := by
  refine ⟨_, C41_rename_partial ren ρ μ e hb hn hq, ?_⟩
  clear hb hn hq
  intro d
  have hr : ∀ c, (Dict.get? ρ c = some d ∨ (Dict.get? ρ c = none ∧ d = c)) ↔ renamed ρ c = d := by
    intro c
    unfold renamed
    cases h : Dict.get? ρ c with
    | none => simp [eq_comm]
    | some x => simp
  simp only [hr]
  induction e using Expr.ind with
  | h e ih =>
    by_cases hc : ∃ c, e = .col c
    · obtain ⟨c, rfl⟩ := hc
      have hcol : ∀ c x : Col, HasCol x (.col c : Expr Q) ↔ x = c := by
        intro c x
        constructor
        · intro h
          cases h with
          | refl => rfl
          | step hm _ => simp [subs] at hm
        · rintro rfl; exact .refl _
      simp only [mapCols, hcol]
      constructor
      · rintro rfl; exact ⟨c, rfl, rfl⟩
      · rintro ⟨x, rfl, rfl⟩; rfl
    · have hc1 : ∀ c, e ≠ .col c := by simpa using hc
      have hc2 : ∀ c, mapCols (renamed ρ) μ e ≠ .col c := by
        intro c h
        cases e <;> simp [mapCols] at h
        exact hc1 _ rfl
      rw [hasCol_subs hc2, subs_mapCols]
      simp only [hasCol_subs hc1, List.mem_map, exists_exists_and_eq_and]
      constructor
      · rintro ⟨s, hs, h⟩
        obtain ⟨c, h1, h2⟩ := (ih s hs).1 h
        exact ⟨c, ⟨s, hs, h1⟩, h2⟩
      · rintro ⟨c, ⟨s, hs, h1⟩, h2⟩
        exact ⟨s, hs, (ih s hs).2 ⟨c, h1, h2⟩⟩

/-- **C41 (partial).** Evaluating the renamed expression on a row equals evaluating the original one on the row in
which each column has the value of the column it is renamed to. The meaning `A` of the operations and `S` of subqueries
is arbitrary; `S` must treat renamed subqueries accordingly. -/
theorem C41_eval_partial {V : Type} (A : Expr Q → List V → V) (S : Q → (Col → V) → V) (ren : Q → Option Q)
    (ρ : Dict Col Col) (μ : Q → Q) (e : Expr Q)
    (hb : Built e) (hn : ∀ s, Sub s e → renNode s = true) (hq : ∀ q, Sub (.subq q) e → ren q = some (μ q))
    (hS : ∀ q, Sub (.subq q) e → ∀ row, S (μ q) row = S q fun c => row (renamed ρ c)) :
    ∃ f, renameE ren ρ e = some f ∧ ∀ row, eval A S row f = eval A S (fun c => row (renamed ρ c)) e := by
  refine ⟨_, C41_rename_partial ren ρ μ e hb hn hq, ?_⟩
  clear hb hn hq
  intro row
  induction e using Expr.ind with
  | h e ih =>
    by_cases hc : ∃ c, e = .col c
    · obtain ⟨c, rfl⟩ := hc; simp [mapCols, eval]
    · by_cases hq : ∃ q, e = .subq q
      · obtain ⟨q, rfl⟩ := hq; simp [mapCols, eval, hS q (.refl _)]
      · have hc1 : ∀ c, e ≠ .col c := by simpa using hc
        have hq1 : ∀ q, e ≠ .subq q := by simpa using hq
        rw [eval_other A S _ e hc1 hq1, eval_other A S _ (mapCols (renamed ρ) μ e), blank_mapCols _ _ e hc1 hq1,
          subs_mapCols, List.map_map]
        · congr 1
          exact List.map_congr_left fun c hc => ih c hc fun q h => hS q (h.trans (.of_mem hc))
        · intro c h; cases e <;> simp [mapCols] at h; exact hc1 _ rfl
        · intro c h; cases e <;> simp [mapCols] at h; exact hq1 _ rfl

/-- `t1.x = t2.y AND NOT t1.x < t2.y` with the columns swapped. -/
def swap1 : Expr Unit := .compound .and [jXY, .compound .not [jLt], .binary .eq (.func "f" [.col cx] false none) (.static (.num 1))]

example : Built swap1 ∧ (∀ s, Sub s swap1 → renNode s = true) ∧ (∀ q, ¬ Sub (.subq q) swap1) ∧
    renameE some [(cx, cy), (cy, cx)] swap1 = some (.compound .and [.binary .eq (.col cy) (.col cx),
      .compound .not [.binary .lt (.col cy) (.col cx)], .binary .eq (.func "f" [.col cy] false none) (.static (.num 1))]) := by
  refine ⟨(everywhere_iff _ _).1 (by decide +kernel), (everywhere_iff _ _).1 (by decide +kernel), ?_, by decide +kernel⟩
  intro q hq
  have h := (everywhere_iff (fun e => match e with | .subq _ => false | _ => true) swap1).1 (by decide +kernel) _ hq
  simp at h

/-- **C41 is violated.** Renaming drops the FILTER of a function, even if no column is renamed; and it fails for
arithmetic with three operands and for CASE with a comparison value. -/
theorem C41_rename_violated :
    (renameE some [] (.func "count" [.col cx] false (some jXY)) = some (.func "count" [.col cx] false none : Expr Unit)) ∧
    (renameE some [] (.math .add (.col cx) [.col cy, .col cx]) = (none : Option (Expr Unit))) ∧
    (renameE some [] (.case [.static (.num 1)] [.col cx] (some (.col cy)) none) = (none : Option (Expr Unit))) := by
  decide +kernel

end PB.RenameProps
