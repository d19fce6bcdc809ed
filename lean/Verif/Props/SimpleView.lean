import Verif.Model.SimpleView
import Verif.Props.Pred
import Verif.Props.EqHash

/-! Properties C124-C128: the simplified views of predicates and the construction of predicates from plain values. -/

set_option linter.unusedSimpArgs false
set_option linter.unusedVariables false
set_option linter.unusedSectionVars false
set_option linter.unnecessarySimpa false
set_option linter.unnecessarySeqFocus false

namespace PB.SimpleViewProps
open PB.Qal PB.Qal.Expr PB.EqHash PB.SimpleView PB.PredProps PB.ExprProps

variable {Q : Type}

/-! ### Specification -/

/-- The expression is a static value or a column, possibly below casts. -/
inductive Plain : Expr Q → Obj → Prop where
  | static (v : Val) : Plain (.static v) (.val v)
  | col (c : Col) : Plain (.col c) (.col c)
  | cast {e : Expr Q} {o : Obj} (ty : String) (ps : List (Expr Q)) (arr : Bool) : Plain e o → Plain (.cast e ty ps arr) o

/-- The predicate has the form `column op value`, `value op column`, `column BETWEEN lower AND upper` or
`column IN (values)`, up to casts. -/
inductive FilterForm : Expr Q → Col → LogOp → FValue → Prop where
  | left {a b : Expr Q} {c : Col} {o : Obj} (op : LogOp) : Plain a (.col c) → Plain b o →
      FilterForm (.binary op a b) c op (.one o)
  | right {a b : Expr Q} {c : Col} {v : Val} (op : LogOp) : Plain a (.val v) → Plain b (.col c) →
      FilterForm (.binary op a b) c op (.one (.val v))
  | between {e l u : Expr Q} {c : Col} {lo hi : Obj} : Plain e (.col c) → Plain l lo → Plain u hi →
      FilterForm (.between e l u) c .between (.pair lo hi)
  | inP {e : Expr Q} {vs : List (Expr Q)} {c : Col} {os : List Obj} : Plain e (.col c) → List.Forall₂ Plain vs os →
      FilterForm (.inP e vs) c .inOp (.many os)

/-- The predicate compares only static values: no side of it is a column. -/
inductive NoColumn : Expr Q → Prop where
  | binary {a b : Expr Q} {v w : Val} (op : LogOp) : Plain a (.val v) → Plain b (.val w) → NoColumn (.binary op a b)
  | between {e l u : Expr Q} {v : Val} {lo hi : Obj} : Plain e (.val v) → Plain l lo → Plain u hi →
      NoColumn (.between e l u)
  | inP {e : Expr Q} {vs : List (Expr Q)} {v : Val} {os : List Obj} : Plain e (.val v) → List.Forall₂ Plain vs os →
      NoColumn (.inP e vs)

/-! ### Lemmas -/

theorem unwrap_iff (e : Expr Q) (o : Obj) : unwrap e = some o ↔ Plain e o := by
  constructor
  · intro h
    induction e using Expr.ind with
    | h e ih =>
      cases e with
      | static v => simp [unwrap] at h; subst h; exact .static v
      | col c => simp [unwrap] at h; subst h; exact .col c
      | cast e ty ps arr => exact .cast ty ps arr (ih e (by simp [subs]) (by simpa [unwrap] using h))
      | _ => simp [unwrap] at h
  · intro h
    induction h with
    | static | col => rfl
    | cast _ _ _ _ ih => simpa [unwrap] using ih

theorem unwrapAll_iff (es : List (Expr Q)) (os : List Obj) : unwrapAll es = some os ↔ List.Forall₂ Plain es os := by
  induction es generalizing os with
  | nil => simp [unwrapAll, eq_comm]
  | cons e es ih =>
    simp only [unwrapAll, Option.bind_eq_some_iff, Option.map_eq_some_iff, List.forall₂_cons_left_iff]
    constructor
    · rintro ⟨o, ho, os', hos, rfl⟩
      exact ⟨o, os', (unwrap_iff e o).1 ho, (ih os').1 hos, rfl⟩
    · rintro ⟨o, os', ho, hos, rfl⟩
      exact ⟨o, (unwrap_iff e o).2 ho, os', (ih os').2 hos, rfl⟩

theorem assertCol_ok (o : Obj) (op : LogOp) (v : FValue) (t : Col × LogOp × FValue) :
    assertCol o op v = .ok t ↔ ∃ c, o = .col c ∧ t = (c, op, v) := by
  cases o <;> simp [assertCol, eq_comm]

theorem attempt_ok (p : Expr Q) (c : Col) (op : LogOp) (v : FValue) :
    attemptFilter p = .ok (c, op, v) ↔ p.isJoin = false ∧ FilterForm p c op v := by
  by_cases hj : p.isJoin = true
  · simp [attemptFilter, isFilter, hj]
  have hj' : p.isJoin = false := by simpa using hj
  have hf : p.isFilter = true := by simp [isFilter, hj']
  cases p with
  | binary op' a b =>
    simp only [attemptFilter, hf, isBase, Bool.not_true, Bool.or_self, Bool.false_eq_true, if_false, hj', true_and]
    constructor
    · intro h
      cases ha : unwrap a with
      | none => simp [unwrapBinary, ha] at h
      | some x =>
        cases hb : unwrap b with
        | none => simp [unwrapBinary, ha, hb] at h
        | some y =>
          rw [unwrap_iff] at ha hb
          have h1 : unwrap a = some x := (unwrap_iff _ _).2 ha
          have h2 : unwrap b = some y := (unwrap_iff _ _).2 hb
          cases x with
          | col cx =>
            simp [unwrapBinary, h1, h2, orderSides, assertCol] at h
            obtain ⟨rfl, rfl, rfl⟩ := h
            exact .left _ ha hb
          | val vx =>
            cases y with
            | col cy =>
              simp [unwrapBinary, h1, h2, orderSides, assertCol] at h
              obtain ⟨rfl, rfl, rfl⟩ := h
              exact .right _ ha hb
            | val vy => simp [unwrapBinary, h1, h2, orderSides, assertCol] at h
    · intro h
      cases h with
      | left _ ha hb => simp [(unwrap_iff _ _).2 ha, (unwrap_iff _ _).2 hb, unwrapBinary, orderSides, assertCol]
      | right _ ha hb => simp [(unwrap_iff _ _).2 ha, (unwrap_iff _ _).2 hb, unwrapBinary, orderSides, assertCol]
  | between e l u =>
    simp only [attemptFilter, hf, isBase, Bool.not_true, Bool.or_self, Bool.false_eq_true, if_false, hj', true_and]
    constructor
    · intro h
      cases he : unwrap e with
      | none => simp [unwrapBetween, he] at h
      | some x =>
        cases hl : unwrap l with
        | none => simp [unwrapBetween, he, hl] at h
        | some y =>
          cases hu : unwrap u with
          | none => simp [unwrapBetween, he, hl, hu] at h
          | some z =>
            cases x with
            | val vx => simp [unwrapBetween, he, hl, hu, assertCol] at h
            | col cx =>
              simp [unwrapBetween, he, hl, hu, assertCol] at h
              obtain ⟨rfl, rfl, rfl⟩ := h
              exact .between ((unwrap_iff _ _).1 he) ((unwrap_iff _ _).1 hl) ((unwrap_iff _ _).1 hu)
    · intro h
      cases h with
      | between he hl hu =>
        simp [(unwrap_iff _ _).2 he, (unwrap_iff _ _).2 hl, (unwrap_iff _ _).2 hu, unwrapBetween, assertCol]
  | inP e vs =>
    simp only [attemptFilter, hf, isBase, Bool.not_true, Bool.or_self, Bool.false_eq_true, if_false, hj', true_and]
    constructor
    · intro h
      cases he : unwrap e with
      | none => simp [unwrapIn, he] at h
      | some x =>
        cases hv : unwrapAll vs with
        | none => simp [unwrapIn, he, hv] at h
        | some os =>
          cases x with
          | val vx => simp [unwrapIn, he, hv, assertCol] at h
          | col cx =>
            simp [unwrapIn, he, hv, assertCol] at h
            obtain ⟨rfl, rfl, rfl⟩ := h
            exact .inP ((unwrap_iff _ _).1 he) ((unwrapAll_iff _ _).1 hv)
    · intro h
      cases h with
      | inP he hv => simp [(unwrap_iff _ _).2 he, (unwrapAll_iff _ _).2 hv, unwrapIn, assertCol]
  | _ =>
    constructor
    · intro h; simp [attemptFilter, isBase] at h
    · rintro ⟨_, h⟩; cases h

/-! ### C124: filter views -/

/-- **C124.** A predicate can be represented by a filter view exactly if it is no join and has one of the simple forms;
the view consists of the filtered column, the operator, the value(s) and the predicate itself. -/
theorem C124_wrap (p : Expr Q) (v : SFilter Q) :
    wrapFilter p = .ok v ↔ p.isJoin = false ∧ v.pred = p ∧ FilterForm p v.column v.op v.value := by
  obtain ⟨c, op, w, q⟩ := v
  constructor
  · intro h
    cases ha : attemptFilter p with
    | error e => simp [wrapFilter, ha, Except.map] at h
    | ok t =>
      obtain ⟨c', op', w'⟩ := t
      simp [wrapFilter, ha, Except.map] at h
      obtain ⟨rfl, rfl, rfl, rfl⟩ := h
      have := (attempt_ok p c' op' w').1 ha
      exact ⟨this.1, rfl, this.2⟩
  · rintro ⟨hj, rfl, hf⟩
    simp [wrapFilter, (attempt_ok _ c op w).2 ⟨hj, hf⟩, Except.map]

/-- **C124.** `can_wrap` tells exactly whether `wrap` succeeds. -/
theorem C124_can_wrap (p : Expr Q) : canWrapFilter p = true ↔ ∃ v, wrapFilter p = .ok v := by
  unfold canWrapFilter wrapFilter
  cases attemptFilter p <;> simp [isOk, Except.map]

theorem attempt_error (p : Expr Q) (e : Err) (h : attemptFilter p = .error e) :
    e = .value ∨ (e = .assertion ∧ p.isJoin = false ∧ NoColumn p) := by
  by_cases hj : p.isJoin = true
  · simp [attemptFilter, isFilter, hj] at h; exact .inl h.symm
  have hj' : p.isJoin = false := by simpa using hj
  have hf : p.isFilter = true := by simp [isFilter, hj']
  cases p with
  | binary op' a b =>
    simp only [attemptFilter, hf, isBase, Bool.not_true, Bool.or_self, Bool.false_eq_true, if_false] at h
    cases ha : unwrap a with
    | none => simp [unwrapBinary, ha] at h; exact .inl h.symm
    | some x =>
      cases hb : unwrap b with
      | none => simp [unwrapBinary, ha, hb] at h; exact .inl h.symm
      | some y =>
        cases x with
        | col cx => simp [unwrapBinary, ha, hb, orderSides, assertCol] at h
        | val vx =>
          cases y with
          | col cy => simp [unwrapBinary, ha, hb, orderSides, assertCol] at h
          | val vy =>
            simp [unwrapBinary, ha, hb, orderSides, assertCol] at h
            exact .inr ⟨h.symm, hj', .binary _ ((unwrap_iff _ _).1 ha) ((unwrap_iff _ _).1 hb)⟩
  | between e' l u =>
    simp only [attemptFilter, hf, isBase, Bool.not_true, Bool.or_self, Bool.false_eq_true, if_false] at h
    cases he : unwrap e' with
    | none => simp [unwrapBetween, he] at h; exact .inl h.symm
    | some x =>
      cases hl : unwrap l with
      | none => simp [unwrapBetween, he, hl] at h; exact .inl h.symm
      | some y =>
        cases hu : unwrap u with
        | none => simp [unwrapBetween, he, hl, hu] at h; exact .inl h.symm
        | some z =>
          cases x with
          | col cx => simp [unwrapBetween, he, hl, hu, assertCol] at h
          | val vx =>
            simp [unwrapBetween, he, hl, hu, assertCol] at h
            exact .inr ⟨h.symm, hj',
              .between ((unwrap_iff _ _).1 he) ((unwrap_iff _ _).1 hl) ((unwrap_iff _ _).1 hu)⟩
  | inP e' vs =>
    simp only [attemptFilter, hf, isBase, Bool.not_true, Bool.or_self, Bool.false_eq_true, if_false] at h
    cases he : unwrap e' with
    | none => simp [unwrapIn, he] at h; exact .inl h.symm
    | some x =>
      cases hv : unwrapAll vs with
      | none => simp [unwrapIn, he, hv] at h; exact .inl h.symm
      | some os =>
        cases x with
        | col cx => simp [unwrapIn, he, hv, assertCol] at h
        | val vx =>
          simp [unwrapIn, he, hv, assertCol] at h
          exact .inr ⟨h.symm, hj', .inP ((unwrap_iff _ _).1 he) ((unwrapAll_iff _ _).1 hv)⟩
  | _ => simp [attemptFilter, isBase] at h; exact .inl h.symm

theorem attempt_noColumn (p : Expr Q) (hj : p.isJoin = false) (h : NoColumn p) :
    attemptFilter p = .error .assertion := by
  have hf : p.isFilter = true := by simp [isFilter, hj]
  cases h with
  | binary op ha hb =>
    simp [attemptFilter, hf, isBase, unwrapBinary, (unwrap_iff _ _).2 ha, (unwrap_iff _ _).2 hb, orderSides, assertCol]
  | between he hl hu =>
    simp [attemptFilter, hf, isBase, unwrapBetween, (unwrap_iff _ _).2 he, (unwrap_iff _ _).2 hl, (unwrap_iff _ _).2 hu,
      assertCol]
  | inP he hv =>
    simp [attemptFilter, hf, isBase, unwrapIn, (unwrap_iff _ _).2 he, (unwrapAll_iff _ _).2 hv, assertCol]

theorem wrapFilter_error (p : Expr Q) (e : Err) : wrapFilter p = .error e ↔ attemptFilter p = .error e := by
  unfold wrapFilter
  cases attemptFilter p <;> simp [Except.map]

/-- General fact about the loops of `wrap_all`. -/
theorem wrapAll_ok {V : Type} (wrap : Expr Q → Except Err V) (pred : V → Expr Q)
    (hw : ∀ p v, wrap p = .ok v → pred v = p) (ps : List (Expr Q))
    (hp : ∀ p ∈ ps, ∀ e, wrap p = .error e → e = .value) :
    ∃ vs, wrapAll wrap ps = .ok vs ∧ vs.map pred = ps.filter (fun p => isOk (wrap p)) ∧
      ∀ v ∈ vs, wrap (pred v) = .ok v := by
  induction ps with
  | nil => exact ⟨[], rfl, rfl, by simp⟩
  | cons p ps ih =>
    obtain ⟨vs, h1, h2, h3⟩ := ih fun q hq => hp q (by simp [hq])
    cases hc : wrap p with
    | ok v =>
      have := hw p v hc
      refine ⟨v :: vs, by simp [wrapAll, hc, h1, Except.map], by simp [isOk, hc, h2, this], ?_⟩
      intro w hw'
      rcases List.mem_cons.1 hw' with rfl | hw'
      · rw [this]; exact hc
      · exact h3 w hw'
    | error e =>
      have := hp p (by simp) e hc
      subst this
      exact ⟨vs, by simp [wrapAll, hc, h1], by simp [isOk, hc, h2], h3⟩

/-- **C124 (partial).** If no predicate compares static values only, `wrap_all` provides the views of exactly those
predicates that can be represented, in the order of the predicates. *Missing:* see `C124_wrap_all_violated`. -/
theorem C124_wrap_all_partial (ps : List (Expr Q)) (h : ∀ p ∈ ps, ¬ NoColumn p) :
    ∃ vs, wrapAllFilters ps = .ok vs ∧ vs.map (fun v => v.pred) = ps.filter canWrapFilter ∧
      ∀ v ∈ vs, wrapFilter v.pred = .ok v := by
  have hw : ∀ (p : Expr Q) v, wrapFilter p = .ok v → v.pred = p := fun p v hv => ((C124_wrap p v).1 hv).2.1
  obtain ⟨vs, h1, h2, h3⟩ := wrapAll_ok wrapFilter (fun v : SFilter Q => v.pred) hw ps (by
    intro p hp e he
    rw [wrapFilter_error] at he
    rcases attempt_error p e he with h' | ⟨-, -, h'⟩
    · exact h'
    · exact absurd h' (h p hp))
  refine ⟨vs, h1, ?_, h3⟩
  rw [h2]
  refine List.filter_congr fun p _ => ?_
  unfold canWrapFilter wrapFilter
  cases attemptFilter p <;> rfl

/-- **C124 (violated).** Predicates that cannot be represented should be ignored by `wrap_all`. It raises an
`AssertionError` as soon as a filter (found before any other error) compares static values only, such as `1 = 2`; the
view itself raises the same error instead of the documented `ValueError`. -/
theorem C124_wrap_all_violated (ps qs : List (Expr Q)) (p : Expr Q) (hj : p.isJoin = false) (h : NoColumn p) :
    wrapFilter p = .error .assertion ∧ wrapAllFilters (ps ++ p :: qs) = .error .assertion := by
  have hp : wrapFilter p = .error .assertion := (wrapFilter_error _ _).2 (attempt_noColumn p hj h)
  refine ⟨hp, ?_⟩
  unfold wrapAllFilters
  induction ps with
  | nil => simp [wrapAll, hp]
  | cons q ps ih =>
    cases hc : wrapFilter q with
    | ok v => simp [wrapAll, hc, ih, Except.map]
    | error e =>
      rcases attempt_error q e ((wrapFilter_error _ _).1 hc) with rfl | ⟨rfl, -, -⟩
      · simp [wrapAll, hc, ih]
      · simp [wrapAll, hc]

/-- **C124.** `wrap` raises an error other than `ValueError` only in this case. -/
theorem C124_wrap_error (p : Expr Q) (e : Err) (h : wrapFilter p = .error e) :
    e = .value ∨ (e = .assertion ∧ p.isJoin = false ∧ NoColumn p) :=
  attempt_error p e ((wrapFilter_error _ _).1 h)

/-! ### C125: the meaning of filter views -/

/-- Conjunction of SQL truth values; `none` is UNKNOWN. -/
def and3 : Option Bool → Option Bool → Option Bool
  | some false, _ => some false
  | _, some false => some false
  | some true, some true => some true
  | _, _ => none

/-- Disjunction of SQL truth values. -/
def or3 : Option Bool → Option Bool → Option Bool
  | some true, _ => some true
  | _, some true => some true
  | some false, some false => some false
  | _, _ => none

/-- The truth value of a predicate: `val` is the value of its operands on some row, `cmp` the comparison of values. -/
def truth {V : Type} (val : Expr Q → V) (cmp : LogOp → V → V → Option Bool) : Expr Q → Option Bool
  | .binary op a b => cmp op (val a) (val b)
  | .between e l u => and3 (cmp .ge (val e) (val l)) (cmp .le (val e) (val u))
  | .inP e vs => vs.foldr (fun v acc => or3 (cmp .eq (val e) (val v)) acc) (some false)
  | _ => none

/-- The value of an unwrapped object. -/
def objVal {V : Type} (val : Expr Q → V) : Obj → V
  | .val v => val (.static v)
  | .col c => val (.col c)

/-- The truth value that column, operator and value of a view suggest: `column op value`. -/
def viewTruth {V : Type} (val : Expr Q → V) (cmp : LogOp → V → V → Option Bool) (c : Col) (op : LogOp) :
    FValue → Option Bool
  | .one o => cmp op (val (.col c)) (objVal val o)
  | .pair l u => and3 (cmp .ge (val (.col c)) (objVal val l)) (cmp .le (val (.col c)) (objVal val u))
  | .many os => os.foldr (fun o acc => or3 (cmp .eq (val (.col c)) (objVal val o)) acc) (some false)

/-- Is the expression no cast? -/
def NoCast (e : Expr Q) : Prop := ∀ e' ty ps arr, e ≠ .cast e' ty ps arr

/-- Is the first operand a static value? -/
def StaticFirst (p : Expr Q) : Prop := ∃ op v b, p = .binary op (.static v) b

theorem plain_val {V : Type} (val : Expr Q → V) {e : Expr Q} {o : Obj} (h : Plain e o) (hn : NoCast e) :
    objVal val o = val e := by
  cases h with
  | static | col => rfl
  | cast ty ps arr h => exact absurd rfl (hn _ ty ps arr)

/-- **C125 (partial).** If no operand is a cast, the triple of column, operator and value has the truth value of the
predicate on every row, provided that the column is the first operand or that the operator is symmetric. *Missing:*
see `C125_swapped_violated` and `C125_cast_violated`. -/
theorem C125_meaning_partial {V : Type} (val : Expr Q → V) (cmp : LogOp → V → V → Option Bool) (p : Expr Q)
    (v : SFilter Q) (h : wrapFilter p = .ok v) (hn : ∀ e ∈ p.subs, NoCast e)
    (hs : ¬ StaticFirst p ∨ ∀ x y, cmp v.op x y = cmp v.op y x) :
    viewTruth val cmp v.column v.op v.value = truth val cmp p := by
  obtain ⟨-, -, hf⟩ := (C124_wrap p v).1 h
  obtain ⟨c, op, w, q⟩ := v
  simp only at hf hs ⊢
  cases hf with
  | left op ha hb =>
    have h1 := plain_val val ha (hn _ (by simp [subs]))
    have h2 := plain_val val hb (hn _ (by simp [subs]))
    simp only [objVal] at h1
    simp only [viewTruth, truth, h1, h2]
  | right op ha hb =>
    have h1 := plain_val val ha (hn _ (by simp [subs]))
    have h2 := plain_val val hb (hn _ (by simp [subs]))
    have hsym : ∀ x y, cmp op x y = cmp op y x := by
      rcases hs with hs | hs
      · exfalso
        cases ha with
        | static => exact hs ⟨_, _, _, rfl⟩
        | @cast e0 _ ty ps arr h => exact hn (.cast e0 ty ps arr) (by simp [subs]) _ ty ps arr rfl
      · exact hs
    simp only [objVal] at h1 h2
    simp only [viewTruth, truth, objVal, h1, h2]
    exact hsym _ _
  | between he hl hu =>
    have h1 := plain_val val he (hn _ (by simp [subs]))
    have h2 := plain_val val hl (hn _ (by simp [subs]))
    have h3 := plain_val val hu (hn _ (by simp [subs]))
    simp only [objVal] at h1
    simp only [viewTruth, truth, h1, h2, h3]
  | inP he hv =>
    have h1 := plain_val val he (hn _ (by simp [subs]))
    simp only [objVal] at h1
    simp only [viewTruth, truth, h1]
    have hn' : ∀ e ∈ _, NoCast e := fun e he => hn e (by simp [subs]; exact .inr he)
    clear h hn hs he h1 q
    revert hn'
    induction hv with
    | nil => intro _; rfl
    | cons ho hv ih =>
      intro hn'
      simp only [List.foldr_cons, plain_val val ho (hn' _ (by simp)), ih fun e he => hn' e (by simp [he])]

/-- The comparison of numbers. -/
def cmpInt : LogOp → Int → Int → Option Bool
  | .lt, a, b => some (decide (a < b))
  | .gt, a, b => some (decide (b < a))
  | .eq, a, b => some (decide (a = b))
  | _, _, _ => none

/-- **C125 (violated).** The filter `v op column` is represented like `column op v`: for `5 < R.a` the view says
`R.a < 5`. If the two comparisons differ for some values, the view is wrong on some row. -/
theorem C125_swapped_violated (op : LogOp) (v : Val) (c : Col) :
    wrapFilter (.binary op (.static v) (.col c) : Expr Q) =
      .ok ⟨c, op, .one (.val v), .binary op (.static v) (.col c)⟩ ∧
    (∀ {V : Type} (cmp : LogOp → V → V → Option Bool) (x y : V), cmp op x y ≠ cmp op y x →
      ∃ val : Expr Q → V, viewTruth val cmp c op (.one (.val v)) ≠ truth val cmp (.binary op (.static v) (.col c))) := by
  have hj : (Expr.binary op (.static v) (.col c) : Expr Q).isJoin = false := by
    rw [← Bool.not_eq_true, binary_isJoin_card]
    have h1 : (Expr.static v : Expr Q).baseTabs = ∅ := by
      simp [baseTabs, baseCols, collectBase_eq, isBaseExpr, colOf]
    have h2 : (Expr.col c : Expr Q).baseTabs = tabSet c.tab := by
      simp [baseTabs, baseCols, collectBase_eq, isBaseExpr, colOf]
    rw [h1, h2]
    cases c.tab <;> simp [tabSet]
  refine ⟨(C124_wrap _ _).2 ⟨hj, rfl, .right op (.static v) (.col c)⟩, ?_⟩
  intro V cmp x y hxy
  classical
  refine ⟨fun e => match e with | .static _ => x | _ => y, ?_⟩
  simp only [viewTruth, truth, objVal]
  exact fun h => hxy h.symm

/-- **C125 (violated).** Casts are dropped: the filters `CAST(R.a AS t) op v` and `R.a op CAST(v AS t)` are represented
like `R.a op v`, whatever the cast does. -/
theorem C125_cast_violated (op : LogOp) (v : Val) (c : Col) (ty : String) :
    wrapFilter (.binary op (.cast (.col c) ty [] false) (.static v) : Expr Q) =
      .ok ⟨c, op, .one (.val v), .binary op (.cast (.col c) ty [] false) (.static v)⟩ ∧
    (∀ {V : Type} (cmp : LogOp → V → V → Option Bool) (x y z : V), cmp op x z ≠ cmp op y z →
      ∃ val : Expr Q → V, viewTruth val cmp c op (.one (.val v)) ≠
        truth val cmp (.binary op (.cast (.col c) ty [] false) (.static v))) := by
  have hj : (Expr.binary op (.cast (.col c) ty [] false) (.static v) : Expr Q).isJoin = false := by
    rw [← Bool.not_eq_true, binary_isJoin_card]
    have h1 : (Expr.static v : Expr Q).baseTabs = ∅ := by
      simp [baseTabs, baseCols, collectBase_eq, isBaseExpr, colOf]
    have h2 : (Expr.cast (.col c) ty [] false : Expr Q).baseTabs = tabSet c.tab := by
      have : (Expr.cast (.col c) ty [] false : Expr Q).iterChildren = [.col c] := by
        rw [iterChildren_eq]; simp [grandParts, directParts]
      have h3 : (Expr.col c : Expr Q).collectBase = [.col c] := by rw [collectBase_eq]; simp [isBaseExpr]
      simp only [baseTabs, baseCols]
      rw [collectBase_eq, if_neg (by simp [isBaseExpr]), this]
      simp [h3, colOf]
    rw [h1, h2]
    cases c.tab <;> simp [tabSet]
  refine ⟨(C124_wrap _ _).2 ⟨hj, rfl, .left op (.cast _ _ _ (.col c)) (.static v)⟩, ?_⟩
  intro V cmp x y z hxy
  refine ⟨fun e => match e with | .static _ => z | .col _ => x | _ => y, ?_⟩
  simp only [viewTruth, truth, objVal]
  exact hxy

/-- Is the object a column? -/
def Obj.IsCol (o : Obj) : Prop := ∃ c, o = .col c

/-- The columns among the values of a view. -/
def valueCols : FValue → List Obj
  | .one o => [o]
  | .pair l u => [l, u]
  | .many os => os

theorem plain_hasCol {e : Expr Q} {o : Obj} (h : Plain e o) (hn : NoCast e) (d : Col) :
    HasCol d e ↔ o = .col d := by
  cases h with
  | static v =>
    rw [hasCol_subs (by simp)]; simp [subs]
  | col c =>
    constructor
    · intro h
      cases h with
      | refl => rfl
      | step hm _ => simp [subs] at hm
    · intro h
      cases h
      exact .refl _
  | cast ty ps arr h => exact absurd rfl (hn _ ty ps arr)

theorem forall₂_hasCol {vs : List (Expr Q)} {os : List Obj} (h : List.Forall₂ Plain vs os) (hn : ∀ e ∈ vs, NoCast e)
    (d : Col) : (∃ e ∈ vs, HasCol d e) ↔ Obj.col d ∈ os := by
  induction h with
  | nil => simp
  | cons ho hv ih =>
    have := ih fun e he => hn e (by simp [he])
    simp only [List.mem_cons, exists_eq_or_imp, plain_hasCol ho (hn _ (by simp)), this]
    constructor
    · rintro (h | h)
      · exact .inl h.symm
      · exact .inr h
    · rintro (h | h)
      · exact .inl h.symm
      · exact .inr h

/-- **C125 (partial).** Without casts, the column reported by a filter view and the columns among its values are
together the columns of the predicate. In particular, `columns()` of the view and of the predicate agree if the values
contain no other column. *Missing:* see `C125_columns_violated`. -/
theorem C125_columns_partial (p : Expr Q) (v : SFilter Q) (h : wrapFilter p = .ok v) (hn : ∀ e ∈ p.subs, NoCast e)
    (d : Col) : HasCol d p ↔ d ∈ v.columns ∨ Obj.col d ∈ valueCols v.value := by
  obtain ⟨-, -, hf⟩ := (C124_wrap p v).1 h
  obtain ⟨c, op, w, q⟩ := v
  simp only [SFilter.columns, Finset.mem_singleton] at hf ⊢
  cases hf with
  | left op ha hb =>
    rw [hasCol_binary, plain_hasCol ha (hn _ (by simp [subs])), plain_hasCol hb (hn _ (by simp [subs]))]
    simp [valueCols, eq_comm]
  | right op ha hb =>
    rw [hasCol_binary, plain_hasCol ha (hn _ (by simp [subs])), plain_hasCol hb (hn _ (by simp [subs]))]
    simp [valueCols, eq_comm]
  | between he hl hu =>
    rw [hasCol_between, plain_hasCol he (hn _ (by simp [subs])), plain_hasCol hl (hn _ (by simp [subs])),
      plain_hasCol hu (hn _ (by simp [subs]))]
    simp [valueCols, eq_comm]
  | inP he hv =>
    rw [hasCol_inP, plain_hasCol he (hn _ (by simp [subs])),
      forall₂_hasCol hv (fun e he => hn e (by simp [subs]; exact .inr he))]
    simp [valueCols, eq_comm]

/-- The table `R` and two of its columns. -/
def colA : Col := ⟨some 0, 0⟩
def colB : Col := ⟨some 0, 1⟩
def colS : Col := ⟨some 1, 1⟩

theorem baseTabs_col (c : Col) : (Expr.col c : Expr Q).baseTabs = tabSet c.tab := by
  simp [baseTabs, baseCols, collectBase_eq, isBaseExpr, colOf]

theorem baseTabs_static (v : Val) : (Expr.static v : Expr Q).baseTabs = ∅ := by
  simp [baseTabs, baseCols, collectBase_eq, isBaseExpr, colOf]

theorem isJoin_cols (op : LogOp) (c d : Col) :
    (Expr.binary op (.col c) (.col d) : Expr Q).isJoin = true ↔ ∃ s t, c.tab = some s ∧ d.tab = some t ∧ s ≠ t := by
  rw [binary_isJoin_card, baseTabs_col, baseTabs_col]
  cases c.tab with
  | none => cases d.tab <;> simp [tabSet]
  | some s =>
    cases d.tab with
    | none => simp [tabSet]
    | some t =>
      by_cases hst : s = t
      · subst hst; simp [tabSet]
      · simp [tabSet, hst, Finset.card_pair hst]

theorem isJoin_static_right (op : LogOp) (c : Col) (v : Val) :
    (Expr.binary op (.col c) (.static v) : Expr Q).isJoin = false := by
  rw [← Bool.not_eq_true, binary_isJoin_card, baseTabs_col, baseTabs_static]
  cases c.tab <;> simp [tabSet]

/-- **C125 (violated).** The filter `R.a = R.b` has a view that reports the column `R.a` only. -/
theorem C125_columns_violated : ∃ v : SFilter Q, wrapFilter (.binary .eq (.col colA) (.col colB)) = .ok v ∧
    HasCol colB (Expr.binary .eq (.col colA) (.col colB) : Expr Q) ∧ colB ∉ v.columns := by
  have hj : (Expr.binary .eq (.col colA) (.col colB) : Expr Q).isJoin = false := by
    rw [← Bool.not_eq_true, isJoin_cols]
    rintro ⟨s, t, h1, h2, h3⟩
    simp [colA, colB] at h1 h2
    exact h3 (h1.symm.trans h2)
  refine ⟨⟨colA, .eq, .one (.col colB), _⟩, (C124_wrap _ _).2 ⟨hj, rfl, .left _ (.col _) (.col _)⟩, ?_, ?_⟩
  · rw [hasCol_binary]; exact .inr (.refl _)
  · simp [SFilter.columns, colA, colB]

/-- Non-vacuity: `R.a < 5` has a view with the meaning and the columns of the predicate. -/
example : ∃ v : SFilter Q, wrapFilter (.binary .lt (.col colA) (.static (.num 5))) = .ok v ∧ v.column = colA ∧
    v.op = .lt ∧ v.value = .one (.val (.num 5)) ∧
    (∀ e ∈ (Expr.binary .lt (.col colA) (.static (.num 5)) : Expr Q).subs, NoCast e) ∧
    ¬ StaticFirst (Expr.binary .lt (.col colA) (.static (.num 5)) : Expr Q) := by
  refine ⟨⟨colA, .lt, .one (.val (.num 5)), _⟩,
    (C124_wrap _ _).2 ⟨isJoin_static_right _ _ _, rfl, .left _ (.col _) (.static _)⟩, rfl, rfl, rfl, ?_, ?_⟩
  · intro e he
    simp [subs] at he
    rcases he with rfl | rfl <;> intro _ _ _ _ h <;> cases h
  · rintro ⟨op, v, b, h⟩
    cases h

/-! ### C126: join views -/

/-- **C126.** A predicate can be represented by a join view exactly if it is an equi join of two columns (up to casts);
the view consists of the two columns in their order and the predicate itself. -/
theorem C126_wrap (p : Expr Q) (v : SJoin Q) :
    wrapJoin p = .ok v ↔ v.pred = p ∧ p.isJoin = true ∧
      ∃ a b, p = .binary .eq a b ∧ Plain a (.col v.lhs) ∧ Plain b (.col v.rhs) := by
  obtain ⟨l, r, q⟩ := v
  cases p with
  | binary op a b =>
    by_cases hj : (Expr.binary op a b).isJoin = true
    · by_cases ho : op = .eq
      · subst ho
        simp only [wrapJoin, hj, Bool.not_true, Bool.false_eq_true, if_false, ne_eq, not_true_eq_false]
        constructor
        · intro h
          cases ha : unwrap a with
          | none => simp [joinOf, ha] at h
          | some x =>
            cases hb : unwrap b with
            | none => cases x <;> simp [joinOf, ha, hb] at h
            | some y =>
              cases x with
              | val _ => simp [joinOf, ha, hb] at h
              | col cx =>
                cases y with
                | val _ => simp [joinOf, ha, hb] at h
                | col cy =>
                  simp [joinOf, ha, hb] at h
                  obtain ⟨rfl, rfl, rfl⟩ := h
                  exact ⟨rfl, trivial, a, b, rfl, (unwrap_iff _ _).1 ha, (unwrap_iff _ _).1 hb⟩
        · rintro ⟨rfl, -, a', b', he, ha, hb⟩
          cases he
          simp [joinOf, (unwrap_iff _ _).2 ha, (unwrap_iff _ _).2 hb]
      · simp only [wrapJoin, hj, Bool.not_true, Bool.false_eq_true, if_false, ne_eq, ho, not_false_eq_true, if_true]
        constructor
        · intro h; cases h
        · rintro ⟨-, -, a', b', he, -, -⟩
          cases he; exact absurd rfl ho
    · simp [wrapJoin, hj]
  | _ =>
    constructor
    · intro h; simp [wrapJoin] at h
    · rintro ⟨-, -, a', b', he, -⟩; cases he

theorem wrapJoin_error (p : Expr Q) (e : Err) (h : wrapJoin p = .error e) : e = .value := by
  cases p with
  | binary op a b =>
    simp only [wrapJoin] at h
    split at h
    · simpa using h.symm
    · split at h
      · simpa using h.symm
      · unfold joinOf at h
        split at h
        · cases h
        · simpa using h.symm
  | _ => simpa [wrapJoin] using h.symm

/-- **C126.** `wrap` and `wrap_all` of joins behave as documented: the only error is a `ValueError`, and `wrap_all`
provides the views of exactly those predicates that can be represented, in the order of the predicates. -/
theorem C126_wrap_all (ps : List (Expr Q)) :
    (∀ (p : Expr Q) e, wrapJoin p = .error e → e = .value) ∧
    ∃ vs, wrapAllJoins ps = .ok vs ∧
      (vs.map fun v => v.pred) = ps.filter (fun p => isOk (wrapJoin p)) ∧ ∀ v ∈ vs, wrapJoin v.pred = .ok v := by
  refine ⟨wrapJoin_error, ?_⟩
  have hw : ∀ (p : Expr Q) v, wrapJoin p = .ok v → v.pred = p := fun p v hv => ((C126_wrap p v).1 hv).1
  exact wrapAll_ok wrapJoin (fun v : SJoin Q => v.pred) hw ps fun p _ e he => wrapJoin_error p e he

/-- **C126 (partial).** If `can_wrap` returns, it tells whether `wrap` succeeds; it returns if both sides of the join
are columns or values up to casts. *Missing:* see `C126_can_wrap_violated`. -/
theorem C126_can_wrap_partial (p : Expr Q) :
    (∀ r, canWrapJoin p = .ok r → (r = true ↔ ∃ v, wrapJoin p = .ok v)) ∧
    ((∀ a b, p = .binary .eq a b → p.isJoin = true → (∃ o, Plain a o) ∧ ∃ o, Plain b o) →
      ∃ r, canWrapJoin p = .ok r) := by
  cases p with
  | binary op a b =>
    by_cases hj : (Expr.binary op a b).isJoin = true
    · by_cases ho : op = .eq
      · subst ho
        simp only [canWrapJoin, wrapJoin, hj, Bool.not_true, Bool.false_eq_true, if_false, ne_eq, not_true_eq_false]
        constructor
        · intro r h
          cases ha : unwrap a with
          | none => simp [bothColumns, ha] at h
          | some x =>
            cases hb : unwrap b with
            | none => cases x <;> simp [bothColumns, ha, hb] at h
            | some y =>
              cases x <;> cases y <;> simp [bothColumns, ha, hb] at h <;> subst h <;> simp [joinOf]
        · intro h
          obtain ⟨⟨x, hx⟩, ⟨y, hy⟩⟩ := h a b rfl trivial
          rw [(unwrap_iff _ _).2 hx, (unwrap_iff _ _).2 hy]
          cases x <;> cases y <;> simp [bothColumns]
      · simp [canWrapJoin, wrapJoin, hj, ho]
    · simp [canWrapJoin, wrapJoin, hj]
  | _ => simp [canWrapJoin, wrapJoin]

/-- **C126 (violated).** `can_wrap` raises a `ValueError` instead of returning `False` for an equi join with a computed
operand, for example for `f(R.a) = S.b`. -/
theorem C126_can_wrap_violated (a b : Expr Q) (hj : (Expr.binary .eq a b).isJoin = true) (ha : ∀ o, ¬ Plain a o) :
    canWrapJoin (.binary .eq a b) = .error .value := by
  have : unwrap a = none := by
    cases h : unwrap a with
    | none => rfl
    | some o => exact absurd ((unwrap_iff _ _).1 h) (ha o)
  simp [canWrapJoin, hj, this, bothColumns]

/-- **C126.** The columns of a join view belong to two different tables, if the casts have no columns as parameters. -/
theorem C126_tables (p : Expr Q) (v : SJoin Q) (h : wrapJoin p = .ok v)
    (hc : ∀ c, HasCol c p → c = v.lhs ∨ c = v.rhs) : ∃ s t, v.lhs.tab = some s ∧ v.rhs.tab = some t ∧ s ≠ t := by
  obtain ⟨-, hj, a, b, rfl, ha, hb⟩ := (C126_wrap p v).1 h
  rw [binary_isJoin_card, Finset.one_lt_card] at hj
  obtain ⟨s, hs, t, ht, hst⟩ := hj
  have key : ∀ t, t ∈ a.baseTabs ∪ b.baseTabs → v.lhs.tab = some t ∨ v.rhs.tab = some t := by
    intro t ht
    rw [Finset.mem_union, mem_baseTabs, mem_baseTabs] at ht
    rcases ht with ⟨c, h1, h2⟩ | ⟨c, h1, h2⟩
    · rcases hc c ((hasCol_binary _ _ _ _).2 (.inl (mem_baseCols_sound _ _ h1))) with rfl | rfl <;> simp [h2]
    · rcases hc c ((hasCol_binary _ _ _ _).2 (.inr (mem_baseCols_sound _ _ h1))) with rfl | rfl <;> simp [h2]
  rcases key s hs with h1 | h1 <;> rcases key t ht with h2 | h2
  · rw [h1] at h2; exact absurd (Option.some.inj h2) hst
  · exact ⟨s, t, h1, h2, hst⟩
  · exact ⟨t, s, h2, h1, hst.symm⟩
  · rw [h1] at h2; exact absurd (Option.some.inj h2) hst

/-- **C126.** Join partners of tables: `joins` tells whether the table takes part, `partner_of` is the other one of the
two tables, and the partner of the partner is the table itself. -/
theorem C126_partner_table (v : SJoin Q) (s t : Tab) (hl : v.lhs.tab = some s) (hr : v.rhs.tab = some t) (hst : s ≠ t)
    (u : Tab) :
    (v.joinsTab u = true ↔ u = s ∨ u = t) ∧ v.partnerTab s = some t ∧ v.partnerTab t = some s ∧
      (v.partnerTab u = none ↔ v.joinsTab u = false) := by
  have h1 : (v.joinsTab u = true ↔ u = s ∨ u = t) := by
    simp only [SJoin.joinsTab, hl, hr, Bool.or_eq_true, beq_iff_eq, Option.some.injEq]
    exact ⟨fun h => h.imp Eq.symm Eq.symm, fun h => h.imp Eq.symm Eq.symm⟩
  refine ⟨h1, ?_, ?_, ?_⟩
  · simp [SJoin.partnerTab, SJoin.joinsTab, hl, hr]
  · simp [SJoin.partnerTab, SJoin.joinsTab, hl, hr, hst]
  · by_cases hu : v.joinsTab u = true
    · simp only [SJoin.partnerTab, hu, Bool.not_true, Bool.false_eq_true, if_false]
      split <;> simp [hl, hr]
    · simp [SJoin.partnerTab, hu]

/-- **C126.** The same for columns. -/
theorem C126_partner_column (v : SJoin Q) (hlr : v.lhs ≠ v.rhs) (c : Col) :
    (v.joinsCol c = true ↔ c = v.lhs ∨ c = v.rhs) ∧ (c ∈ v.columns ↔ v.joinsCol c = true) ∧
      v.partnerCol v.lhs = some v.rhs ∧ v.partnerCol v.rhs = some v.lhs ∧
      (v.partnerCol c = none ↔ v.joinsCol c = false) := by
  have h1 : v.joinsCol c = true ↔ c = v.lhs ∨ c = v.rhs := by
    simp only [SJoin.joinsCol, Bool.or_eq_true, beq_iff_eq]
    exact ⟨fun h => h.imp Eq.symm Eq.symm, fun h => h.imp Eq.symm Eq.symm⟩
  refine ⟨h1, by rw [h1]; simp [SJoin.columns], ?_, ?_, ?_⟩
  · simp [SJoin.partnerCol, SJoin.joinsCol]
  · simp [SJoin.partnerCol, SJoin.joinsCol, hlr]
  · by_cases hu : v.joinsCol c = true
    · simp only [SJoin.partnerCol, hu, Bool.not_true, Bool.false_eq_true, if_false]
      split <;> simp
    · simp [SJoin.partnerCol, hu]

theorem joinPartners_cols (c d : Col) (hj : (Expr.binary .eq (.col c) (.col d) : Expr Q).isJoin = true) :
    (Expr.binary .eq (.col c) (.col d) : Expr Q).joinPartners = some {normalizePair (c, d)} := by
  have hb : ∀ c : Col, (Expr.col c : Expr Q).baseCols = {c} := by
    intro c; simp [baseCols, collectBase_eq, isBaseExpr, colOf]
  obtain ⟨s, t, h1, h2, h3⟩ := (isJoin_cols _ _ _).1 hj
  rw [joinPartners, if_pos hj, hb, hb]
  congr 1
  ext x
  simp [generateJoinPairs, h1, h2, h3, Finset.filter_singleton, eq_comm]

/-- **C126 (partial).** The view of the join `lhs = rhs` of two columns reports the same columns as the predicate, and
the same join partners if the first column does not sort after the second one. *Missing:* see
`C126_partners_violated`. -/
theorem C126_partners_partial (v : SJoin Q) (h : wrapJoin (.binary .eq (.col v.lhs) (.col v.rhs)) = .ok v) :
    (∀ c, c ∈ v.columns ↔ HasCol c v.pred) ∧
      ((v.rhs).lt v.lhs = false → v.pred.joinPartners = some v.joinPartners) := by
  obtain ⟨hp, hj, -⟩ := (C126_wrap _ v).1 h
  rw [hp]
  constructor
  · intro c
    have h1 : ∀ d : Col, HasCol c (Expr.col d : Expr Q) ↔ c = d := by
      intro d
      rw [plain_hasCol (.col d) (by intro _ _ _ _ h; cases h)]
      simp [eq_comm]
    rw [hasCol_binary, h1, h1]
    simp [SJoin.columns]
  · intro hlt
    rw [joinPartners_cols _ _ hj]
    simp [normalizePair, hlt, SJoin.joinPartners]

/-- **C126 (violated).** Otherwise the join partners differ: the predicate orders the two columns, the view does not.
For `S.b = R.a` the predicate reports `(R.a, S.b)` and its view `(S.b, R.a)`. -/
theorem C126_partners_violated : ∃ v : SJoin Q, wrapJoin (.binary .eq (.col colS) (.col colA)) = .ok v ∧
    v.pred.joinPartners = some {(colA, colS)} ∧ v.joinPartners = {(colS, colA)} ∧ (colA, colS) ≠ (colS, colA) := by
  have hj : (Expr.binary .eq (.col colS) (.col colA) : Expr Q).isJoin = true :=
    (isJoin_cols _ _ _).2 ⟨1, 0, rfl, rfl, by decide⟩
  refine ⟨⟨colS, colA, _⟩, (C126_wrap _ _).2 ⟨rfl, hj, _, _, rfl, .col _, .col _⟩, ?_, rfl, by decide⟩
  simp only
  rw [joinPartners_cols _ _ hj]
  have : normalizePair (colS, colA) = (colA, colS) := by decide
  rw [this]

/-- Non-vacuity: the view of `R.a = S.b`. -/
example : ∃ v : SJoin Q, wrapJoin (.binary .eq (.col colA) (.col colS)) = .ok v ∧ v.partnerTab 0 = some 1 ∧
    v.partnerCol colS = some colA ∧ v.partnerTab 7 = none := by
  have hj : (Expr.binary .eq (.col colA) (.col colS) : Expr Q).isJoin = true :=
    (isJoin_cols _ _ _).2 ⟨0, 1, rfl, rfl, by decide⟩
  exact ⟨⟨colA, colS, _⟩, (C126_wrap _ _).2 ⟨rfl, hj, _, _, rfl, .col _, .col _⟩, by rfl, by rfl, by rfl⟩

/-! ### C127: equality and hash values of views -/

theorem plain_eq (ops : Ops Q) {e e' : Expr Q} {o o' : Obj} (h : Plain e o) (h' : Plain e' o')
    (heq : exprEq ops e e' = true) : o = o' := by
  induction h generalizing e' o' with
  | static v => cases h' <;> simp [exprEq] at heq; rw [heq]
  | col c => cases h' <;> simp [exprEq] at heq; rw [heq]
  | cast ty ps arr h ih =>
    cases h' with
    | static | col => simp [exprEq] at heq
    | cast ty' ps' arr' h' =>
      simp only [exprEq, Bool.and_eq_true] at heq
      exact ih h' heq.1.1.1

/-- **C127 (partial).** Equal filter views have the same column, operator and value and hence the same hash value,
unless they represent IN predicates. *Missing:* see `C127_in_violated`. -/
theorem C127_filter_partial (ops : Ops Q) (p q : Expr Q) (a b : SFilter Q) (ha : wrapFilter p = .ok a)
    (hb : wrapFilter q = .ok b) (hin : ∀ e vs, p ≠ .inP e vs) (h : a.eqView ops b = true) :
    a.column = b.column ∧ a.op = b.op ∧ a.value = b.value ∧ a.hash = b.hash := by
  obtain ⟨-, ha1, ha2⟩ := (C124_wrap p a).1 ha
  obtain ⟨-, hb1, hb2⟩ := (C124_wrap q b).1 hb
  simp only [SFilter.eqView, ha1, hb1] at h
  have key : a.column = b.column ∧ a.op = b.op ∧ a.value = b.value := by
    obtain ⟨c, op, w, p'⟩ := a
    obtain ⟨d, op', w', q'⟩ := b
    simp only at ha2 hb2 ⊢
    clear ha hb ha1 hb1
    cases ha2 with
    | left op h1 h2 =>
      cases hb2 with
      | left op' h3 h4 =>
        simp only [exprEq, Bool.and_eq_true, beq_iff_eq] at h
        have e1 := plain_eq ops h1 h3 h.1.2
        have e2 := plain_eq ops h2 h4 h.2
        cases e1; cases e2
        exact ⟨rfl, h.1.1, rfl⟩
      | right op' h3 h4 =>
        simp only [exprEq, Bool.and_eq_true, beq_iff_eq] at h
        have e1 := plain_eq ops h1 h3 h.1.2
        cases e1
      | between => simp [exprEq] at h
      | inP => simp [exprEq] at h
    | right op h1 h2 =>
      cases hb2 with
      | left op' h3 h4 =>
        simp only [exprEq, Bool.and_eq_true, beq_iff_eq] at h
        have e1 := plain_eq ops h1 h3 h.1.2
        cases e1
      | right op' h3 h4 =>
        simp only [exprEq, Bool.and_eq_true, beq_iff_eq] at h
        have e1 := plain_eq ops h1 h3 h.1.2
        have e2 := plain_eq ops h2 h4 h.2
        cases e1; cases e2
        exact ⟨rfl, h.1.1, rfl⟩
      | between => simp [exprEq] at h
      | inP => simp [exprEq] at h
    | between h1 h2 h3 =>
      cases hb2 with
      | left => simp [exprEq] at h
      | right => simp [exprEq] at h
      | inP => simp [exprEq] at h
      | between h4 h5 h6 =>
        simp only [exprEq, Bool.and_eq_true] at h
        have e1 := plain_eq ops h1 h4 h.1.1
        have e2 := plain_eq ops h2 h5 h.1.2
        have e3 := plain_eq ops h3 h6 h.2
        cases e1; cases e2; cases e3
        exact ⟨rfl, rfl, rfl⟩
    | inP => exact absurd rfl (hin _ _)
  refine ⟨key.1, key.2.1, key.2.2, ?_⟩
  simp only [SFilter.hash, key.1, key.2.1, key.2.2]

/-- **C127.** Equal join views have the same columns on the same sides and the same hash value. -/
theorem C127_join (ops : Ops Q) (p q : Expr Q) (a b : SJoin Q) (ha : wrapJoin p = .ok a) (hb : wrapJoin q = .ok b)
    (h : a.eqView ops b = true) : a.lhs = b.lhs ∧ a.rhs = b.rhs ∧ a.hash = b.hash := by
  obtain ⟨ha1, -, x, y, rfl, hx, hy⟩ := (C126_wrap p a).1 ha
  obtain ⟨hb1, -, x', y', rfl, hx', hy'⟩ := (C126_wrap q b).1 hb
  simp only [SJoin.eqView, ha1, hb1, exprEq, Bool.and_eq_true] at h
  have e1 := plain_eq ops hx hx' h.1.2
  have e2 := plain_eq ops hy hy' h.2
  simp only [Obj.col.injEq] at e1 e2
  exact ⟨e1, e2, by simp only [SJoin.hash, e1, e2]⟩

/-- **C127**: views of joins between columns and views of comparisons of columns with values are equal exactly if they show the same columns, operators and values. -/
theorem C127_exact (ops : Ops Q) :
    (∀ (c d c' d' : Col) (a b : SJoin Q), wrapJoin (.binary .eq (.col c) (.col d)) = .ok a → wrapJoin (.binary .eq (.col c') (.col d')) = .ok b →
      (a.eqView ops b = true ↔ c = c' ∧ d = d')) ∧
    (∀ (c c' : Col) (o o' : LogOp) (v v' : Val) (a b : SFilter Q), wrapFilter (.binary o (.col c) (.static v)) = .ok a →
      wrapFilter (.binary o' (.col c') (.static v')) = .ok b → (a.eqView ops b = true ↔ c = c' ∧ o = o' ∧ v = v')) := by
  constructor
  · intro c d c' d' a b ha hb
    have h1 := ((C126_wrap _ a).1 ha).1
    have h2 := ((C126_wrap _ b).1 hb).1
    simp [SJoin.eqView, h1, h2, exprEq]
  · intro c c' o o' v v' a b ha hb
    have h1 := ((C124_wrap _ a).1 ha).2.1
    have h2 := ((C124_wrap _ b).1 hb).2.1
    simp only [SFilter.eqView, h1, h2, exprEq]
    simp [and_assoc, and_left_comm]

/-- `R.a IN (values)` for numbers. -/
def inNums (ns : List Int) : Expr Q := .inP (.col colA) (ns.map fun n => .static (.num n))

theorem inNums_filter (ns : List Int) : (inNums ns : Expr Q).isJoin = false := by
  have hc : ∀ c : Col, (tabSet c.tab).card ≤ 1 := by intro c; cases c.tab <;> simp [tabSet]
  simp only [inNums, isJoin]
  rw [Bool.or_eq_false_iff]
  refine ⟨?_, ?_⟩
  · rw [baseTabs_col]; simpa using hc colA
  · rw [List.any_eq_false]
    intro v hv
    obtain ⟨n, -, rfl⟩ := List.mem_map.1 hv
    rw [baseTabs_col, baseTabs_static]
    simpa using hc colA

theorem inNums_view (ns : List Int) : wrapFilter (inNums ns : Expr Q) =
    .ok ⟨colA, .inOp, .many (ns.map fun n => .val (.num n)), inNums ns⟩ := by
  refine (C124_wrap _ _).2 ⟨inNums_filter ns, rfl, .inP (.col _) ?_⟩
  induction ns with
  | nil => exact .nil
  | cons n ns ih => exact .cons (.static _) ih

/-- **C127 (violated).** The views of `R.a IN (1, 2)` and `R.a IN (2, 1)` are equal, since the predicates are, but they
have different hash values (different tuples are hashed) and different values. -/
theorem C127_in_violated (ops : Ops Q) : ∃ a b : SFilter Q, wrapFilter (inNums [1, 2]) = .ok a ∧
    wrapFilter (inNums [2, 1]) = .ok b ∧ a.eqView ops b = true ∧ a.value ≠ b.value ∧ a.hash ≠ b.hash := by
  refine ⟨_, _, inNums_view _, inNums_view _, ?_, by simp, ?_⟩
  · simp [SFilter.eqView, inNums, exprEq, allIn, anyIn, exprHash]
    simp [Key.beq]
  · simp [SFilter.hash, FValue.key, Obj.key]

/-- **C127 (violated).** A filter view compares equal to the predicate it represents, but not the other way around, and
the two have different hash values: an equality that is neither symmetric nor consistent with the hash values. -/
theorem C127_predicate_violated (ops : Ops Q) (c : Col) (op : LogOp) (v : Val) :
    ∃ a : SFilter Q, wrapFilter (.binary op (.col c) (.static v)) = .ok a ∧
      a.eqPred ops (.binary op (.col c) (.static v)) = true ∧
      predEqFilter (.binary op (.col c) (.static v)) a = false ∧
      a.hash ≠ exprHash ops (.binary op (.col c) (.static v)) := by
  refine ⟨_, (C124_wrap _ ⟨c, op, .one (.val v), _⟩).2
    ⟨isJoin_static_right _ _ _, rfl, .left _ (.col _) (.static _)⟩, ?_, rfl, ?_⟩
  · simp [SFilter.eqPred, exprEq]
  · simp [SFilter.hash, exprHash, FValue.key, Obj.key]

/-- Non-vacuity: two separately written, equal views of `R.a < 5`. -/
example (ops : Ops Q) : ∃ a : SFilter Q, wrapFilter (.binary .lt (.col colA) (.static (.num 5))) = .ok a ∧
    a.eqView ops a = true ∧ ∀ e vs, (Expr.binary .lt (.col colA) (.static (.num 5)) : Expr Q) ≠ .inP e vs := by
  refine ⟨_, (C124_wrap _ ⟨colA, .lt, .one (.val (.num 5)), _⟩).2
    ⟨isJoin_static_right _ _ _, rfl, .left _ (.col _) (.static _)⟩, ?_, ?_⟩
  · simp [SFilter.eqView, exprEq]
  · intro e vs h; cases h

/-! ### C128: predicates from plain values -/

/-- The expression a value stands for: expressions, columns and queries stand for themselves, other values for
constants. -/
inductive Stands : Item Q → Expr Q → Prop where
  | expr (e : Expr Q) : Stands (.expr e) e
  | col (c : Col) : Stands (.obj (.col c)) (.col c)
  | query (q : Q) : Stands (.query q) (.subq q)
  | val (v : Val) : v ≠ .str "*" → Stands (.obj (.val v)) (.static v)
  | all : Stands (.obj (.val (.str "*"))) (.star none)

theorem stands_asExpression (i : Item Q) : Stands i (asExpression i) := by
  cases i with
  | expr e => exact .expr e
  | query q => exact .query q
  | obj o =>
    cases o with
    | col c => exact .col c
    | val v =>
      by_cases h : v = .str "*"
      · subst h; exact .all
      · simp only [asExpression, h, if_false]; exact .val v h

theorem stands_unique {i : Item Q} {e e' : Expr Q} (h : Stands i e) (h' : Stands i e') : e = e' := by
  cases h <;> cases h' <;> first | rfl | (exact absurd rfl ‹_›)

theorem stands_iff (i : Item Q) (e : Expr Q) : Stands i e ↔ e = asExpression i :=
  ⟨fun h => stands_unique h (stands_asExpression i), fun h => h ▸ stands_asExpression i⟩

/-- **C128.** `as_predicate` for the operators other than BETWEEN and IN: exactly one further argument gives the
comparison of the column with it; any other number is a `ValueError`. -/
theorem C128_binary (c : Col) (op : LogOp) (h1 : op ≠ .between) (h2 : op ≠ .inOp) (is : List (Item Q)) (p : Expr Q) :
    (asPredicate c op (is.map .item) = .ok p ↔
      ∃ i e, is = [i] ∧ Stands i e ∧ p = .binary op (.col c) e) ∧
    (is.length ≠ 1 → asPredicate c op (is.map .item) = .error .value) := by
  simp only [asPredicate, h1, h2, if_false]
  match is with
  | [] => simp [asBinary]
  | [i] =>
    simp only [List.map_cons, List.map_nil, asBinary, wholeArg, Except.map]
    refine ⟨?_, by simp⟩
    constructor
    · intro h
      cases h
      exact ⟨i, _, rfl, stands_asExpression i, rfl⟩
    · rintro ⟨j, e, hj, hs, rfl⟩
      cases hj
      rw [(stands_iff _ _).1 hs]
  | i :: j :: is => simp [asBinary]

/-- **C128.** BETWEEN takes its bounds as two arguments (further ones are ignored) or as one pair; a sequence of a
different length or no argument at all is a `ValueError`. -/
theorem C128_between (c : Col) (l u : Item Q) (el eu : Expr Q) (hl : Stands l el) (hu : Stands u eu)
    (rest : List (Arg Q)) (is : List (Item Q)) :
    asPredicate c .between (.item l :: .item u :: rest) = .ok (.between (.col c) el eu) ∧
    asPredicate c .between [.seq [l, u]] = .ok (.between (.col c) el eu) ∧
    (is.length ≠ 2 → asPredicate c .between [.seq is] = .error .value) ∧
    asPredicate (Q := Q) c .between [] = .error .value := by
  rw [(stands_iff _ _).1 hl, (stands_iff _ _).1 hu]
  refine ⟨by simp [asPredicate, asBetween, wholeArg, Except.bind, Except.map], by simp [asPredicate, asBetween, boundsOne], ?_,
    by simp [asPredicate, asBetween]⟩
  intro h
  match is with
  | [] => simp [asPredicate, asBetween, boundsOne]
  | [_] => simp [asPredicate, asBetween, boundsOne]
  | [_, _] => simp at h
  | _ :: _ :: _ :: _ => simp [asPredicate, asBetween, boundsOne]

/-- The elements of the arguments of IN: single values, and the elements of lists. -/
inductive Elements : List (Arg Q) → List (Item Q) → Prop where
  | nil : Elements [] []
  | item {as : List (Arg Q)} {is : List (Item Q)} (i : Item Q) : Elements as is → Elements (.item i :: as) (i :: is)
  | seq {as : List (Arg Q)} {is : List (Item Q)} (js : List (Item Q)) :
      Elements as is → Elements (.seq js :: as) (js ++ is)

theorem elements_flatten (as : List (Arg Q)) : Elements as (flattenArgs as) := by
  induction as with
  | nil => exact .nil
  | cons a as ih => cases a <;> simp only [flattenArgs] <;> constructor <;> exact ih

theorem elements_unique {as : List (Arg Q)} {is : List (Item Q)} (h : Elements as is) : is = flattenArgs as := by
  induction h with
  | nil => rfl
  | item i _ ih => rw [ih]; rfl
  | seq js _ ih => rw [ih]; rfl

/-- **C128.** IN takes its values as arguments or as lists of values, in any mixture, and keeps their order; no value is
a `ValueError`. -/
theorem C128_in (c : Col) (as : List (Arg Q)) (is : List (Item Q)) (h : Elements as is) :
    (is ≠ [] → ∃ es, List.Forall₂ Stands is es ∧ asPredicate c .inOp as = .ok (.inP (.col c) es)) ∧
    (is = [] → asPredicate c .inOp as = .error .value) := by
  have hi := elements_unique h
  have hall : ∀ is : List (Item Q), List.Forall₂ Stands is (is.map asExpression) := by
    intro is
    induction is with
    | nil => exact .nil
    | cons i is ih => exact .cons (stands_asExpression i) ih
  constructor
  · intro hne
    refine ⟨_, hall is, ?_⟩
    cases is with
    | nil => exact absurd rfl hne
    | cons i is' => simp [asPredicate, mkIn, ← hi]
  · intro he
    simp [asPredicate, mkIn, ← hi, he]

/-- **C128.** The operator can be given by its name in any case, `!=` stands for `<>` and `==` for `=`; all other strings
are a `ValueError`. `up` is the conversion to upper case, which does not change `!=` and `==`. -/
theorem C128_operator (up : String → String) (s : String) (op : LogOp) :
    parseOp up s = some op ↔ (up s = "!=" ∧ op = .ne) ∨ (up s = "==" ∧ op = .eq) ∨ up s = opText op := by
  unfold parseOp
  generalize up s = x
  have hinj : ∀ a b : LogOp, opText a = opText b → a = b := by
    intro a b h
    cases a <;> cases b <;> first | rfl | (exact absurd h (by decide))
  have hmem : ∀ a : LogOp, a ∈ allOps := by intro a; cases a <;> simp [allOps]
  have hfind : ∀ y : String, ∀ o : LogOp, (allOps.find? fun op => opText op == y) = some o ↔ y = opText o := by
    intro y o
    constructor
    · intro h
      have := List.find?_some h
      exact (beq_iff_eq.1 this).symm
    · rintro rfl
      cases hf : allOps.find? fun op => opText op == opText o with
      | none =>
        rw [List.find?_eq_none] at hf
        exact absurd (hf o (hmem o)) (by simp)
      | some o' =>
        have := List.find?_some hf
        rw [hinj o' o (by simpa using this)]
  rw [hfind]
  have hne : ∀ o : LogOp, opText o ≠ "!=" ∧ opText o ≠ "==" := by intro o; cases o <;> decide
  by_cases h1 : x = "!="
  · subst h1
    simp only [opAlias, if_true]
    constructor
    · intro h
      exact .inl ⟨trivial, (hinj .ne op h).symm⟩
    · rintro (⟨-, rfl⟩ | ⟨h, -⟩ | h)
      · rfl
      · exact absurd h (by decide)
      · exact absurd h.symm (hne op).1
  · by_cases h2 : x = "=="
    · subst h2
      simp only [opAlias, h1, if_false, if_true]
      constructor
      · intro h
        exact .inr (.inl ⟨trivial, (hinj .eq op h).symm⟩)
      · rintro (⟨h, -⟩ | ⟨-, rfl⟩ | h)
        · exact absurd h (by decide)
        · rfl
        · exact absurd h.symm (hne op).2
    · simp only [opAlias, h1, h2, if_false, false_and, false_or]

/-- **C128 (partial).** Round trip: the filter view of `as_predicate(column, op, value)` consists of the same column,
operator and value. *Missing:* see `C128_star_violated`. -/
theorem C128_roundtrip_partial (c : Col) (op : LogOp) (h1 : op ≠ .between) (h2 : op ≠ .inOp) (v : Val)
    (hv : v ≠ .str "*") : ∃ (p : Expr Q) (w : SFilter Q), asPredicate c op [.item (.obj (.val v))] = .ok p ∧
      wrapFilter p = .ok w ∧ w.column = c ∧ w.op = op ∧ w.value = .one (.val v) := by
  refine ⟨.binary op (.col c) (.static v), ⟨c, op, .one (.val v), _⟩, ?_,
    (C124_wrap _ _).2 ⟨isJoin_static_right _ _ _, rfl, .left _ (.col _) (.static _)⟩, rfl, rfl, rfl⟩
  exact ((C128_binary c op h1 h2 [.obj (.val v)] _).1).2 ⟨_, _, rfl, .val v hv, rfl⟩

/-- **C128 (violated).** The comparison with the string `'*'` becomes the comparison with the star expression, which
cannot be represented by a view. -/
theorem C128_star_violated (c : Col) : ∃ p : Expr Q, asPredicate c .eq [.item (.obj (.val (.str "*")))] = .ok p ∧
    p = .binary .eq (.col c) (.star none) ∧ canWrapFilter p = false := by
  refine ⟨_, ((C128_binary c .eq (by decide) (by decide) [.obj (.val (.str "*"))] _).1).2 ⟨_, _, rfl, .all, rfl⟩, rfl, ?_⟩
  rw [← Bool.not_eq_true, C124_can_wrap]
  rintro ⟨w, hw⟩
  obtain ⟨-, -, hf⟩ := (C124_wrap _ _).1 hw
  generalize w.column = a at hf
  generalize w.op = b at hf
  generalize w.value = d at hf
  cases hf with
  | left op ha hb => cases hb
  | right op ha hb => cases ha

/-- **C128.** Two columns of different tables give an equi join whose view joins exactly them. -/
theorem C128_join (c d : Col) (s t : Tab) (hc : c.tab = some s) (hd : d.tab = some t) (hst : s ≠ t) :
    ∃ (p : Expr Q) (w : SJoin Q), asPredicate c .eq [.item (.obj (.col d))] = .ok p ∧ wrapJoin p = .ok w ∧
      w.lhs = c ∧ w.rhs = d := by
  refine ⟨.binary .eq (.col c) (.col d), ⟨c, d, _⟩, ?_,
    (C126_wrap _ _).2 ⟨rfl, (isJoin_cols _ _ _).2 ⟨s, t, hc, hd, hst⟩, _, _, rfl, .col _, .col _⟩, rfl, rfl⟩
  exact ((C128_binary c .eq (by decide) (by decide) [.obj (.col d)] _).1).2 ⟨_, _, rfl, .col d, rfl⟩

/-- Non-vacuity: `as_predicate(R.a, "in", [1, 2], 3)`. -/
example : Elements [Arg.seq [.obj (.val (.num 1)), .obj (.val (.num 2))], .item (.obj (.val (.num 3)))]
    ([.obj (.val (.num 1)), .obj (.val (.num 2))] ++ [.obj (.val (.num 3))] : List (Item Q)) :=
  .seq _ (.item _ .nil)
example : parseOp String.toUpper "not like" = some .notLike := by decide +kernel
example : parseOp String.toUpper "!=" = some .ne := by decide +kernel

/-! ### C129: all predicates of a query -/

theorem allJoins_true (ps : List (Expr Q)) (h : allJoins ps = .ok true) : ∀ p ∈ ps, ∃ v, wrapJoin p = .ok v := by
  induction ps with
  | nil => simp
  | cons p ps ih =>
    simp only [allJoins] at h
    cases hc : canWrapJoin p with
    | error e => simp [hc] at h
    | ok r =>
      cases r with
      | false => simp [hc] at h
      | true =>
        simp only [hc] at h
        intro q hq
        rcases List.mem_cons.1 hq with rfl | hq
        · exact ((C126_can_wrap_partial q).1 true hc).1 rfl
        · exact ih h q hq

theorem canWrapJoin_of_wrap (p : Expr Q) (v : SJoin Q) (h : wrapJoin p = .ok v) : canWrapJoin p = .ok true := by
  obtain ⟨-, hj, a, b, rfl, ha, hb⟩ := (C126_wrap p v).1 h
  simp [canWrapJoin, hj, (unwrap_iff _ _).2 ha, (unwrap_iff _ _).2 hb, bothColumns]

/-- **C129.** `all_simple` returns `True` exactly if every filter and every join of the predicates has a view. -/
theorem C129_all_simple (qp : QueryPreds Q) :
    allSimple qp = .ok true ↔
      (∀ p ∈ qp.filters, ∃ v, wrapFilter p = .ok v) ∧ ∀ p ∈ qp.joins, ∃ v, wrapJoin p = .ok v := by
  unfold allSimple
  constructor
  · intro h
    by_cases hf : qp.filters.all canWrapFilter = true
    · simp only [hf, Bool.not_true, Bool.false_eq_true, if_false] at h
      exact ⟨fun p hp => (C124_can_wrap p).1 (List.all_eq_true.1 hf p hp), allJoins_true _ h⟩
    · simp [hf] at h
  · rintro ⟨h1, h2⟩
    have hf : qp.filters.all canWrapFilter = true := List.all_eq_true.2 fun p hp => (C124_can_wrap p).2 (h1 p hp)
    simp only [hf, Bool.not_true, Bool.false_eq_true, if_false]
    clear h1 hf
    revert h2
    generalize qp.joins = js
    induction js with
    | nil => intro _; rfl
    | cons p ps ih =>
      intro h
      obtain ⟨v, hv⟩ := h p (by simp)
      simp only [allJoins, canWrapJoin_of_wrap p v hv]
      exact ih fun q hq => h q (by simp [hq])

/-- **C129.** If all predicates are simple, `simplify` provides one view for each of the filters and each of the joins,
in their order. -/
theorem C129_simplify (qp : QueryPreds Q) (h : allSimple qp = .ok true) :
    ∃ fs js, simplify qp = .ok (fs, js) ∧ (fs.map fun v => v.pred) = qp.filters ∧
      (js.map fun v => v.pred) = qp.joins ∧
      (∀ v ∈ fs, wrapFilter v.pred = .ok v) ∧ ∀ v ∈ js, wrapJoin v.pred = .ok v := by
  obtain ⟨h1, h2⟩ := (C129_all_simple qp).1 h
  obtain ⟨fs, f1, f2, f3⟩ := wrapAll_ok wrapFilter (fun v : SFilter Q => v.pred)
    (fun p v hv => ((C124_wrap p v).1 hv).2.1) qp.filters (by
      intro p hp e he
      obtain ⟨v, hv⟩ := h1 p hp
      rw [hv] at he; cases he)
  obtain ⟨js, j1, j2, j3⟩ := (C126_wrap_all qp.joins).2
  refine ⟨fs, js, ?_, ?_, ?_, f3, j3⟩
  · simp only [simplify, wrapAllFilters, f1, j1]
  · rw [f2, List.filter_eq_self]
    intro p hp
    obtain ⟨v, hv⟩ := h1 p hp
    simp [hv, isOk]
  · rw [j2, List.filter_eq_self]
    intro p hp
    obtain ⟨v, hv⟩ := h2 p hp
    simp [hv, isOk]

/-- **C129 (partial).** In general `simplify` drops exactly the predicates without a view, if no filter compares static
values only. *Missing:* see `C129_simplify_violated`. -/
theorem C129_simplify_partial (qp : QueryPreds Q) (h : ∀ p ∈ qp.filters, ¬ NoColumn p) :
    ∃ fs js, simplify qp = .ok (fs, js) ∧
      (∀ p, p ∈ fs.map (fun v => v.pred) ↔ p ∈ qp.filters ∧ ∃ v, wrapFilter p = .ok v) ∧
      (∀ p, p ∈ js.map (fun v => v.pred) ↔ p ∈ qp.joins ∧ ∃ v, wrapJoin p = .ok v) := by
  obtain ⟨fs, f1, f2, f3⟩ := C124_wrap_all_partial qp.filters h
  obtain ⟨js, j1, j2, j3⟩ := (C126_wrap_all qp.joins).2
  refine ⟨fs, js, by simp only [simplify, f1, j1], ?_, ?_⟩
  · intro p
    rw [f2, List.mem_filter, C124_can_wrap]
  · intro p
    rw [j2, List.mem_filter]
    cases hp : wrapJoin p <;> simp [isOk]

/-- **C129 (violated).** `simplify` raises an `AssertionError` if there is a filter such as `1 = 2`, and `all_simple`
raises a `ValueError` instead of returning `False` if there is an equi join with a computed first operand (and all
filters and the joins before it are simple). -/
theorem C129_simplify_violated (qp : QueryPreds Q) (p : Expr Q) (hp : p ∈ qp.filters) (hj : p.isJoin = false)
    (h : NoColumn p) : simplify qp = .error .assertion := by
  obtain ⟨as, bs, hab⟩ := List.append_of_mem hp
  have := (C124_wrap_all_violated as bs p hj h).2
  simp only [simplify, hab, this]

/-- **C129 (violated).** See `C129_simplify_violated`. -/
theorem C129_all_simple_violated (qp : QueryPreds Q) (a b : Expr Q) (js js' : List (Expr Q))
    (hjs : qp.joins = js ++ .binary .eq a b :: js') (hj : (Expr.binary .eq a b).isJoin = true) (ha : ∀ o, ¬ Plain a o)
    (hf : ∀ p ∈ qp.filters, ∃ v, wrapFilter p = .ok v) (hs : ∀ p ∈ js, ∃ v, wrapJoin p = .ok v) :
    allSimple qp = .error .value := by
  have hf' : qp.filters.all canWrapFilter = true := List.all_eq_true.2 fun p hp => (C124_can_wrap p).2 (hf p hp)
  simp only [allSimple, hf', Bool.not_true, Bool.false_eq_true, if_false, hjs]
  clear hjs
  induction js with
  | nil => simp [allJoins, C126_can_wrap_violated a b hj ha]
  | cons p ps ih =>
    obtain ⟨v, hv⟩ := hs p (by simp)
    simp only [List.cons_append, allJoins, canWrapJoin_of_wrap p v hv]
    exact ih fun q hq => hs q (by simp [hq])

/-- Non-vacuity: `1 = 2` is such a filter, and `f(R.a) = S.b` such a join. -/
example : NoColumn (Expr.binary .eq (.static (.num 1)) (.static (.num 2)) : Expr Q) ∧
    (Expr.binary .eq (.static (.num 1)) (.static (.num 2)) : Expr Q).isJoin = false := by
  refine ⟨.binary _ (.static _) (.static _), ?_⟩
  rw [← Bool.not_eq_true, binary_isJoin_card, baseTabs_static, baseTabs_static]
  simp
example : (∀ o, ¬ Plain (Expr.func "f" [.col colA] false none : Expr Q) o) ∧
    (Expr.binary .eq (.func "f" [.col colA] false none) (.col colS) : Expr Q).isJoin = true := by
  constructor
  · intro o h; cases h
  have h2 : (Expr.func "f" [.col colA] false none : Expr Q).baseTabs = tabSet colA.tab := by
    have : (Expr.func "f" [.col colA] false none : Expr Q).iterChildren = [.col colA] := by
      rw [iterChildren_eq]; simp [grandParts, directParts]
    have h3 : (Expr.col colA : Expr Q).collectBase = [.col colA] := by rw [collectBase_eq]; simp [isBaseExpr]
    simp only [baseTabs, baseCols]
    rw [collectBase_eq, if_neg (by simp [isBaseExpr]), this]
    simp [h3, colOf]
  rw [binary_isJoin_card, h2, baseTabs_col]
  decide

end PB.SimpleViewProps
