import Verif.Model.EqHash
import Verif.Props.Expr

/-! Properties of equality and hash values of queries (Verif.Model.EqHash). -/

set_option linter.unusedSimpArgs false
set_option linter.unusedVariables false
set_option linter.unusedSectionVars false
set_option linter.unnecessarySimpa false
set_option linter.unnecessarySeqFocus false

namespace PB.EqHashProps
open PB.Qal PB.EqHash
open PB.ExprProps (Sub)

variable {Q : Type}

/-! ### Vocabulary -/

/-- What is required of the parts of a query. -/
structure Rules (Q : Type) where
  node : Expr Q → Prop := fun _ => True
  sub : Q → Prop
  with_ : With Q → Prop := fun _ => True
  source : Source Q → Prop := fun _ => True
  explain : Explain → Prop := fun _ => True
  limit : Limit → Prop := fun _ => True
  sel : Sel Q → Prop := fun _ => True

/-- All parts of an expression follow the rules. -/
def ExprOk (R : Rules Q) (e : Expr Q) : Prop := ∀ s, Sub s e → R.node s ∧ ∀ q, s = .subq q → R.sub q

/-- All parts of a table source follow the rules. -/
def SourceOk (R : Rules Q) : Source Q → Prop
  | .table t => R.source (.table t)
  | .subquery q n l => R.source (.subquery q n l) ∧ R.sub q
  | .values rows t cs => R.source (.values rows t cs) ∧ ∀ row ∈ rows, ∀ e ∈ row, ExprOk R e
  | .func f n => R.source (.func f n) ∧ ExprOk R f
  | .join l r c ty => R.source (.join l r c ty) ∧ SourceOk R l ∧ SourceOk R r ∧ ∀ e, c = some e → ExprOk R e

/-- All parts of a WITH query follow the rules. -/
def WithOk (R : Rules Q) (w : With Q) : Prop :=
  R.with_ w ∧ (∀ q t m, w = .query q t m → R.sub q) ∧
    ∀ rows t cs m, w = .values rows t cs m → ∀ row ∈ rows, ∀ e ∈ row, ExprOk R e

/-- All parts of a plain query follow the rules. -/
structure SelOk (R : Rules Q) (s : Sel Q) : Prop where
  sel : R.sel s
  explain : ∀ e, s.explain = some e → R.explain e
  cte : ∀ c, s.cte = some c → ∀ w ∈ c.queries, WithOk R w
  targets : ∀ t ∈ s.select.targets, ExprOk R t.expr
  distinct : ∀ e ∈ s.select.cols, ExprOk R e
  src : ∀ f, s.src = some f → ∀ i ∈ f.items, SourceOk R i
  where_ : ∀ e, s.where_ = some e → ExprOk R e
  groupBy : ∀ g, s.groupBy = some g → ∀ e ∈ g.cols, ExprOk R e
  having_ : ∀ e, s.having_ = some e → ExprOk R e
  orderBy : ∀ o, s.orderBy = some o → ∀ i ∈ o, ExprOk R i.expr
  limit : ∀ l, s.limit = some l → R.limit l

/-- All parts of a query follow the rules. -/
def StmtOk (R : Rules Q) : Stmt Q → Prop
  | .sel s => SelOk R s
  | .set l r op c o m h e =>
    StmtOk R l ∧ StmtOk R r ∧ (∀ x, c = some x → ∀ w ∈ x.queries, WithOk R w) ∧
      (∀ x, o = some x → ∀ i ∈ x, ExprOk R i.expr) ∧ (∀ x, m = some x → R.limit x) ∧ ∀ x, e = some x → R.explain x

/-- A query of a given nesting depth all of whose parts follow the rules. -/
def Follows (R : ∀ {Q : Type}, (Q → Prop) → Rules Q) : (n : Nat) → QH n → Prop
  | 0, _ => True
  | n + 1, q => StmtOk (R (Follows R n)) q

/-- IN predicates have a single value. -/
def OneValue (e : Expr Q) : Prop := ∀ x vs, e = .inP x vs → vs.length = 1

/-- The rules that make hash values consistent: IN predicates have a single value, no LATERAL subqueries, no EXPLAIN
with an empty format, names of WITH queries are strings, and FETCH FIRST is the only direction. -/
def hashRules {Q : Type} (P : Q → Prop) : Rules Q where
  node := OneValue
  sub := P
  with_ := fun w => ∀ q t m, w = .query q t m → t.ref = none
  source := fun s => ∀ q n l, s = .subquery q n l → l = false
  explain := fun e => e.format ≠ some ""
  limit := fun l => l.dir = "first"

/-- The class of each query is the one that fits to the class of its FROM clause. -/
def Fitting (s : Sel Q) : Prop :=
  match s.src with
  | none => s.cls = .implicit
  | some ⟨.implicit, _⟩ => s.cls = .implicit
  | some ⟨.explicit, _⟩ => s.cls = .explicit
  | some ⟨.plain, _⟩ => s.cls = .mixed

/-- The rules that queries follow if they are built by `build_query`. -/
def builtRules {Q : Type} (P : Q → Prop) : Rules Q where
  sub := P
  sel := Fitting

/-- The rules of `hashRules` and `builtRules`, and no MATERIALIZED. -/
def plainRules {Q : Type} (P : Q → Prop) : Rules Q where
  node := OneValue
  sub := P
  with_ := fun w => (∀ q t m, w = .query q t m → t.ref = none ∧ m = none) ∧ ∀ r t c m, w = .values r t c m → m = none
  source := fun s => ∀ q n l, s = .subquery q n l → l = false
  explain := fun e => e.format ≠ some ""
  limit := fun l => l.dir = "first"
  sel := Fitting

/-! ### Keys, lists and options -/

mutual
theorem key_beq (a b : Key) : Key.beq a b = true ↔ a = b := by
  cases a <;> cases b <;> simp [Key.beq, key_beqL]
theorem key_beqL (a b : List Key) : Key.beqL a b = true ↔ a = b := by
  cases a <;> cases b <;> simp [Key.beqL, key_beq, key_beqL]
end

theorem exprHashL_eq (ops : Ops Q) (l : List (Expr Q)) : exprHashL ops l = l.map (exprHash ops) := by
  induction l with
  | nil => simp [exprHashL]
  | cons x xs ih => simp [exprHashL, ih]

theorem exprHashO_eq (ops : Ops Q) (o : Option (Expr Q)) : exprHashO ops o = Key.opt (exprHash ops) o := by
  cases o <;> simp [exprHashO, Key.opt]

theorem exprHashS_eq (ops : Ops Q) (o : Option (Expr Q)) : exprHashS ops o = o.toList.map (exprHash ops) := by
  cases o <;> simp [exprHashS]

theorem exprEqL_eq (ops : Ops Q) (a b : List (Expr Q)) : exprEqL ops a b = listEq (exprEq ops) a b := by
  induction a generalizing b with
  | nil => cases b <;> simp [exprEqL, listEq]
  | cons x xs ih => cases b <;> simp [exprEqL, listEq, ih]

theorem exprEqO_eq (ops : Ops Q) (a b : Option (Expr Q)) : exprEqO ops a b = optEq (exprEq ops) a b := by
  cases a <;> cases b <;> simp [exprEqO, optEq]

theorem allIn_iff (ops : Ops Q) (a b : List (Expr Q)) :
    allIn ops a b = true ↔ ∀ x ∈ a, ∃ y ∈ b, exprEq ops x y = true ∧ exprHash ops x = exprHash ops y := by
  induction a with
  | nil => simp [allIn]
  | cons x xs ih => simp [allIn, ih, key_beq]

theorem anyIn_iff (ops : Ops Q) (a : List (Expr Q)) (y : Expr Q) :
    anyIn ops a y = true ↔ ∃ x ∈ a, exprEq ops x y = true ∧ exprHash ops x = exprHash ops y := by
  induction a with
  | nil => simp [anyIn]
  | cons x xs ih => simp [anyIn, ih, key_beq]

section lists
variable {α : Type} {eq : α → α → Bool}

theorem listEq_refl {l : List α} (h : ∀ x ∈ l, eq x x = true) : listEq eq l l = true := by
  induction l with
  | nil => rfl
  | cons x xs ih => simp_all [listEq]

theorem listEq_trans {a b c : List α} (h : ∀ x ∈ a, ∀ y z, eq x y = true → eq y z = true → eq x z = true)
    (h1 : listEq eq a b = true) (h2 : listEq eq b c = true) : listEq eq a c = true := by
  induction a generalizing b c with
  | nil => cases b <;> cases c <;> simp_all [listEq]
  | cons x xs ih =>
    cases b with
    | nil => simp [listEq] at h1
    | cons y ys =>
      cases c with
      | nil => simp [listEq] at h2
      | cons z zs =>
        simp only [listEq, Bool.and_eq_true] at h1 h2 ⊢
        exact ⟨h x (by simp) y z h1.1 h2.1, ih (fun u hu => h u (by simp [hu])) h1.2 h2.2⟩

theorem listEq_symm {a b : List α} (h : ∀ x ∈ a, ∀ y ∈ b, eq x y = true → eq y x = true)
    (h1 : listEq eq a b = true) : listEq eq b a = true := by
  induction a generalizing b with
  | nil => cases b <;> simp_all [listEq]
  | cons x xs ih =>
    cases b with
    | nil => simp [listEq] at h1
    | cons y ys =>
      simp only [listEq, Bool.and_eq_true] at h1 ⊢
      exact ⟨h x (by simp) y (by simp) h1.1, ih (fun u hu v hv => h u (by simp [hu]) v (by simp [hv])) h1.2⟩

theorem listEq_iff {a b : List α} (h : ∀ x ∈ a, ∀ y ∈ b, (eq x y = true ↔ x = y)) :
    listEq eq a b = true ↔ a = b := by
  induction a generalizing b with
  | nil => cases b <;> simp [listEq]
  | cons x xs ih =>
    cases b with
    | nil => simp [listEq]
    | cons y ys =>
      simp only [listEq, Bool.and_eq_true, List.cons.injEq]
      rw [h x (by simp) y (by simp), ih (fun u hu v hv => h u (by simp [hu]) v (by simp [hv]))]

theorem listEq_hash {β : Type} {f : α → β} {a b : List α} (h : ∀ x ∈ a, ∀ y ∈ b, eq x y = true → f x = f y)
    (h1 : listEq eq a b = true) : a.map f = b.map f := by
  induction a generalizing b with
  | nil => cases b <;> simp_all [listEq]
  | cons x xs ih =>
    cases b with
    | nil => simp [listEq] at h1
    | cons y ys =>
      simp only [listEq, Bool.and_eq_true] at h1
      simp [h x (by simp) y (by simp) h1.1, ih (fun u hu v hv => h u (by simp [hu]) v (by simp [hv])) h1.2]

theorem listEq_length {a b : List α} (h : listEq eq a b = true) : a.length = b.length := by
  induction a generalizing b with
  | nil => cases b <;> simp_all [listEq]
  | cons x xs ih =>
    cases b with
    | nil => simp [listEq] at h
    | cons y ys => simp only [listEq, Bool.and_eq_true] at h; simp [ih h.2]

theorem optEq_refl {o : Option α} (h : ∀ x ∈ o.toList, eq x x = true) : optEq eq o o = true := by
  cases o <;> simp_all [optEq]

theorem optEq_trans {a b c : Option α} (h : ∀ x ∈ a.toList, ∀ y z, eq x y = true → eq y z = true → eq x z = true)
    (h1 : optEq eq a b = true) (h2 : optEq eq b c = true) : optEq eq a c = true := by
  cases a <;> cases b <;> cases c <;> simp_all [optEq]
  exact h _ _ h1 h2

theorem optEq_symm {a b : Option α} (h : ∀ x ∈ a.toList, ∀ y ∈ b.toList, eq x y = true → eq y x = true)
    (h1 : optEq eq a b = true) : optEq eq b a = true := by
  cases a <;> cases b <;> simp_all [optEq]

theorem optEq_iff {a b : Option α} (h : ∀ x ∈ a.toList, ∀ y ∈ b.toList, (eq x y = true ↔ x = y)) :
    optEq eq a b = true ↔ a = b := by
  cases a <;> cases b <;> simp_all [optEq]

theorem optEq_hash {f : α → Key} {a b : Option α} (h : ∀ x ∈ a.toList, ∀ y ∈ b.toList, eq x y = true → f x = f y)
    (h1 : optEq eq a b = true) : Key.opt f a = Key.opt f b := by
  cases a <;> cases b <;> simp_all [optEq, Key.opt]

end lists

/-! ### Expressions -/

theorem exprOk_iff (R : Rules Q) (e : Expr Q) :
    ExprOk R e ↔ (R.node e ∧ ∀ q, e = .subq q → R.sub q) ∧ ∀ c ∈ e.subs, ExprOk R c := by
  constructor
  · exact fun h => ⟨h e (.refl e), fun c hc s hs => h s (.step hc hs)⟩
  · rintro ⟨h1, h2⟩ s (_ | ⟨hm, hs⟩)
    · exact h1
    · exact h2 _ hm _ hs

theorem exprEq_refl {ops : Ops Q} (hq : ∀ q, ops.eq q q = true) (a : Expr Q) : exprEq ops a a = true := by
  induction a using Expr.ind with
  | h a ih =>
    cases a <;> simp only [exprEq, Expr.subs, exprEqL_eq, exprEqO_eq, Bool.and_eq_true, beq_iff_eq, List.mem_append, List.mem_cons, List.not_mem_nil,
      or_false, List.all_eq_true, allIn_iff, anyIn_iff] at ih ⊢
    case subq => exact hq _
    case inP e vs =>
      exact ⟨⟨ih _ (.inl rfl), fun x hx => ⟨x, hx, ih x (.inr hx), rfl⟩⟩, fun x hx => ⟨x, hx, ih x (.inr hx), rfl⟩⟩
    all_goals (repeat' apply And.intro) <;> first
      | trivial
      | exact listEq_refl (fun x hx => ih x (by tauto))
      | exact optEq_refl (fun x hx => ih x (by tauto))
      | exact ih _ (by tauto)

theorem exprEq_trans {ops : Ops Q} (hq : ∀ p q r, ops.eq p q = true → ops.eq q r = true → ops.eq p r = true)
    (a b c : Expr Q) (h1 : exprEq ops a b = true) (h2 : exprEq ops b c = true) : exprEq ops a c = true := by
  induction a using Expr.ind generalizing b c with
  | h a ih =>
    cases a <;> cases b <;> simp only [exprEq, Bool.false_eq_true] at h1 <;> cases c <;>
      simp only [exprEq, Bool.false_eq_true] at h2 <;>
      simp only [exprEq, Expr.subs, exprEqL_eq, exprEqO_eq, Bool.and_eq_true, beq_iff_eq, List.mem_append,
        List.mem_cons, List.not_mem_nil, or_false, List.all_eq_true, allIn_iff, anyIn_iff] at ih h1 h2 ⊢
    case subq => exact hq _ _ _ h1 h2
    case inP =>
      obtain ⟨⟨h1, h3⟩, h4⟩ := h1
      obtain ⟨⟨h2, h5⟩, h6⟩ := h2
      refine ⟨⟨ih _ (.inl rfl) _ _ h1 h2, fun x hx => ?_⟩, fun z hz => ?_⟩
      · obtain ⟨y, hy, e1, k1⟩ := h3 x hx
        obtain ⟨z, hz, e2, k2⟩ := h5 y hy
        exact ⟨z, hz, ih x (.inr hx) _ _ e1 e2, k1.trans k2⟩
      · obtain ⟨y, hy, e1, k1⟩ := h6 z hz
        obtain ⟨x, hx, e2, k2⟩ := h4 y hy
        exact ⟨x, hx, ih x (.inr hx) _ _ e2 e1, k2.trans k1⟩
    all_goals (repeat' apply And.intro) <;> first
      | exact Eq.trans (by tauto) (by tauto)
      | exact listEq_trans (fun x hx => ih x (by tauto)) (by tauto) (by tauto)
      | exact optEq_trans (fun x hx => ih x (by tauto)) (by tauto) (by tauto)
      | exact ih _ (by tauto) _ _ (by tauto) (by tauto)

theorem exprEq_symm {ops : Ops Q} {R : Rules Q}
    (hq : ∀ p q, R.sub p → R.sub q → ops.eq p q = true → ops.eq q p = true)
    (a b : Expr Q) (ha : ExprOk R a) (hb : ExprOk R b) (h1 : exprEq ops a b = true) : exprEq ops b a = true := by
  induction a using Expr.ind generalizing b with
  | h a ih =>
    rw [exprOk_iff] at ha hb
    cases a <;> cases b <;> simp only [exprEq, Bool.false_eq_true] at h1 <;>
      simp only [exprEq, Expr.subs, exprEqL_eq, exprEqO_eq, Bool.and_eq_true, beq_iff_eq, List.mem_append,
        List.mem_cons, List.not_mem_nil, or_false, List.all_eq_true, allIn_iff, anyIn_iff] at ih ha hb h1 ⊢
    case subq => exact hq _ _ (ha.1.2 _ rfl) (hb.1.2 _ rfl) h1
    case inP =>
      obtain ⟨⟨h1, h3⟩, h4⟩ := h1
      refine ⟨⟨ih _ (.inl rfl) _ (ha.2 _ (.inl rfl)) (hb.2 _ (.inl rfl)) h1, fun x hx => ?_⟩, fun z hz => ?_⟩
      · obtain ⟨y, hy, e1, k1⟩ := h4 x hx
        exact ⟨y, hy, ih y (.inr hy) _ (ha.2 _ (.inr hy)) (hb.2 _ (.inr hx)) e1, k1.symm⟩
      · obtain ⟨y, hy, e1, k1⟩ := h3 z hz
        exact ⟨y, hy, ih z (.inr hz) _ (ha.2 _ (.inr hz)) (hb.2 _ (.inr hy)) e1, k1.symm⟩
    all_goals (repeat' apply And.intro) <;> first
      | exact Eq.symm (by tauto)
      | exact listEq_symm (fun x hx y hy => ih x (by tauto) y (ha.2 x (by tauto)) (hb.2 y (by tauto))) (by tauto)
      | exact optEq_symm (fun x hx y hy => ih x (by tauto) y (ha.2 x (by tauto)) (hb.2 y (by tauto))) (by tauto)
      | exact ih _ (by tauto) _ (ha.2 _ (by tauto)) (hb.2 _ (by tauto)) (by tauto)

theorem exprEq_iff {ops : Ops Q} {R : Rules Q} (h1 : ∀ e, R.node e → OneValue e)
    (hq : ∀ p q, R.sub p → R.sub q → (ops.eq p q = true ↔ p = q))
    (a b : Expr Q) (ha : ExprOk R a) (hb : ExprOk R b) : exprEq ops a b = true ↔ a = b := by
  induction a using Expr.ind generalizing b with
  | h a ih =>
    rw [exprOk_iff] at ha hb
    have L : ∀ (as bs : List (Expr Q)), (∀ x ∈ as, x ∈ a.subs) → (∀ y ∈ bs, y ∈ b.subs) →
        (listEq (exprEq ops) as bs = true ↔ as = bs) := fun as bs h h' =>
      listEq_iff (fun x hx y hy => ih x (h x hx) y (ha.2 x (h x hx)) (hb.2 y (h' y hy)))
    have O : ∀ (as bs : Option (Expr Q)), (∀ x ∈ as.toList, x ∈ a.subs) → (∀ y ∈ bs.toList, y ∈ b.subs) →
        (optEq (exprEq ops) as bs = true ↔ as = bs) := fun as bs h h' =>
      optEq_iff (fun x hx y hy => ih x (h x hx) y (ha.2 x (h x hx)) (hb.2 y (h' y hy)))
    have E : ∀ x y, x ∈ a.subs → y ∈ b.subs → (exprEq ops x y = true ↔ x = y) := fun x y h h' =>
      ih x h y (ha.2 x h) (hb.2 y h')
    cases a <;> cases b <;>
      simp only [exprEq, Bool.false_eq_true, exprEqL_eq, exprEqO_eq, Bool.and_eq_true, beq_iff_eq,
        List.all_eq_true, allIn_iff, anyIn_iff, reduceCtorEq]
    case subq => rw [hq _ _ (ha.1.2 _ rfl) (hb.1.2 _ rfl)]; simp
    case inP e vs e' vs' =>
      have s1 : vs.length = 1 := h1 _ ha.1.1 _ _ rfl
      have s2 : vs'.length = 1 := h1 _ hb.1.1 _ _ rfl
      obtain ⟨v, rfl⟩ := List.length_eq_one_iff.1 s1
      obtain ⟨v', rfl⟩ := List.length_eq_one_iff.1 s2
      rw [E e e' (by simp [Expr.subs]) (by simp [Expr.subs])]
      have := E v v' (by simp [Expr.subs]) (by simp [Expr.subs])
      simp only [List.mem_singleton, forall_eq, exists_eq_left, this, Expr.inP.injEq, List.cons.injEq, and_true]
      constructor
      · tauto
      · rintro ⟨rfl, rfl⟩
        simp
    all_goals
      repeat rw [L _ _ (fun x hx => by
        simp only [Expr.subs, List.mem_append, List.mem_cons, List.not_mem_nil, or_false]; tauto) (fun x hx => by
        simp only [Expr.subs, List.mem_append, List.mem_cons, List.not_mem_nil, or_false]; tauto)]
      repeat rw [O _ _ (fun x hx => by
        simp only [Expr.subs, List.mem_append, List.mem_cons, List.not_mem_nil, or_false]; tauto) (fun x hx => by
        simp only [Expr.subs, List.mem_append, List.mem_cons, List.not_mem_nil, or_false]; tauto)]
      repeat rw [E _ _ (by simp [Expr.subs]) (by simp [Expr.subs])]
    all_goals (constructor <;> intro h)
    all_goals first
      | exact h
      | (simp only [Expr.static.injEq, Expr.star.injEq, Expr.col.injEq, Expr.cast.injEq, Expr.math.injEq, Expr.func.injEq, Expr.array.injEq,
          Expr.arrGet.injEq, Expr.window.injEq, Expr.case.injEq, Expr.quant.injEq, Expr.binary.injEq,
          Expr.between.injEq, Expr.unary.injEq, Expr.compound.injEq] at h ⊢; tauto)

theorem exprEq_hash {ops : Ops Q} {R : Rules Q} (h1 : ∀ e, R.node e → OneValue e)
    (hq : ∀ p q, R.sub p → R.sub q → ops.eq p q = true → ops.hash p = ops.hash q)
    (a b : Expr Q) (ha : ExprOk R a) (hb : ExprOk R b) (h : exprEq ops a b = true) :
    exprHash ops a = exprHash ops b := by
  induction a using Expr.ind generalizing b with
  | h a ih =>
    rw [exprOk_iff] at ha hb
    cases a <;> cases b <;> simp only [exprEq, Bool.false_eq_true] at h <;>
      simp only [exprEq, exprHash, Expr.subs, exprEqL_eq, exprEqO_eq, Bool.and_eq_true, beq_iff_eq, List.mem_append,
        List.mem_cons, List.not_mem_nil, or_false, List.all_eq_true, allIn_iff, anyIn_iff, exprHashL_eq,
        exprHashO_eq, exprHashS_eq, Key.tup.injEq, List.cons.injEq, and_true, true_and, Key.val.injEq, Key.col.injEq,
        Key.math.injEq, Key.log.injEq, Key.str.injEq, Key.bool.injEq, Key.comp.injEq, Key.quant.injEq] at ih ha hb h ⊢
    case subq => exact hq _ _ (ha.1.2 _ rfl) (hb.1.2 _ rfl) h
    case inP e vs e' vs' =>
      have s1 : vs.length = 1 := h1 _ ha.1.1 _ _ rfl
      have s2 : vs'.length = 1 := h1 _ hb.1.1 _ _ rfl
      obtain ⟨v, rfl⟩ := List.length_eq_one_iff.1 s1
      obtain ⟨v', rfl⟩ := List.length_eq_one_iff.1 s2
      simp only [List.mem_singleton, forall_eq, exists_eq_left] at h
      simp [h.1.2.2, ih e (.inl rfl) e' (ha.2 _ (.inl rfl)) (hb.2 _ (.inl rfl)) h.1.1]
    case arrGet x i l u x' i' l' u' =>
      obtain ⟨⟨⟨g1, g2⟩, g3⟩, g4⟩ := h
      have O : ∀ {o o' : Option (Expr Q)}, (∀ y ∈ o.toList, y = x ∨ (y ∈ i.toList ∨ y ∈ l.toList) ∨ y ∈ u.toList) →
          (∀ y ∈ o'.toList, y = x' ∨ (y ∈ i'.toList ∨ y ∈ l'.toList) ∨ y ∈ u'.toList) →
          optEq (exprEq ops) o o' = true → o.toList.map (exprHash ops) = o'.toList.map (exprHash ops) := by
        intro o o' k k' he
        cases o <;> cases o' <;> simp only [optEq, Bool.false_eq_true] at he
        · rfl
        · simp only [Option.toList_some, List.mem_singleton, forall_eq] at k k'
          simp [ih _ k _ (ha.2 _ k) (hb.2 _ k') he]
      exact ⟨ih _ (.inl rfl) _ (ha.2 _ (.inl rfl)) (hb.2 _ (.inl rfl)) g1,
        by rw [O (by tauto) (by tauto) g2, O (by tauto) (by tauto) g3, O (by tauto) (by tauto) g4]⟩
    all_goals (repeat' apply And.intro) <;> first
      | tauto
      | exact listEq_hash (fun x hx y hy => ih x (by tauto) y (ha.2 x (by tauto)) (hb.2 y (by tauto))) (by tauto)
      | exact optEq_hash (fun x hx y hy => ih x (by tauto) y (ha.2 x (by tauto)) (hb.2 y (by tauto))) (by tauto)
      | exact ih _ (by tauto) _ (ha.2 _ (by tauto)) (hb.2 _ (by tauto)) (by tauto)

/-! ### Rows, WITH queries, sources -/

theorem rows_refl {ops : Ops Q} (hq : ∀ q, ops.eq q q = true) (r : List (List (Expr Q))) : rowsEq ops r r = true :=
  listEq_refl (fun x _ => by rw [exprEqL_eq]; exact listEq_refl (fun y _ => exprEq_refl hq y))

theorem rows_trans {ops : Ops Q} (hq : ∀ p q r, ops.eq p q = true → ops.eq q r = true → ops.eq p r = true)
    {a b c : List (List (Expr Q))} (h1 : rowsEq ops a b = true) (h2 : rowsEq ops b c = true) :
    rowsEq ops a c = true := by
  refine listEq_trans (fun x _ y z => ?_) h1 h2
  simp only [exprEqL_eq]
  exact listEq_trans (fun u _ v w => exprEq_trans hq u v w)

theorem rows_symm {ops : Ops Q} {R : Rules Q}
    (hq : ∀ p q, R.sub p → R.sub q → ops.eq p q = true → ops.eq q p = true) {a b : List (List (Expr Q))}
    (ha : ∀ row ∈ a, ∀ e ∈ row, ExprOk R e) (hb : ∀ row ∈ b, ∀ e ∈ row, ExprOk R e) (h1 : rowsEq ops a b = true) :
    rowsEq ops b a = true := by
  refine listEq_symm (fun x hx y hy => ?_) h1
  simp only [exprEqL_eq]
  exact listEq_symm (fun u hu v hv => exprEq_symm hq u v (ha x hx u hu) (hb y hy v hv))

theorem rows_iff {ops : Ops Q} {R : Rules Q} (h1 : ∀ e, R.node e → OneValue e)
    (hq : ∀ p q, R.sub p → R.sub q → (ops.eq p q = true ↔ p = q)) {a b : List (List (Expr Q))}
    (ha : ∀ row ∈ a, ∀ e ∈ row, ExprOk R e) (hb : ∀ row ∈ b, ∀ e ∈ row, ExprOk R e) :
    rowsEq ops a b = true ↔ a = b := by
  refine listEq_iff (fun x hx y hy => ?_)
  simp only [exprEqL_eq]
  exact listEq_iff (fun u hu v hv => exprEq_iff h1 hq u v (ha x hx u hu) (hb y hy v hv))

theorem rows_hash {ops : Ops Q} {R : Rules Q} (h1 : ∀ e, R.node e → OneValue e)
    (hq : ∀ p q, R.sub p → R.sub q → ops.eq p q = true → ops.hash p = ops.hash q) {a b : List (List (Expr Q))}
    (ha : ∀ row ∈ a, ∀ e ∈ row, ExprOk R e) (hb : ∀ row ∈ b, ∀ e ∈ row, ExprOk R e) (h : rowsEq ops a b = true) :
    rowsHash ops a = rowsHash ops b := by
  simp only [rowsHash, Key.tup.injEq]
  refine listEq_hash (fun x hx y hy he => ?_) h
  rw [exprEqL_eq] at he
  simp only [Key.tup.injEq]
  exact listEq_hash (fun u hu v hv => exprEq_hash h1 hq u v (ha x hx u hu) (hb y hy v hv)) he

theorem source_refl {ops : Ops Q} (hq : ∀ q, ops.eq q q = true) (s : Source Q) : s.eq ops s = true := by
  induction s with
  | table | subquery => simp [Source.eq, hq]
  | values => simp [Source.eq, rows_refl hq]
  | func => simp [Source.eq, exprEq_refl hq]
  | join l r c ty ihl ihr =>
    simp only [Source.eq, ihl, ihr, Bool.and_eq_true, beq_self_eq_true, and_true, true_and]
    exact optEq_refl (fun x _ => exprEq_refl hq x)

theorem source_trans {ops : Ops Q} (hq : ∀ p q r, ops.eq p q = true → ops.eq q r = true → ops.eq p r = true)
    (a b c : Source Q) (h1 : a.eq ops b = true) (h2 : b.eq ops c = true) : a.eq ops c = true := by
  induction a generalizing b c with
  | table =>
    cases b <;> simp only [Source.eq, Bool.false_eq_true] at h1 <;> cases c <;>
      simp only [Source.eq, Bool.false_eq_true, beq_iff_eq] at h1 h2 ⊢
    exact h1.trans h2
  | subquery =>
    cases b <;> simp only [Source.eq, Bool.false_eq_true] at h1 <;> cases c <;>
      simp only [Source.eq, Bool.false_eq_true, Bool.and_eq_true, beq_iff_eq] at h1 h2 ⊢
    exact ⟨hq _ _ _ h1.1 h2.1, h1.2.trans h2.2⟩
  | values =>
    cases b <;> simp only [Source.eq, Bool.false_eq_true] at h1 <;> cases c <;>
      simp only [Source.eq, Bool.false_eq_true, Bool.and_eq_true, beq_iff_eq] at h1 h2 ⊢
    exact ⟨⟨h1.1.1.trans h2.1.1, h1.1.2.trans h2.1.2⟩, rows_trans hq h1.2 h2.2⟩
  | func =>
    cases b <;> simp only [Source.eq, Bool.false_eq_true] at h1 <;> cases c <;>
      simp only [Source.eq, Bool.false_eq_true, Bool.and_eq_true, beq_iff_eq] at h1 h2 ⊢
    exact ⟨exprEq_trans hq _ _ _ h1.1 h2.1, h1.2.trans h2.2⟩
  | join l r c ty ihl ihr =>
    cases b <;> simp only [Source.eq, Bool.false_eq_true] at h1 <;> cases c <;>
      simp only [Source.eq, Bool.false_eq_true, Bool.and_eq_true, beq_iff_eq] at h1 h2 ⊢
    exact ⟨⟨⟨ihl _ _ h1.1.1.1 h2.1.1.1, ihr _ _ h1.1.1.2 h2.1.1.2⟩,
      optEq_trans (fun x _ => exprEq_trans hq x) h1.1.2 h2.1.2⟩, h1.2.trans h2.2⟩

theorem source_symm {ops : Ops Q} {R : Rules Q}
    (hq : ∀ p q, R.sub p → R.sub q → ops.eq p q = true → ops.eq q p = true)
    (a b : Source Q) (ha : SourceOk R a) (hb : SourceOk R b) (h1 : a.eq ops b = true) : b.eq ops a = true := by
  induction a generalizing b with
  | table => cases b <;> simp_all [Source.eq]
  | subquery =>
    cases b <;> simp only [Source.eq, Bool.false_eq_true, Bool.and_eq_true, beq_iff_eq, SourceOk] at h1 ha hb ⊢
    exact ⟨hq _ _ ha.2 hb.2 h1.1, h1.2.symm⟩
  | values =>
    cases b <;> simp only [Source.eq, Bool.false_eq_true, Bool.and_eq_true, beq_iff_eq, SourceOk] at h1 ha hb ⊢
    exact ⟨⟨h1.1.1.symm, h1.1.2.symm⟩, rows_symm hq ha.2 hb.2 h1.2⟩
  | func =>
    cases b <;> simp only [Source.eq, Bool.false_eq_true, Bool.and_eq_true, beq_iff_eq, SourceOk] at h1 ha hb ⊢
    exact ⟨exprEq_symm hq _ _ ha.2 hb.2 h1.1, h1.2.symm⟩
  | join l r c ty ihl ihr =>
    cases b <;> simp only [Source.eq, Bool.false_eq_true, Bool.and_eq_true, beq_iff_eq, SourceOk] at h1 ha hb ⊢
    exact ⟨⟨⟨ihl _ ha.2.1 hb.2.1 h1.1.1.1, ihr _ ha.2.2.1 hb.2.2.1 h1.1.1.2⟩,
      optEq_symm (fun x hx y hy => exprEq_symm hq x y (ha.2.2.2 x (by simpa using hx)) (hb.2.2.2 y (by simpa using hy)))
        h1.1.2⟩, h1.2.symm⟩

theorem source_iff {ops : Ops Q} {R : Rules Q} (h1 : ∀ e, R.node e → OneValue e)
    (h2 : ∀ s, R.source s → ∀ q n l, s = .subquery q n l → l = false)
    (hq : ∀ p q, R.sub p → R.sub q → (ops.eq p q = true ↔ p = q))
    (a b : Source Q) (ha : SourceOk R a) (hb : SourceOk R b) : a.eq ops b = true ↔ a = b := by
  induction a generalizing b with
  | table => cases b <;> simp [Source.eq]
  | subquery =>
    cases b <;> simp only [Source.eq, Bool.false_eq_true, Bool.and_eq_true, beq_iff_eq, SourceOk, reduceCtorEq,
      Source.subquery.injEq] at ha hb ⊢
    have e1 := h2 _ ha.1 _ _ _ rfl
    have e2 := h2 _ hb.1 _ _ _ rfl
    rw [hq _ _ ha.2 hb.2]
    simp [e1, e2]
  | values =>
    cases b <;> simp only [Source.eq, Bool.false_eq_true, Bool.and_eq_true, beq_iff_eq, SourceOk, reduceCtorEq,
      Source.values.injEq] at ha hb ⊢
    rw [rows_iff h1 hq ha.2 hb.2]
    tauto
  | func =>
    cases b <;> simp only [Source.eq, Bool.false_eq_true, Bool.and_eq_true, beq_iff_eq, SourceOk, reduceCtorEq,
      Source.func.injEq] at ha hb ⊢
    rw [exprEq_iff h1 hq _ _ ha.2 hb.2]
  | join l r c ty ihl ihr =>
    cases b <;> simp only [Source.eq, Bool.false_eq_true, Bool.and_eq_true, beq_iff_eq, SourceOk, reduceCtorEq,
      Source.join.injEq] at ha hb ⊢
    rw [ihl _ ha.2.1 hb.2.1, ihr _ ha.2.2.1 hb.2.2.1, optEq_iff (fun x hx y hy => exprEq_iff h1 hq x y
      (ha.2.2.2 x (by simpa using hx)) (hb.2.2.2 y (by simpa using hy)))]
    tauto

theorem source_hash {ops : Ops Q} {R : Rules Q} (h1 : ∀ e, R.node e → OneValue e)
    (h2 : ∀ s, R.source s → ∀ q n l, s = .subquery q n l → l = false)
    (hq : ∀ p q, R.sub p → R.sub q → ops.eq p q = true → ops.hash p = ops.hash q)
    (a b : Source Q) (ha : SourceOk R a) (hb : SourceOk R b) (h : a.eq ops b = true) : a.hash ops = b.hash ops := by
  induction a generalizing b with
  | table => cases b <;> simp_all [Source.eq]
  | subquery =>
    cases b <;> simp only [Source.eq, Bool.false_eq_true, Bool.and_eq_true, beq_iff_eq, SourceOk] at ha hb h
    have e1 := h2 _ ha.1 _ _ _ rfl
    have e2 := h2 _ hb.1 _ _ _ rfl
    simp [Source.hash, hq _ _ ha.2 hb.2 h.1, h.2, e1, e2]
  | values =>
    cases b <;> simp only [Source.eq, Bool.false_eq_true, Bool.and_eq_true, beq_iff_eq, SourceOk] at ha hb h
    simp [Source.hash, h.1.1, h.1.2, rows_hash h1 hq ha.2 hb.2 h.2]
  | func =>
    cases b <;> simp only [Source.eq, Bool.false_eq_true, Bool.and_eq_true, beq_iff_eq, SourceOk] at ha hb h
    simp [Source.hash, h.2, exprEq_hash h1 hq _ _ ha.2 hb.2 h.1]
  | join l r c ty ihl ihr =>
    cases b <;> simp only [Source.eq, Bool.false_eq_true, Bool.and_eq_true, beq_iff_eq, SourceOk] at ha hb h
    simp [Source.hash, h.2, ihl _ ha.2.1 hb.2.1 h.1.1.1, ihr _ ha.2.2.1 hb.2.2.1 h.1.1.2,
      optEq_hash (fun x hx y hy => exprEq_hash h1 hq x y (ha.2.2.2 x (by simpa using hx))
        (hb.2.2.2 y (by simpa using hy))) h.1.2]

/-! ### Clauses -/

/-- The position of a clause in a plain query. -/
def rank : Clause Q → Nat
  | .hint _ => 0
  | .explain _ => 1
  | .cte _ => 2
  | .select _ => 3
  | .src _ => 4
  | .where_ _ => 5
  | .groupBy _ => 6
  | .having_ _ => 7
  | .orderBy _ => 8
  | .limit _ => 9
  | .union .. => 10
  | .except .. => 11
  | .intersect .. => 12

theorem clauseEq_rank {ops : Ops Q} {a b : Clause Q} (h : clauseEq ops a b = true) : rank a = rank b := by
  cases a <;> cases b <;> simp_all [clauseEq, rank]

theorem align {eq : Clause Q → Clause Q → Bool} (heq : ∀ a b, eq a b = true → rank a = rank b) (r : Nat)
    {o o' : Option (Clause Q)} {l l' : List (Option (Clause Q))}
    (ho : ∀ x, o = some x → rank x = r) (ho' : ∀ x, o' = some x → rank x = r)
    (hl : ∀ x, some x ∈ l → r < rank x) (hl' : ∀ x, some x ∈ l' → r < rank x) :
    listEq eq ((o :: l).filterMap id) ((o' :: l').filterMap id) = true ↔
      optEq eq o o' = true ∧ listEq eq (l.filterMap id) (l'.filterMap id) = true := by
  have key : ∀ (m : List (Option (Clause Q))) x ys, (∀ x, some x ∈ m → r < rank x) →
      m.filterMap id = x :: ys → rank x ≠ r := by
    intro m x ys hm he
    have : x ∈ m.filterMap id := by rw [he]; exact List.mem_cons_self
    obtain ⟨y, hy, rfl⟩ := List.mem_filterMap.1 this
    have := hm x hy
    omega
  cases o with
  | none =>
    cases o' with
    | none => simp [optEq]
    | some y =>
      simp only [optEq, Bool.false_eq_true, false_and, iff_false]
      intro h
      change listEq eq (l.filterMap id) (y :: l'.filterMap id) = true at h
      cases e : l.filterMap id with
      | nil => rw [e] at h; simp [listEq] at h
      | cons x xs =>
        rw [e] at h
        simp only [listEq, Bool.and_eq_true] at h
        exact key l x xs hl e ((heq _ _ h.1).trans (ho' y rfl))
  | some x =>
    cases o' with
    | none =>
      simp only [optEq, Bool.false_eq_true, false_and, iff_false]
      intro h
      change listEq eq (x :: l.filterMap id) (l'.filterMap id) = true at h
      cases e : l'.filterMap id with
      | nil => rw [e] at h; simp [listEq] at h
      | cons y ys =>
        rw [e] at h
        simp only [listEq, Bool.and_eq_true] at h
        exact key l' y ys hl' e ((heq _ _ h.1).symm.trans (ho x rfl))
    | some y => simp [optEq, listEq]

/-- The optional clauses have consecutive positions. -/
def Ranked : Nat → List (Option (Clause Q)) → Prop
  | _, [] => True
  | r, o :: l => (∀ x, o = some x → rank x = r) ∧ Ranked (r + 1) l

theorem ranked_le {r : Nat} {l : List (Option (Clause Q))} (h : Ranked r l) (x : Clause Q) (hx : some x ∈ l) :
    r ≤ rank x := by
  induction l generalizing r with
  | nil => simp at hx
  | cons o l ih =>
    rcases List.mem_cons.1 hx with e | e
    · exact (h.1 x e.symm).ge
    · have := ih h.2 e; omega

/-- Comparison of two lists of optional clauses position by position. -/
def optsEq (eq : Clause Q → Clause Q → Bool) : List (Option (Clause Q)) → List (Option (Clause Q)) → Prop
  | [], [] => True
  | o :: l, o' :: l' => optEq eq o o' = true ∧ optsEq eq l l'
  | _, _ => False

theorem align_all {eq : Clause Q → Clause Q → Bool} (heq : ∀ a b, eq a b = true → rank a = rank b) (r : Nat)
    {l l' : List (Option (Clause Q))} (hl : Ranked r l) (hl' : Ranked r l') (hn : l.length = l'.length) :
    listEq eq (l.filterMap id) (l'.filterMap id) = true ↔ optsEq eq l l' := by
  induction l generalizing r l' with
  | nil => cases l' <;> simp_all [listEq, optsEq]
  | cons o l ih =>
    cases l' with
    | nil => simp at hn
    | cons o' l' =>
      rw [align heq r hl.1 hl'.1 (fun x hx => by have := ranked_le hl.2 x hx; omega)
        (fun x hx => by have := ranked_le hl'.2 x hx; omega), ih (r + 1) hl.2 hl'.2 (by simpa using hn)]
      rfl

theorem optEq_map {α : Type} (ops : Ops Q) (f : α → Clause Q) (eq : α → α → Bool)
    (h : ∀ a b, clauseEq ops (f a) (f b) = eq a b) (a b : Option α) :
    optEq (clauseEq ops) (a.map f) (b.map f) = optEq eq a b := by
  cases a <;> cases b <;> simp [optEq, h]

theorem sel_eq (ops : Ops Q) (a b : Sel Q) : a.eq ops b = true ↔
    a.cls.covers b.cls = true ∧ optEq (· == ·) a.hints b.hints = true ∧ optEq Explain.eq a.explain b.explain = true ∧
    optEq (Cte.eq ops) a.cte b.cte = true ∧ a.select.eq ops b.select = true ∧ optEq (From.eq ops) a.src b.src = true ∧
    optEq (exprEq ops) a.where_ b.where_ = true ∧ optEq (GroupBy.eq ops) a.groupBy b.groupBy = true ∧
    optEq (exprEq ops) a.having_ b.having_ = true ∧ optEq (listEq (OrderItem.eq ops)) a.orderBy b.orderBy = true ∧
    optEq Limit.eq a.limit b.limit = true := by
  unfold Sel.eq Sel.clauses
  rw [Bool.and_eq_true, align_all (fun _ _ h => clauseEq_rank h) 0 (by
    simp only [Ranked, Option.map_eq_some_iff, forall_exists_index, and_imp, and_true, Option.some.injEq]
    refine ⟨?_, ?_, ?_, ?_, ?_, ?_, ?_, ?_, ?_, ?_⟩ <;> intros <;> (try subst_vars) <;> rfl) (by
    simp only [Ranked, Option.map_eq_some_iff, forall_exists_index, and_imp, and_true, Option.some.injEq]
    refine ⟨?_, ?_, ?_, ?_, ?_, ?_, ?_, ?_, ?_, ?_⟩ <;> intros <;> (try subst_vars) <;> rfl) (by simp)]
  simp only [optsEq, and_true]
  rw [optEq_map ops Clause.hint (· == ·) (fun _ _ => rfl), optEq_map ops Clause.explain Explain.eq (fun _ _ => rfl),
    optEq_map ops Clause.cte (Cte.eq ops) (fun _ _ => rfl), optEq_map ops Clause.src (From.eq ops) (fun _ _ => rfl),
    optEq_map ops Clause.where_ (exprEq ops) (fun _ _ => rfl),
    optEq_map ops Clause.groupBy (GroupBy.eq ops) (fun _ _ => rfl),
    optEq_map ops Clause.having_ (exprEq ops) (fun _ _ => rfl),
    optEq_map ops Clause.orderBy (listEq (OrderItem.eq ops)) (fun _ _ => rfl),
    optEq_map ops Clause.limit Limit.eq (fun _ _ => rfl)]
  rfl

theorem explain_iff {a b : Explain} (ha : a.format ≠ some "") (hb : b.format ≠ some "") : a.eq b = true ↔ a = b := by
  cases a; cases b
  simp_all [Explain.eq, Explain.target]

theorem explain_refl (a : Explain) : a.eq a = true := by simp [Explain.eq]

theorem explain_symm {a b : Explain} (h : a.eq b = true) : b.eq a = true := by
  simp only [Explain.eq, Bool.and_eq_true, beq_iff_eq] at h ⊢
  exact ⟨h.1.symm, h.2.symm⟩

theorem explain_trans {a b c : Explain} (h : a.eq b = true) (h' : b.eq c = true) : a.eq c = true := by
  simp only [Explain.eq, Bool.and_eq_true, beq_iff_eq] at h h' ⊢
  exact ⟨h.1.trans h'.1, h.2.trans h'.2⟩

theorem limit_iff {a b : Limit} (ha : a.dir = "first") (hb : b.dir = "first") : a.eq b = true ↔ a = b := by
  cases a; cases b
  simp_all [Limit.eq]

theorem limit_refl (a : Limit) : a.eq a = true := by simp [Limit.eq]

theorem limit_symm {a b : Limit} (h : a.eq b = true) : b.eq a = true := by
  simp only [Limit.eq, Bool.and_eq_true, beq_iff_eq] at h ⊢
  exact ⟨h.1.symm, h.2.symm⟩

theorem limit_trans {a b c : Limit} (h : a.eq b = true) (h' : b.eq c = true) : a.eq c = true := by
  simp only [Limit.eq, Bool.and_eq_true, beq_iff_eq] at h h' ⊢
  exact ⟨h.1.trans h'.1, h.2.trans h'.2⟩

theorem with_refl {ops : Ops Q} (hq : ∀ q, ops.eq q q = true) (a : With Q) : a.eq ops a = true := by
  cases a <;> simp [With.eq, hq, rows_refl hq]

theorem with_trans {ops : Ops Q} (hq : ∀ p q r, ops.eq p q = true → ops.eq q r = true → ops.eq p r = true)
    (a b c : With Q) (h : a.eq ops b = true) (h' : b.eq ops c = true) : a.eq ops c = true := by
  cases a <;> cases b <;> simp only [With.eq, Bool.false_eq_true] at h <;> cases c <;>
    simp only [With.eq, Bool.false_eq_true, Bool.and_eq_true, beq_iff_eq] at h h' ⊢
  · exact ⟨h.1.trans h'.1, hq _ _ _ h.2 h'.2⟩
  · exact ⟨⟨rows_trans hq h.1.1 h'.1.1, h.1.2.trans h'.1.2⟩, h.2.trans h'.2⟩

theorem with_symm {ops : Ops Q} {R : Rules Q}
    (hq : ∀ p q, R.sub p → R.sub q → ops.eq p q = true → ops.eq q p = true)
    (a b : With Q) (ha : WithOk R a) (hb : WithOk R b) (h : a.eq ops b = true) : b.eq ops a = true := by
  cases a <;> cases b <;> simp only [With.eq, Bool.false_eq_true, Bool.and_eq_true, beq_iff_eq] at h ⊢
  · exact ⟨h.1.symm, hq _ _ (ha.2.1 _ _ _ rfl) (hb.2.1 _ _ _ rfl) h.2⟩
  · exact ⟨⟨rows_symm hq (ha.2.2 _ _ _ _ rfl) (hb.2.2 _ _ _ _ rfl) h.1.1, h.1.2.symm⟩, h.2.symm⟩

theorem with_iff {ops : Ops Q} {R : Rules Q} (h1 : ∀ e, R.node e → OneValue e)
    (h3 : ∀ w, R.with_ w → (∀ q t m, w = .query q t m → t.ref = none ∧ m = none) ∧ ∀ r t c m, w = .values r t c m → m = none)
    (hq : ∀ p q, R.sub p → R.sub q → (ops.eq p q = true ↔ p = q))
    (a b : With Q) (ha : WithOk R a) (hb : WithOk R b) : a.eq ops b = true ↔ a = b := by
  cases a with
  | query q t m =>
    cases b with
    | query q' t' m' =>
      obtain ⟨e1, e2⟩ := (h3 _ ha.1).1 _ _ _ rfl
      obtain ⟨e3, e4⟩ := (h3 _ hb.1).1 _ _ _ rfl
      simp only [With.eq, Bool.and_eq_true, beq_iff_eq, With.query.injEq,
        hq _ _ (ha.2.1 _ _ _ rfl) (hb.2.1 _ _ _ rfl)]
      cases t; cases t'
      simp_all [and_comm]
    | values => simp [With.eq]
  | values r t c m =>
    cases b with
    | query => simp [With.eq]
    | values r' t' c' m' =>
      have e1 := (h3 _ ha.1).2 _ _ _ _ rfl
      have e2 := (h3 _ hb.1).2 _ _ _ _ rfl
      simp only [With.eq, Bool.and_eq_true, beq_iff_eq, With.values.injEq,
        rows_iff h1 hq (ha.2.2 _ _ _ _ rfl) (hb.2.2 _ _ _ _ rfl)]
      subst e1 e2
      tauto

theorem with_hash {ops : Ops Q} {R : Rules Q} (h1 : ∀ e, R.node e → OneValue e)
    (h3 : ∀ w, R.with_ w → ∀ q t m, w = .query q t m → t.ref = none)
    (hq : ∀ p q, R.sub p → R.sub q → ops.eq p q = true → ops.hash p = ops.hash q)
    (a b : With Q) (ha : WithOk R a) (hb : WithOk R b) (h : a.eq ops b = true) : a.hash ops = b.hash ops := by
  cases a <;> cases b <;> simp only [With.eq, Bool.false_eq_true, Bool.and_eq_true, beq_iff_eq] at h
  · have e1 := h3 _ ha.1 _ _ _ rfl
    have e2 := h3 _ hb.1 _ _ _ rfl
    simp [With.hash, hq _ _ (ha.2.1 _ _ _ rfl) (hb.2.1 _ _ _ rfl) h.2, e1, e2, h.1]
  · simp [With.hash, valuesQueryHash, From.hash, Source.hash, h.2, h.1.2,
      rows_hash h1 hq (ha.2.2 _ _ _ _ rfl) (hb.2.2 _ _ _ _ rfl) h.1.1]

/-! ### Queries -/

theorem cte_refl {ops : Ops Q} (hq : ∀ q, ops.eq q q = true) (a : Cte Q) : a.eq ops a = true := by
  simp only [Cte.eq, Bool.and_eq_true, beq_self_eq_true, and_true]
  exact listEq_refl (fun w _ => with_refl hq w)

theorem order_refl {ops : Ops Q} (hq : ∀ q, ops.eq q q = true) (o : List (OrderItem Q)) :
    listEq (OrderItem.eq ops) o o = true :=
  listEq_refl (fun i _ => by simp [OrderItem.eq, exprEq_refl hq])

theorem stmt_refl {ops : Ops Q} (hq : ∀ q, ops.eq q q = true) (s : Stmt Q) : s.eq ops s = true := by
  induction s with
  | sel s =>
    rw [Stmt.eq, sel_eq]
    refine ⟨by simp [QueryClass.covers], optEq_refl (by simp), optEq_refl (fun e _ => explain_refl e),
      optEq_refl (fun c _ => cte_refl hq c), ?_, optEq_refl (fun f _ => ?_), optEq_refl (fun e _ => exprEq_refl hq e),
      optEq_refl (fun g _ => ?_), optEq_refl (fun e _ => exprEq_refl hq e), optEq_refl (fun o _ => order_refl hq o),
      optEq_refl (fun l _ => limit_refl l)⟩
    · simp only [Select.eq, Bool.and_eq_true, beq_self_eq_true, true_and, exprEqL_eq]
      exact ⟨listEq_refl (fun t _ => by simp [Projection.eq, exprEq_refl hq]), listEq_refl (fun e _ => exprEq_refl hq e)⟩
    · simp only [From.eq, Bool.and_eq_true]
      exact ⟨by simp [FromClass.covers], listEq_refl (fun i _ => source_refl hq i)⟩
    · simp only [GroupBy.eq, Bool.and_eq_true, beq_self_eq_true, and_true, exprEqL_eq]
      exact listEq_refl (fun e _ => exprEq_refl hq e)
  | set l r op c o m h e ihl ihr =>
    simp only [Stmt.eq, ihl, ihr, beq_self_eq_true, Bool.and_eq_true, and_true, true_and]
    exact ⟨⟨⟨optEq_refl (fun c _ => cte_refl hq c), optEq_refl (fun o _ => order_refl hq o)⟩,
      optEq_refl (fun l _ => limit_refl l)⟩, optEq_refl (fun e _ => explain_refl e)⟩

theorem cte_trans {ops : Ops Q} (hq : ∀ p q r, ops.eq p q = true → ops.eq q r = true → ops.eq p r = true)
    (a b c : Cte Q) (h : a.eq ops b = true) (h' : b.eq ops c = true) : a.eq ops c = true := by
  simp only [Cte.eq, Bool.and_eq_true, beq_iff_eq] at h h' ⊢
  exact ⟨listEq_trans (fun w _ => with_trans hq w) h.1 h'.1, h.2.trans h'.2⟩

theorem orderItem_trans {ops : Ops Q} (hq : ∀ p q r, ops.eq p q = true → ops.eq q r = true → ops.eq p r = true)
    (a b c : OrderItem Q) (h : a.eq ops b = true) (h' : b.eq ops c = true) : a.eq ops c = true := by
  simp only [OrderItem.eq, Bool.and_eq_true, beq_iff_eq] at h h' ⊢
  exact ⟨exprEq_trans hq _ _ _ h.1 h'.1, h.2.trans h'.2⟩

theorem select_trans {ops : Ops Q} (hq : ∀ p q r, ops.eq p q = true → ops.eq q r = true → ops.eq p r = true)
    (a b c : Select Q) (h : a.eq ops b = true) (h' : b.eq ops c = true) : a.eq ops c = true := by
  simp only [Select.eq, Bool.and_eq_true, beq_iff_eq, exprEqL_eq] at h h' ⊢
  refine ⟨⟨h.1.1.trans h'.1.1, listEq_trans (fun x _ y z k k' => ?_) h.1.2 h'.1.2⟩,
    listEq_trans (fun x _ => exprEq_trans hq x) h.2 h'.2⟩
  simp only [Projection.eq, Bool.and_eq_true, beq_iff_eq] at k k' ⊢
  exact ⟨exprEq_trans hq _ _ _ k.1 k'.1, k.2.trans k'.2⟩

theorem from_trans {ops : Ops Q} (hq : ∀ p q r, ops.eq p q = true → ops.eq q r = true → ops.eq p r = true)
    (a b c : From Q) (h : a.eq ops b = true) (h' : b.eq ops c = true) : a.eq ops c = true := by
  simp only [From.eq, Bool.and_eq_true] at h h' ⊢
  refine ⟨?_, listEq_trans (fun x _ => source_trans hq x) h.2 h'.2⟩
  have h1 := h.1
  have h2 := h'.1
  simp only [FromClass.covers, Bool.or_eq_true, beq_iff_eq] at h1 h2 ⊢
  rcases h1 with h1 | h1
  · exact .inl h1
  · rw [h1]; exact h2

theorem groupBy_trans {ops : Ops Q} (hq : ∀ p q r, ops.eq p q = true → ops.eq q r = true → ops.eq p r = true)
    (a b c : GroupBy Q) (h : a.eq ops b = true) (h' : b.eq ops c = true) : a.eq ops c = true := by
  simp only [GroupBy.eq, Bool.and_eq_true, beq_iff_eq, exprEqL_eq] at h h' ⊢
  exact ⟨listEq_trans (fun x _ => exprEq_trans hq x) h.1 h'.1, h.2.trans h'.2⟩

theorem stmt_trans {ops : Ops Q} (hq : ∀ p q r, ops.eq p q = true → ops.eq q r = true → ops.eq p r = true)
    (a b c : Stmt Q) (h : a.eq ops b = true) (h' : b.eq ops c = true) : a.eq ops c = true := by
  induction a generalizing b c with
  | sel a =>
    cases b <;> simp only [Stmt.eq, Bool.false_eq_true] at h
    cases c <;> simp only [Stmt.eq, Bool.false_eq_true] at h' ⊢
    rw [sel_eq] at h h' ⊢
    obtain ⟨a1, a2, a3, a4, a5, a6, a7, a8, a9, a10, a11⟩ := h
    obtain ⟨b1, b2, b3, b4, b5, b6, b7, b8, b9, b10, b11⟩ := h'
    refine ⟨?_, optEq_trans (fun x _ y z k k' => by simp_all) a2 b2,
      optEq_trans (fun x _ y z k k' => explain_trans k k') a3 b3, optEq_trans (fun x _ => cte_trans hq x) a4 b4,
      select_trans hq _ _ _ a5 b5, optEq_trans (fun x _ => from_trans hq x) a6 b6,
      optEq_trans (fun x _ => exprEq_trans hq x) a7 b7, optEq_trans (fun x _ => groupBy_trans hq x) a8 b8,
      optEq_trans (fun x _ => exprEq_trans hq x) a9 b9,
      optEq_trans (fun x _ y z => listEq_trans (fun i _ => orderItem_trans hq i)) a10 b10,
      optEq_trans (fun x _ y z k k' => limit_trans k k') a11 b11⟩
    simp only [QueryClass.covers, Bool.or_eq_true, beq_iff_eq] at a1 b1 ⊢
    rcases a1 with h1 | h1
    · exact .inl h1
    · rw [h1]; exact b1
  | set l r op cc o m hh e ihl ihr =>
    cases b <;> simp only [Stmt.eq, Bool.false_eq_true] at h
    cases c <;> simp only [Stmt.eq, Bool.false_eq_true] at h' ⊢
    simp only [Bool.and_eq_true, beq_iff_eq] at h h' ⊢
    obtain ⟨⟨⟨⟨⟨⟨⟨a1, a2⟩, a3⟩, a4⟩, a5⟩, a6⟩, a7⟩, a8⟩ := h
    obtain ⟨⟨⟨⟨⟨⟨⟨b1, b2⟩, b3⟩, b4⟩, b5⟩, b6⟩, b7⟩, b8⟩ := h'
    exact ⟨⟨⟨⟨⟨⟨⟨ihl _ _ a1 b1, ihr _ _ a2 b2⟩, a3.trans b3⟩, optEq_trans (fun x _ => cte_trans hq x) a4 b4⟩,
      optEq_trans (fun x _ y z => listEq_trans (fun i _ => orderItem_trans hq i)) a5 b5⟩,
      optEq_trans (fun x _ y z k k' => limit_trans k k') a6 b6⟩, a7.trans b7⟩,
      optEq_trans (fun x _ y z k k' => explain_trans k k') a8 b8⟩

theorem cte_symm {ops : Ops Q} {R : Rules Q}
    (hq : ∀ p q, R.sub p → R.sub q → ops.eq p q = true → ops.eq q p = true)
    (a b : Cte Q) (ha : ∀ w ∈ a.queries, WithOk R w) (hb : ∀ w ∈ b.queries, WithOk R w) (h : a.eq ops b = true) :
    b.eq ops a = true := by
  simp only [Cte.eq, Bool.and_eq_true, beq_iff_eq] at h ⊢
  exact ⟨listEq_symm (fun x hx y hy => with_symm hq x y (ha x hx) (hb y hy)) h.1, h.2.symm⟩

theorem order_symm {ops : Ops Q} {R : Rules Q}
    (hq : ∀ p q, R.sub p → R.sub q → ops.eq p q = true → ops.eq q p = true)
    (a b : List (OrderItem Q)) (ha : ∀ i ∈ a, ExprOk R i.expr) (hb : ∀ i ∈ b, ExprOk R i.expr)
    (h : listEq (OrderItem.eq ops) a b = true) : listEq (OrderItem.eq ops) b a = true := by
  refine listEq_symm (fun x hx y hy k => ?_) h
  simp only [OrderItem.eq, Bool.and_eq_true, beq_iff_eq] at k ⊢
  exact ⟨exprEq_symm hq _ _ (ha x hx) (hb y hy) k.1, k.2.symm⟩

theorem select_symm {ops : Ops Q} {R : Rules Q}
    (hq : ∀ p q, R.sub p → R.sub q → ops.eq p q = true → ops.eq q p = true) (a b : Select Q)
    (ha : ∀ t ∈ a.targets, ExprOk R t.expr) (ha' : ∀ e ∈ a.cols, ExprOk R e)
    (hb : ∀ t ∈ b.targets, ExprOk R t.expr) (hb' : ∀ e ∈ b.cols, ExprOk R e) (h : a.eq ops b = true) :
    b.eq ops a = true := by
  simp only [Select.eq, Bool.and_eq_true, beq_iff_eq, exprEqL_eq] at h ⊢
  refine ⟨⟨h.1.1.symm, listEq_symm (fun x hx y hy k => ?_) h.1.2⟩,
    listEq_symm (fun x hx y hy => exprEq_symm hq x y (ha' x hx) (hb' y hy)) h.2⟩
  simp only [Projection.eq, Bool.and_eq_true, beq_iff_eq] at k ⊢
  exact ⟨exprEq_symm hq _ _ (ha x hx) (hb y hy) k.1, k.2.symm⟩

theorem groupBy_symm {ops : Ops Q} {R : Rules Q}
    (hq : ∀ p q, R.sub p → R.sub q → ops.eq p q = true → ops.eq q p = true) (a b : GroupBy Q)
    (ha : ∀ e ∈ a.cols, ExprOk R e) (hb : ∀ e ∈ b.cols, ExprOk R e) (h : a.eq ops b = true) : b.eq ops a = true := by
  simp only [GroupBy.eq, Bool.and_eq_true, beq_iff_eq, exprEqL_eq] at h ⊢
  exact ⟨listEq_symm (fun x hx y hy => exprEq_symm hq x y (ha x hx) (hb y hy)) h.1, h.2.symm⟩

/-- Queries of fitting classes that are equal have the same classes. -/
theorem fitting_classes {ops : Ops Q} {a b : Sel Q} (ha : Fitting a) (hb : Fitting b)
    (hc : a.cls.covers b.cls = true) (hs : optEq (From.eq ops) a.src b.src = true) :
    a.cls = b.cls ∧ ∀ f g, a.src = some f → b.src = some g → f.cls = g.cls := by
  unfold Fitting at ha hb
  cases ea : a.src with
  | none =>
    simp only [ea] at ha
    cases eb : b.src with
    | none => simp_all
    | some g => simp [ea, eb, optEq] at hs
  | some f =>
    obtain ⟨fc, fi⟩ := f
    cases eb : b.src with
    | none => simp [ea, eb, optEq] at hs
    | some g =>
      obtain ⟨gc, gi⟩ := g
      simp only [ea, eb] at ha hb
      cases fc <;> cases gc <;> simp_all [QueryClass.covers]

theorem stmt_symm {ops : Ops Q} {R : Rules Q} (hf : ∀ s, R.sel s → Fitting s)
    (hq : ∀ p q, R.sub p → R.sub q → ops.eq p q = true → ops.eq q p = true)
    (a b : Stmt Q) (ha : StmtOk R a) (hb : StmtOk R b) (h : a.eq ops b = true) : b.eq ops a = true := by
  induction a generalizing b with
  | sel a =>
    cases b <;> simp only [Stmt.eq, Bool.false_eq_true] at h ⊢
    rw [sel_eq] at h ⊢
    simp only [StmtOk] at ha hb
    obtain ⟨a1, a2, a3, a4, a5, a6, a7, a8, a9, a10, a11⟩ := h
    obtain ⟨c1, c2⟩ := fitting_classes (hf _ ha.sel) (hf _ hb.sel) a1 a6
    refine ⟨by simp [QueryClass.covers, c1], optEq_symm (fun x _ y _ k => by simp_all) a2,
      optEq_symm (fun x _ y _ => explain_symm) a3,
      optEq_symm (fun x hx y hy => cte_symm hq x y (ha.cte x (by simpa using hx)) (hb.cte y (by simpa using hy))) a4,
      select_symm hq _ _ ha.targets ha.distinct hb.targets hb.distinct a5,
      optEq_symm (fun x hx y hy k => ?_) a6,
      optEq_symm (fun x hx y hy => exprEq_symm hq x y (ha.where_ x (by simpa using hx)) (hb.where_ y (by simpa using hy))) a7,
      optEq_symm (fun x hx y hy => groupBy_symm hq x y (ha.groupBy x (by simpa using hx)) (hb.groupBy y (by simpa using hy))) a8,
      optEq_symm (fun x hx y hy => exprEq_symm hq x y (ha.having_ x (by simpa using hx)) (hb.having_ y (by simpa using hy))) a9,
      optEq_symm (fun x hx y hy => order_symm hq x y (ha.orderBy x (by simpa using hx)) (hb.orderBy y (by simpa using hy))) a10,
      optEq_symm (fun x _ y _ => limit_symm) a11⟩
    simp only [From.eq, Bool.and_eq_true] at k ⊢
    have e := c2 x y (by simpa using hx) (by simpa using hy)
    exact ⟨by simp [FromClass.covers, e], listEq_symm (fun u hu v hv => source_symm hq u v
      (ha.src x (by simpa using hx) u hu) (hb.src y (by simpa using hy) v hv)) k.2⟩
  | set l r op cc o m hh e ihl ihr =>
    cases b <;> simp only [Stmt.eq, Bool.false_eq_true] at h ⊢
    simp only [Bool.and_eq_true, beq_iff_eq, StmtOk] at h ha hb ⊢
    obtain ⟨⟨⟨⟨⟨⟨⟨a1, a2⟩, a3⟩, a4⟩, a5⟩, a6⟩, a7⟩, a8⟩ := h
    obtain ⟨p1, p2, p3, p4, -, -⟩ := ha
    obtain ⟨q1, q2, q3, q4, -, -⟩ := hb
    exact ⟨⟨⟨⟨⟨⟨⟨ihl _ p1 q1 a1, ihr _ p2 q2 a2⟩, a3.symm⟩,
      optEq_symm (fun x hx y hy => cte_symm hq x y (p3 x (by simpa using hx)) (q3 y (by simpa using hy))) a4⟩,
      optEq_symm (fun x hx y hy => order_symm hq x y (p4 x (by simpa using hx)) (q4 y (by simpa using hy))) a5⟩,
      optEq_symm (fun x _ y _ => limit_symm) a6⟩, a7.symm⟩, optEq_symm (fun x _ y _ => explain_symm) a8⟩

theorem cte_hash {ops : Ops Q} {R : Rules Q} (h1 : ∀ e, R.node e → OneValue e)
    (h3 : ∀ w, R.with_ w → ∀ q t m, w = .query q t m → t.ref = none)
    (hq : ∀ p q, R.sub p → R.sub q → ops.eq p q = true → ops.hash p = ops.hash q)
    (a b : Cte Q) (ha : ∀ w ∈ a.queries, WithOk R w) (hb : ∀ w ∈ b.queries, WithOk R w) (h : a.eq ops b = true) :
    a.hash ops = b.hash ops := by
  simp only [Cte.eq, Bool.and_eq_true, beq_iff_eq] at h
  simp only [Cte.hash, h.2, listEq_hash (fun x hx y hy => with_hash h1 h3 hq x y (ha x hx) (hb y hy)) h.1]

theorem order_hash {ops : Ops Q} {R : Rules Q} (h1 : ∀ e, R.node e → OneValue e)
    (hq : ∀ p q, R.sub p → R.sub q → ops.eq p q = true → ops.hash p = ops.hash q)
    (a b : List (OrderItem Q)) (ha : ∀ i ∈ a, ExprOk R i.expr) (hb : ∀ i ∈ b, ExprOk R i.expr)
    (h : listEq (OrderItem.eq ops) a b = true) : orderHash ops a = orderHash ops b := by
  simp only [orderHash, Key.tup.injEq]
  refine listEq_hash (fun x hx y hy k => ?_) h
  simp only [OrderItem.eq, Bool.and_eq_true, beq_iff_eq] at k
  simp only [OrderItem.hash, k.2, exprEq_hash h1 hq _ _ (ha x hx) (hb y hy) k.1]

theorem select_hash {ops : Ops Q} {R : Rules Q} (h1 : ∀ e, R.node e → OneValue e)
    (hq : ∀ p q, R.sub p → R.sub q → ops.eq p q = true → ops.hash p = ops.hash q) (a b : Select Q)
    (ha : ∀ t ∈ a.targets, ExprOk R t.expr) (ha' : ∀ e ∈ a.cols, ExprOk R e)
    (hb : ∀ t ∈ b.targets, ExprOk R t.expr) (hb' : ∀ e ∈ b.cols, ExprOk R e) (h : a.eq ops b = true) :
    a.hash ops = b.hash ops := by
  simp only [Select.eq, Bool.and_eq_true, beq_iff_eq, exprEqL_eq] at h
  have e1 : a.targets.map (Projection.hash ops) = b.targets.map (Projection.hash ops) := by
    refine listEq_hash (fun x hx y hy k => ?_) h.1.2
    simp only [Projection.eq, Bool.and_eq_true, beq_iff_eq] at k
    simp only [Projection.hash, k.2, exprEq_hash h1 hq _ _ (ha x hx) (hb y hy) k.1]
  simp only [Select.hash, h.1.1, e1, listEq_hash (fun x hx y hy => exprEq_hash h1 hq x y (ha' x hx) (hb' y hy)) h.2]

theorem groupBy_hash {ops : Ops Q} {R : Rules Q} (h1 : ∀ e, R.node e → OneValue e)
    (hq : ∀ p q, R.sub p → R.sub q → ops.eq p q = true → ops.hash p = ops.hash q) (a b : GroupBy Q)
    (ha : ∀ e ∈ a.cols, ExprOk R e) (hb : ∀ e ∈ b.cols, ExprOk R e) (h : a.eq ops b = true) :
    a.hash ops = b.hash ops := by
  simp only [GroupBy.eq, Bool.and_eq_true, beq_iff_eq, exprEqL_eq] at h
  simp only [GroupBy.hash, h.2, listEq_hash (fun x hx y hy => exprEq_hash h1 hq x y (ha x hx) (hb y hy)) h.1]

theorem from_hash {ops : Ops Q} {R : Rules Q} (h1 : ∀ e, R.node e → OneValue e)
    (h2 : ∀ s, R.source s → ∀ q n l, s = .subquery q n l → l = false)
    (hq : ∀ p q, R.sub p → R.sub q → ops.eq p q = true → ops.hash p = ops.hash q) (a b : From Q)
    (ha : ∀ i ∈ a.items, SourceOk R i) (hb : ∀ i ∈ b.items, SourceOk R i) (h : a.eq ops b = true) :
    a.hash ops = b.hash ops := by
  simp only [From.eq, Bool.and_eq_true] at h
  simp only [From.hash, listEq_hash (fun x hx y hy => source_hash h1 h2 hq x y (ha x hx) (hb y hy)) h.2]

theorem stmt_hash {ops : Ops Q} {R : Rules Q} (h1 : ∀ e, R.node e → OneValue e)
    (h2 : ∀ s, R.source s → ∀ q n l, s = .subquery q n l → l = false)
    (h3 : ∀ w, R.with_ w → ∀ q t m, w = .query q t m → t.ref = none)
    (h4 : ∀ e, R.explain e → e.format ≠ some "") (h5 : ∀ l, R.limit l → l.dir = "first")
    (hq : ∀ p q, R.sub p → R.sub q → ops.eq p q = true → ops.hash p = ops.hash q)
    (a b : Stmt Q) (ha : StmtOk R a) (hb : StmtOk R b) (h : a.eq ops b = true) : a.hash ops = b.hash ops := by
  have ex : ∀ x y, R.explain x → R.explain y → x.eq y = true → x.hash = y.hash := fun x y hx hy k => by
    rw [(explain_iff (h4 _ hx) (h4 _ hy)).1 k]
  have lm : ∀ x y, R.limit x → R.limit y → x.eq y = true → x.hash = y.hash := fun x y hx hy k => by
    rw [(limit_iff (h5 _ hx) (h5 _ hy)).1 k]
  induction a generalizing b with
  | sel a =>
    cases b <;> simp only [Stmt.eq, Bool.false_eq_true] at h
    rw [sel_eq] at h
    simp only [StmtOk] at ha hb
    obtain ⟨-, a2, a3, a4, a5, a6, a7, a8, a9, a10, a11⟩ := h
    simp only [Stmt.hash, Sel.hash]
    rw [optEq_hash (f := Hint.hash) (fun x _ y _ k => by simp_all) a2,
      optEq_hash (fun x hx y hy => ex x y (ha.explain x (by simpa using hx)) (hb.explain y (by simpa using hy))) a3,
      optEq_hash (fun x hx y hy => cte_hash h1 h3 hq x y (ha.cte x (by simpa using hx)) (hb.cte y (by simpa using hy))) a4,
      select_hash h1 hq _ _ ha.targets ha.distinct hb.targets hb.distinct a5,
      optEq_hash (fun x hx y hy => from_hash h1 h2 hq x y (ha.src x (by simpa using hx)) (hb.src y (by simpa using hy))) a6,
      optEq_hash (fun x hx y hy => exprEq_hash h1 hq x y (ha.where_ x (by simpa using hx)) (hb.where_ y (by simpa using hy))) a7,
      optEq_hash (fun x hx y hy => groupBy_hash h1 hq x y (ha.groupBy x (by simpa using hx)) (hb.groupBy y (by simpa using hy))) a8,
      optEq_hash (fun x hx y hy => exprEq_hash h1 hq x y (ha.having_ x (by simpa using hx)) (hb.having_ y (by simpa using hy))) a9,
      optEq_hash (fun x hx y hy => order_hash h1 hq x y (ha.orderBy x (by simpa using hx)) (hb.orderBy y (by simpa using hy))) a10,
      optEq_hash (fun x hx y hy => lm x y (ha.limit x (by simpa using hx)) (hb.limit y (by simpa using hy))) a11]
  | set l r op cc o m hh e ihl ihr =>
    cases b <;> simp only [Stmt.eq, Bool.false_eq_true] at h
    simp only [Bool.and_eq_true, beq_iff_eq, StmtOk] at h ha hb
    obtain ⟨⟨⟨⟨⟨⟨⟨a1, a2⟩, a3⟩, a4⟩, a5⟩, a6⟩, a7⟩, a8⟩ := h
    obtain ⟨p1, p2, p3, p4, p5, p6⟩ := ha
    obtain ⟨q1, q2, q3, q4, q5, q6⟩ := hb
    simp only [Stmt.hash, ihl _ p1 q1 a1, ihr _ p2 q2 a2, a3, a7,
      optEq_hash (fun x hx y hy => cte_hash h1 h3 hq x y (p3 x (by simpa using hx)) (q3 y (by simpa using hy))) a4,
      optEq_hash (fun x hx y hy => lm x y (p5 x (by simpa using hx)) (q5 y (by simpa using hy))) a6,
      optEq_hash (fun x hx y hy => ex x y (p6 x (by simpa using hx)) (q6 y (by simpa using hy))) a8]

theorem cte_iff {ops : Ops Q} {R : Rules Q} (h1 : ∀ e, R.node e → OneValue e)
    (h3 : ∀ w, R.with_ w → (∀ q t m, w = .query q t m → t.ref = none ∧ m = none) ∧ ∀ r t c m, w = .values r t c m → m = none)
    (hq : ∀ p q, R.sub p → R.sub q → (ops.eq p q = true ↔ p = q))
    (a b : Cte Q) (ha : ∀ w ∈ a.queries, WithOk R w) (hb : ∀ w ∈ b.queries, WithOk R w) :
    a.eq ops b = true ↔ a = b := by
  cases a; cases b
  simp only [Cte.eq, Bool.and_eq_true, beq_iff_eq, Cte.mk.injEq]
  rw [listEq_iff (fun x hx y hy => with_iff h1 h3 hq x y (ha x hx) (hb y hy))]

theorem order_iff {ops : Ops Q} {R : Rules Q} (h1 : ∀ e, R.node e → OneValue e)
    (hq : ∀ p q, R.sub p → R.sub q → (ops.eq p q = true ↔ p = q))
    (a b : List (OrderItem Q)) (ha : ∀ i ∈ a, ExprOk R i.expr) (hb : ∀ i ∈ b, ExprOk R i.expr) :
    listEq (OrderItem.eq ops) a b = true ↔ a = b := by
  refine listEq_iff (fun x hx y hy => ?_)
  have := exprEq_iff h1 hq _ _ (ha x hx) (hb y hy)
  cases x; cases y
  simp_all [OrderItem.eq]

theorem select_iff {ops : Ops Q} {R : Rules Q} (h1 : ∀ e, R.node e → OneValue e)
    (hq : ∀ p q, R.sub p → R.sub q → (ops.eq p q = true ↔ p = q)) (a b : Select Q)
    (ha : ∀ t ∈ a.targets, ExprOk R t.expr) (ha' : ∀ e ∈ a.cols, ExprOk R e)
    (hb : ∀ t ∈ b.targets, ExprOk R t.expr) (hb' : ∀ e ∈ b.cols, ExprOk R e) : a.eq ops b = true ↔ a = b := by
  obtain ⟨at_, ad, ac⟩ := a
  obtain ⟨bt, bd, bc⟩ := b
  simp only [Select.eq, Bool.and_eq_true, beq_iff_eq, Select.mk.injEq, exprEqL_eq]
  rw [listEq_iff (fun x hx y hy => exprEq_iff h1 hq x y (ha' x hx) (hb' y hy)), listEq_iff (fun x hx y hy => by
    have := exprEq_iff h1 hq _ _ (ha x hx) (hb y hy)
    cases x; cases y
    simp_all [Projection.eq])]
  tauto

theorem groupBy_iff {ops : Ops Q} {R : Rules Q} (h1 : ∀ e, R.node e → OneValue e)
    (hq : ∀ p q, R.sub p → R.sub q → (ops.eq p q = true ↔ p = q)) (a b : GroupBy Q)
    (ha : ∀ e ∈ a.cols, ExprOk R e) (hb : ∀ e ∈ b.cols, ExprOk R e) : a.eq ops b = true ↔ a = b := by
  cases a; cases b
  simp only [GroupBy.eq, Bool.and_eq_true, beq_iff_eq, exprEqL_eq, GroupBy.mk.injEq]
  rw [listEq_iff (fun x hx y hy => exprEq_iff h1 hq x y (ha x hx) (hb y hy))]

theorem stmt_iff {ops : Ops Q} {R : Rules Q} (hf : ∀ s, R.sel s → Fitting s) (h1 : ∀ e, R.node e → OneValue e)
    (h2 : ∀ s, R.source s → ∀ q n l, s = .subquery q n l → l = false)
    (h3 : ∀ w, R.with_ w → (∀ q t m, w = .query q t m → t.ref = none ∧ m = none) ∧ ∀ r t c m, w = .values r t c m → m = none)
    (h4 : ∀ e, R.explain e → e.format ≠ some "") (h5 : ∀ l, R.limit l → l.dir = "first")
    (hr : ∀ q, ops.eq q q = true)
    (hq : ∀ p q, R.sub p → R.sub q → (ops.eq p q = true ↔ p = q))
    (a b : Stmt Q) (ha : StmtOk R a) (hb : StmtOk R b) : a.eq ops b = true ↔ a = b := by
  refine ⟨fun h => ?_, fun h => h ▸ stmt_refl hr a⟩
  have ex : ∀ x y, R.explain x → R.explain y → (x.eq y = true ↔ x = y) := fun x y hx hy => explain_iff (h4 _ hx) (h4 _ hy)
  have lm : ∀ x y, R.limit x → R.limit y → (x.eq y = true ↔ x = y) := fun x y hx hy => limit_iff (h5 _ hx) (h5 _ hy)
  induction a generalizing b with
  | sel a =>
    cases b <;> simp only [Stmt.eq, Bool.false_eq_true] at h
    rw [sel_eq] at h
    simp only [StmtOk] at ha hb
    obtain ⟨a1, a2, a3, a4, a5, a6, a7, a8, a9, a10, a11⟩ := h
    obtain ⟨c1, c2⟩ := fitting_classes (hf _ ha.sel) (hf _ hb.sel) a1 a6
    rw [optEq_iff (fun x _ y _ => by simp)] at a2
    rw [optEq_iff (fun x hx y hy => ex x y (ha.explain x (by simpa using hx)) (hb.explain y (by simpa using hy)))] at a3
    rw [optEq_iff (fun x hx y hy => cte_iff h1 h3 hq x y (ha.cte x (by simpa using hx)) (hb.cte y (by simpa using hy)))] at a4
    rw [select_iff h1 hq _ _ ha.targets ha.distinct hb.targets hb.distinct] at a5
    rw [optEq_iff (fun x hx y hy => by
      have e := c2 x y (by simpa using hx) (by simpa using hy)
      have k := listEq_iff (fun u hu v hv => source_iff h1 h2 hq u v (ha.src x (by simpa using hx) u hu)
        (hb.src y (by simpa using hy) v hv))
      cases x; cases y
      simp only [From.eq, FromClass.covers, Bool.and_eq_true, Bool.or_eq_true, beq_iff_eq, From.mk.injEq] at e k ⊢
      rw [k]; tauto)] at a6
    rw [optEq_iff (fun x hx y hy => exprEq_iff h1 hq x y (ha.where_ x (by simpa using hx)) (hb.where_ y (by simpa using hy)))] at a7
    rw [optEq_iff (fun x hx y hy => groupBy_iff h1 hq x y (ha.groupBy x (by simpa using hx)) (hb.groupBy y (by simpa using hy)))] at a8
    rw [optEq_iff (fun x hx y hy => exprEq_iff h1 hq x y (ha.having_ x (by simpa using hx)) (hb.having_ y (by simpa using hy)))] at a9
    rw [optEq_iff (fun x hx y hy => order_iff h1 hq x y (ha.orderBy x (by simpa using hx)) (hb.orderBy y (by simpa using hy)))] at a10
    rw [optEq_iff (fun x hx y hy => lm x y (ha.limit x (by simpa using hx)) (hb.limit y (by simpa using hy)))] at a11
    rename_i b
    cases a; cases b
    simp_all
  | set l r op cc o m hh e ihl ihr =>
    cases b <;> simp only [Stmt.eq, Bool.false_eq_true] at h
    simp only [Bool.and_eq_true, beq_iff_eq, StmtOk] at h ha hb
    obtain ⟨⟨⟨⟨⟨⟨⟨a1, a2⟩, a3⟩, a4⟩, a5⟩, a6⟩, a7⟩, a8⟩ := h
    obtain ⟨p1, p2, p3, p4, p5, p6⟩ := ha
    obtain ⟨q1, q2, q3, q4, q5, q6⟩ := hb
    rw [ihl _ p1 q1 a1, ihr _ p2 q2 a2, a3, a7]
    rw [optEq_iff (fun x hx y hy => cte_iff h1 h3 hq x y (p3 x (by simpa using hx)) (q3 y (by simpa using hy)))] at a4
    rw [optEq_iff (fun x hx y hy => order_iff h1 hq x y (p4 x (by simpa using hx)) (q4 y (by simpa using hy)))] at a5
    rw [optEq_iff (fun x hx y hy => lm x y (p5 x (by simpa using hx)) (q5 y (by simpa using hy)))] at a6
    rw [optEq_iff (fun x hx y hy => ex x y (p6 x (by simpa using hx)) (q6 y (by simpa using hy)))] at a8
    rw [a4, a5, a6, a8]

/-! ### C116: equality and hash values -/

/-- Every query is equal to itself. -/
theorem C116_refl (n : Nat) (q : QH n) : (opsAt n).eq q q = true := by
  induction n with
  | zero => exact q.elim
  | succ n ih => exact stmt_refl ih q

/-- If a query equals a second one, and the second one equals a third one, then the first one equals the third one. -/
theorem C116_trans (n : Nat) (a b c : QH n) (h : (opsAt n).eq a b = true) (h' : (opsAt n).eq b c = true) :
    (opsAt n).eq a c = true := by
  induction n with
  | zero => exact a.elim
  | succ n ih => exact stmt_trans ih a b c h h'

/-- For queries whose classes are the ones chosen by `build_query`, the order of the operands of `==` does not matter.
Missing: queries of the base classes (see `C116_symm_violated`). -/
theorem C116_symm_partial (n : Nat) (a b : QH n) (ha : Follows builtRules n a) (hb : Follows builtRules n b)
    (h : (opsAt n).eq a b = true) : (opsAt n).eq b a = true := by
  induction n with
  | zero => exact a.elim
  | succ n ih =>
    exact stmt_symm (R := builtRules (Follows builtRules n)) (fun _ h => h) (fun p q hp hq => ih p q hp hq) a b ha hb h

/-- Equal queries have equal hash values, if their IN predicates have a single value, and they contain no LATERAL
subquery, no EXPLAIN with an empty format, no table references as names of WITH queries and no FETCH direction other
than FIRST. Missing: all other queries (see `C116_hash_violated`). -/
theorem C116_hash_partial (n : Nat) (a b : QH n) (ha : Follows hashRules n a) (hb : Follows hashRules n b)
    (h : (opsAt n).eq a b = true) : (opsAt n).hash a = (opsAt n).hash b := by
  induction n with
  | zero => exact a.elim
  | succ n ih =>
    exact stmt_hash (R := hashRules (Follows hashRules n)) (fun _ h => h) (fun _ h => h) (fun _ h => h) (fun _ h => h)
      (fun _ h => h) (fun p q hp hq => ih p q hp hq) a b ha hb h

/-- For queries that follow the rules for hash values, that are built by `build_query`, and that do not say whether WITH
queries are materialized, `==` is equality of all of their components. Missing: all other queries. -/
theorem C116_equal_partial (n : Nat) (a b : QH n) (ha : Follows plainRules n a) (hb : Follows plainRules n b) :
    (opsAt n).eq a b = true ↔ a = b := by
  induction n with
  | zero => exact a.elim
  | succ n ih =>
    exact stmt_iff (R := plainRules (Follows plainRules n)) (fun _ h => h) (fun _ h => h) (fun _ h => h) (fun _ h => h)
      (fun _ h => h) (fun _ h => h) (C116_refl n) (fun p q hp hq => ih p q hp hq) a b ha hb

/-! ### Building queries -/

/-- Is this the clause of a set operation? -/
def IsSet (c : Clause Q) : Prop := (∃ l r a, c = .union l r a) ∨ (∃ l r, c = .except l r) ∨ ∃ l r, c = .intersect l r

/-- Is this a clause that set queries do not have? -/
def PlainOnly (c : Clause Q) : Prop :=
  (∃ s, c = .select s) ∨ (∃ f, c = .src f) ∨ (∃ p, c = .where_ p) ∨ (∃ g, c = .groupBy g) ∨ ∃ p, c = .having_ p

/-- The clauses have pairwise different kinds; the three set operations are the same kind. -/
def kind : Clause Q → Nat
  | .hint _ => 0
  | .explain _ => 1
  | .cte _ => 2
  | .select _ => 3
  | .src _ => 4
  | .where_ _ => 5
  | .groupBy _ => 6
  | .having_ _ => 7
  | .orderBy _ => 8
  | .limit _ => 9
  | .union .. => 10
  | .except .. => 10
  | .intersect .. => 10

/-- The query has no EXPLAIN clause. -/
def Quiet : Stmt Q → Prop
  | .sel s => s.explain = none
  | .set _ _ _ _ _ _ _ e => e = none

/-- The sides of set operations have no EXPLAIN clause. -/
def QuietSides (cs : List (Clause Q)) : Prop :=
  ∀ l r, ((∃ a, Clause.union l r a ∈ cs) ∨ Clause.except l r ∈ cs ∨ Clause.intersect l r ∈ cs) → Quiet l ∧ Quiet r

/-- The state after the loop. -/
structure Inv (cs : List (Clause Q)) (p : Parts Q) : Prop where
  hints : ∀ x, p.hints = some x ↔ .hint x ∈ cs
  explain : ∀ x, p.explain = some x ↔ .explain x ∈ cs
  cte : ∀ x, p.cte = some x ↔ .cte x ∈ cs
  select : ∀ x, p.select = some x ↔ .select x ∈ cs
  src : ∀ x, p.src = some x ↔ .src x ∈ cs
  where_ : ∀ x, p.where_ = some x ↔ .where_ x ∈ cs
  groupBy : ∀ x, p.groupBy = some x ↔ .groupBy x ∈ cs
  having_ : ∀ x, p.having_ = some x ↔ .having_ x ∈ cs
  orderBy : ∀ x, p.orderBy = some x ↔ .orderBy x ∈ cs
  limit : ∀ x, p.limit = some x ↔ .limit x ∈ cs
  union : ∀ l r a, p.union = some (l, r, a) ↔ .union l r a ∈ cs
  except : ∀ l r, p.except = some (l, r) ↔ .except l r ∈ cs
  intersect : ∀ l r, p.intersect = some (l, r) ↔ .intersect l r ∈ cs

theorem inv_fold (cs : List (Clause Q)) (hd : (cs.map kind).Nodup) : Inv cs (cs.foldl Parts.add {}) := by
  induction cs using List.reverseRecOn with
  | nil => constructor <;> simp
  | append_singleton cs c ih =>
    rw [List.map_append, List.nodup_append] at hd
    have hc : ∀ x ∈ cs, kind x ≠ kind c := fun x hx e => hd.2.2 (kind x) (List.mem_map_of_mem hx) (kind c) (by simp) e
    have ih := ih hd.1
    rw [List.foldl_append, List.foldl_cons, List.foldl_nil]
    generalize cs.foldl Parts.add {} = p at ih
    obtain ⟨i1, i2, i3, i4, i5, i6, i7, i8, i9, i10, i11, i12, i13⟩ := ih
    cases c with
    | src f =>
      obtain ⟨cls, items⟩ := f
      have n : ∀ y, .src y ∉ cs := fun y hy => hc _ hy rfl
      cases cls <;> constructor <;> simp only [Parts.add, List.mem_append, List.mem_singleton, reduceCtorEq, or_false] <;>
        first | assumption | simp [n, eq_comm]
    | hint y =>
      have n : ∀ y, .hint y ∉ cs := fun y hy => hc _ hy rfl
      constructor <;> simp only [Parts.add, List.mem_append, List.mem_singleton, reduceCtorEq, or_false] <;>
        first | assumption | simp [n, eq_comm]
    | explain y =>
      have n : ∀ y, .explain y ∉ cs := fun y hy => hc _ hy rfl
      constructor <;> simp only [Parts.add, List.mem_append, List.mem_singleton, reduceCtorEq, or_false] <;>
        first | assumption | simp [n, eq_comm]
    | cte y =>
      have n : ∀ y, .cte y ∉ cs := fun y hy => hc _ hy rfl
      constructor <;> simp only [Parts.add, List.mem_append, List.mem_singleton, reduceCtorEq, or_false] <;>
        first | assumption | simp [n, eq_comm]
    | select y =>
      have n : ∀ y, .select y ∉ cs := fun y hy => hc _ hy rfl
      constructor <;> simp only [Parts.add, List.mem_append, List.mem_singleton, reduceCtorEq, or_false] <;>
        first | assumption | simp [n, eq_comm]
    | where_ y =>
      have n : ∀ y, .where_ y ∉ cs := fun y hy => hc _ hy rfl
      constructor <;> simp only [Parts.add, List.mem_append, List.mem_singleton, reduceCtorEq, or_false] <;>
        first | assumption | simp [n, eq_comm]
    | groupBy y =>
      have n : ∀ y, .groupBy y ∉ cs := fun y hy => hc _ hy rfl
      constructor <;> simp only [Parts.add, List.mem_append, List.mem_singleton, reduceCtorEq, or_false] <;>
        first | assumption | simp [n, eq_comm]
    | having_ y =>
      have n : ∀ y, .having_ y ∉ cs := fun y hy => hc _ hy rfl
      constructor <;> simp only [Parts.add, List.mem_append, List.mem_singleton, reduceCtorEq, or_false] <;>
        first | assumption | simp [n, eq_comm]
    | orderBy y =>
      have n : ∀ y, .orderBy y ∉ cs := fun y hy => hc _ hy rfl
      constructor <;> simp only [Parts.add, List.mem_append, List.mem_singleton, reduceCtorEq, or_false] <;>
        first | assumption | simp [n, eq_comm]
    | limit y =>
      have n : ∀ y, .limit y ∉ cs := fun y hy => hc _ hy rfl
      constructor <;> simp only [Parts.add, List.mem_append, List.mem_singleton, reduceCtorEq, or_false] <;>
        first | assumption | simp [n, eq_comm]
    | union l r a =>
      have n : ∀ l r a, .union l r a ∉ cs := fun l r a hy => hc _ hy rfl
      constructor <;> simp only [Parts.add, List.mem_append, List.mem_singleton, reduceCtorEq, or_false] <;>
        first | assumption | simp [n, eq_comm]
    | except l r =>
      have n : ∀ l r, .except l r ∉ cs := fun l r hy => hc _ hy rfl
      constructor <;> simp only [Parts.add, List.mem_append, List.mem_singleton, reduceCtorEq, or_false] <;>
        first | assumption | simp [n, eq_comm]
    | intersect l r =>
      have n : ∀ l r, .intersect l r ∉ cs := fun l r hy => hc _ hy rfl
      constructor <;> simp only [Parts.add, List.mem_append, List.mem_singleton, reduceCtorEq, or_false] <;>
        first | assumption | simp [n, eq_comm]

/-- The flags after the loop, and whether there is a clause of a given kind. -/
structure Flags (cs : List (Clause Q)) (p : Parts Q) : Prop where
  set : p.set = true ↔ ∃ c ∈ cs, IsSet c
  sides : p.set = true ↔ p.union.isSome ∨ p.except.isSome ∨ p.intersect.isSome
  implicit : p.implicit = (match p.src with | none => true | some f => decide (f.cls = .implicit))
  explicit : p.explicit = (match p.src with | none => true | some f => decide (f.cls = .explicit))
  select : p.select.isSome ↔ ∃ x, .select x ∈ cs
  src : p.src.isSome ↔ ∃ x, .src x ∈ cs
  where_ : p.where_.isSome ↔ ∃ x, .where_ x ∈ cs
  groupBy : p.groupBy.isSome ↔ ∃ x, .groupBy x ∈ cs
  having_ : p.having_.isSome ↔ ∃ x, .having_ x ∈ cs

theorem flags_fold (cs : List (Clause Q)) : Flags cs (cs.foldl Parts.add {}) := by
  induction cs using List.reverseRecOn with
  | nil => constructor <;> simp
  | append_singleton cs c ih =>
    rw [List.foldl_append, List.foldl_cons, List.foldl_nil]
    generalize cs.foldl Parts.add {} = p at ih
    obtain ⟨i1, i2, i3, i4, i5, i6, i7, i8, i9⟩ := ih
    cases c with
    | src f =>
      obtain ⟨cls, items⟩ := f
      cases cls <;> constructor <;> simp only [Parts.add, List.mem_append, List.mem_singleton, reduceCtorEq, or_false] <;>
        first | assumption | simp [i1, i2, i3, i4, IsSet, exists_or, or_and_right]
    | _ => constructor <;> simp only [Parts.add, List.mem_append, List.mem_singleton, reduceCtorEq, or_false] <;>
        first | assumption | simp [i1, i2, i3, i4, IsSet, exists_or, or_and_right]

theorem quiet_drop {q : Stmt Q} (h : Quiet q) : q.dropExplain = q := by
  cases q <;> simp_all [Quiet, Stmt.dropExplain]

theorem finish_plain {p : Parts Q} (h : p.set = false) : p.finish = p.select.map fun s =>
    .sel ⟨if p.implicit then .implicit else if p.explicit then .explicit else .mixed, p.hints, p.explain, p.cte, s,
      p.src, p.where_, p.groupBy, p.having_, p.orderBy, p.limit⟩ := by
  simp [Parts.finish, h]

/-! ### C117: queries built from clauses -/

/-- `build_query` fails exactly if there is neither a SELECT clause nor a set operation, or if there is a set operation
together with a clause that only plain queries have. -/
theorem C117_error (cs : List (Clause Q)) : build cs = none ↔
    ((∀ c ∈ cs, ¬ IsSet c) ∧ ∀ s, .select s ∉ cs) ∨ ((∃ c ∈ cs, IsSet c) ∧ ∃ c ∈ cs, PlainOnly c) := by
  have F := flags_fold cs
  unfold build
  generalize cs.foldl Parts.add {} = p at F
  have P : (∃ c ∈ cs, PlainOnly c) ↔ (p.select.isSome || p.src.isSome || p.where_.isSome || p.groupBy.isSome || p.having_.isSome) = true := by
    simp only [Bool.or_eq_true, F.select, F.src, F.where_, F.groupBy, F.having_, PlainOnly]
    constructor
    · rintro ⟨c, hc, ⟨x, rfl⟩ | ⟨x, rfl⟩ | ⟨x, rfl⟩ | ⟨x, rfl⟩ | ⟨x, rfl⟩⟩
      · exact .inl (.inl (.inl (.inl ⟨x, hc⟩)))
      · exact .inl (.inl (.inl (.inr ⟨x, hc⟩)))
      · exact .inl (.inl (.inr ⟨x, hc⟩))
      · exact .inl (.inr ⟨x, hc⟩)
      · exact .inr ⟨x, hc⟩
    · rintro ((((⟨x, hc⟩ | ⟨x, hc⟩) | ⟨x, hc⟩) | ⟨x, hc⟩) | ⟨x, hc⟩)
      · exact ⟨_, hc, .inl ⟨x, rfl⟩⟩
      · exact ⟨_, hc, .inr (.inl ⟨x, rfl⟩)⟩
      · exact ⟨_, hc, .inr (.inr (.inl ⟨x, rfl⟩))⟩
      · exact ⟨_, hc, .inr (.inr (.inr (.inl ⟨x, rfl⟩)))⟩
      · exact ⟨_, hc, .inr (.inr (.inr (.inr ⟨x, rfl⟩)))⟩
  have S : (∀ c ∈ cs, ¬ IsSet c) ↔ ¬ ∃ c ∈ cs, IsSet c := by push Not; rfl
  rw [S, ← F.set, P]
  have T : (∀ s, Clause.select s ∉ cs) ↔ ¬ p.select.isSome := by rw [F.select]; push Not; rfl
  rw [T]
  cases h : p.set with
  | false => rw [finish_plain h]; simp
  | true =>
    have := F.sides.1 h
    unfold Parts.finish
    rw [if_pos h]
    simp only [Option.bind_eq_none_iff, not_true_eq_false, false_and, true_and, false_or]
    cases hb : (p.select.isSome || p.src.isSome || p.where_.isSome || p.groupBy.isSome || p.having_.isSome)
    · simp only [Bool.false_eq_true, if_false, reduceCtorEq, imp_false, iff_false]
      push Not
      cases eu : p.union with
      | some x => exact ⟨_, rfl⟩
      | none =>
        cases ee : p.except with
        | some x => exact ⟨_, rfl⟩
        | none =>
          cases e : p.intersect with
          | some x => exact ⟨_, rfl⟩
          | none => simp_all
    · simp

/-- The class of a plain query that is built by `build_query` fits to its FROM clause. -/
theorem C117_class (cs : List (Clause Q)) (s : Sel Q) (h : build cs = some (.sel s)) : Fitting s := by
  have F := flags_fold cs
  unfold build at h
  generalize cs.foldl Parts.add {} = p at F h
  cases hs : p.set with
  | true =>
    unfold Parts.finish at h
    rw [if_pos hs] at h
    simp only [Option.bind_eq_some_iff] at h
    obtain ⟨x, -, hx⟩ := h
    split at hx <;> simp [mkSet] at hx
  | false =>
    rw [finish_plain hs, Option.map_eq_some_iff] at h
    obtain ⟨x, -, hx⟩ := h
    simp only [Stmt.sel.injEq] at hx
    subst hx
    unfold Fitting
    have h1 := F.implicit
    have h2 := F.explicit
    cases e : p.src with
    | none => simp_all
    | some f =>
      obtain ⟨cls, items⟩ := f
      cases cls <;> simp_all

theorem mem_selClauses (s : Sel Q) (c : Clause Q) : c ∈ s.clauses ↔
    (∃ x, s.hints = some x ∧ c = .hint x) ∨ (∃ x, s.explain = some x ∧ c = .explain x) ∨
    (∃ x, s.cte = some x ∧ c = .cte x) ∨ c = .select s.select ∨ (∃ x, s.src = some x ∧ c = .src x) ∨
    (∃ x, s.where_ = some x ∧ c = .where_ x) ∨ (∃ x, s.groupBy = some x ∧ c = .groupBy x) ∨
    (∃ x, s.having_ = some x ∧ c = .having_ x) ∨ (∃ x, s.orderBy = some x ∧ c = .orderBy x) ∨
    ∃ x, s.limit = some x ∧ c = .limit x := by
  simp only [Sel.clauses, List.mem_filterMap, id, List.mem_cons, List.not_mem_nil, or_false]
  simp only [exists_eq_right, eq_comm (a := some c), Option.map_eq_some_iff, Option.some.injEq, eq_comm (b := c)]

theorem mem_setClauses (l r : Stmt Q) (op cte o m h e) (c : Clause Q) :
    c ∈ (Stmt.set l r op cte o m h e).clauses ↔
    (∃ x, h = some x ∧ c = .hint x) ∨ (∃ x, e = some x ∧ c = .explain x) ∨
    (∃ x, cte = some x ∧ c = .cte x) ∨ c = setClause l r op ∨ (∃ x, o = some x ∧ c = .orderBy x) ∨
    ∃ x, m = some x ∧ c = .limit x := by
  simp only [Stmt.clauses, List.mem_filterMap, id, List.mem_cons, List.not_mem_nil, or_false]
  simp only [exists_eq_right, eq_comm (a := some c), Option.map_eq_some_iff, Option.some.injEq, eq_comm (b := c)]

/-- A query that is built from clauses of pairwise different kinds has exactly these clauses, if the sides of a set
operation are not EXPLAIN queries (whose EXPLAIN clause is dropped, with a warning). -/
theorem C117_clauses (cs : List (Clause Q)) (hd : (cs.map kind).Nodup) (hq : QuietSides cs) (q : Stmt Q)
    (h : build cs = some q) (c : Clause Q) : c ∈ q.clauses ↔ c ∈ cs := by
  have he := C117_error cs
  have F := flags_fold cs
  have I := inv_fold cs hd
  unfold build at h he
  generalize cs.foldl Parts.add {} = p at F I h he
  cases hs : p.set with
  | false =>
    have ns : ∀ c ∈ cs, ¬ IsSet c := fun c hc k => by
      have := F.set.2 ⟨c, hc, k⟩
      simp [hs] at this
    rw [finish_plain hs, Option.map_eq_some_iff] at h
    obtain ⟨x, hx, rfl⟩ := h
    change c ∈ Sel.clauses _ ↔ _
    rw [mem_selClauses]
    simp only [I.hints, I.explain, I.cte, I.src, I.where_, I.groupBy, I.having_, I.orderBy, I.limit]
    have hx' := (I.select x).1 hx
    have hu : ∀ y, Clause.select y ∈ cs → y = x := fun y hy => by
      have := (I.select y).2 hy
      rw [hx] at this
      exact (Option.some.inj this).symm
    constructor
    · rintro (⟨x, hm, rfl⟩ | ⟨x, hm, rfl⟩ | ⟨x, hm, rfl⟩ | rfl | ⟨x, hm, rfl⟩ | ⟨x, hm, rfl⟩ | ⟨x, hm, rfl⟩ |
        ⟨x, hm, rfl⟩ | ⟨x, hm, rfl⟩ | ⟨x, hm, rfl⟩) <;> assumption
    · intro hm
      have hn := ns c hm
      clear ns
      cases c <;> simp_all [IsSet]
  | true =>
    obtain ⟨sc, hsc, hset⟩ := F.set.1 hs
    have hk : ∀ c : Clause Q, IsSet c → kind c = 10 := by
      rintro c (⟨l, r, a, rfl⟩ | ⟨l, r, rfl⟩ | ⟨l, r, rfl⟩) <;> rfl
    have huniq : ∀ c ∈ cs, IsSet c → c = sc := fun c hc k =>
      List.inj_on_of_nodup_map hd hc hsc ((hk _ k).trans (hk _ hset).symm)
    have np : ∀ c ∈ cs, ¬ PlainOnly c := fun c hc k => by
      rw [he.2 (.inr ⟨⟨sc, hsc, hset⟩, c, hc, k⟩)] at h
      simp at h
    have pn : (p.select.isSome || p.src.isSome || p.where_.isSome || p.groupBy.isSome || p.having_.isSome) = false := by
      rw [Bool.eq_false_iff]
      intro hp
      simp only [Bool.or_eq_true, F.select, F.src, F.where_, F.groupBy, F.having_] at hp
      rcases hp with ((((⟨x, hc⟩ | ⟨x, hc⟩) | ⟨x, hc⟩) | ⟨x, hc⟩) | ⟨x, hc⟩)
      · exact np _ hc (.inl ⟨x, rfl⟩)
      · exact np _ hc (.inr (.inl ⟨x, rfl⟩))
      · exact np _ hc (.inr (.inr (.inl ⟨x, rfl⟩)))
      · exact np _ hc (.inr (.inr (.inr (.inl ⟨x, rfl⟩))))
      · exact np _ hc (.inr (.inr (.inr (.inr ⟨x, rfl⟩))))
    have main : ∀ l r op, sc = setClause l r op → Quiet l → Quiet r →
        q = .set l r op p.cte p.orderBy p.limit p.hints p.explain → (c ∈ q.clauses ↔ c ∈ cs) := by
      rintro l r op e - - rfl
      rw [mem_setClauses]
      simp only [I.hints, I.explain, I.cte, I.orderBy, I.limit]
      constructor
      · rintro (⟨x, hm, rfl⟩ | ⟨x, hm, rfl⟩ | ⟨x, hm, rfl⟩ | rfl | ⟨x, hm, rfl⟩ | ⟨x, hm, rfl⟩)
        all_goals first | assumption | exact e ▸ hsc
      · intro hm
        have hn := np c hm
        have hc := huniq c hm
        rw [← e]
        clear np huniq he
        cases c <;> simp_all [PlainOnly, IsSet]
    unfold Parts.finish at h
    rw [if_pos hs] at h
    rcases hset with ⟨l, r, a, rfl⟩ | ⟨l, r, rfl⟩ | ⟨l, r, rfl⟩
    · have k := hq l r (.inl ⟨a, hsc⟩)
      refine main l r (if a then .unionAll else .union) (by cases a <;> rfl) k.1 k.2 ?_
      rw [(I.union l r a).2 hsc] at h
      simpa [pn, mkSet, quiet_drop k.1, quiet_drop k.2, eq_comm] using h
    · have k := hq l r (.inr (.inl hsc))
      refine main l r .except rfl k.1 k.2 ?_
      have n1 : p.union = none := by
        cases e : p.union with
        | none => rfl
        | some x => simpa using huniq _ ((I.union x.1 x.2.1 x.2.2).1 e) (.inl ⟨_, _, _, rfl⟩)
      rw [(I.except l r).2 hsc, n1] at h
      simpa [pn, mkSet, quiet_drop k.1, quiet_drop k.2, eq_comm] using h
    · have k := hq l r (.inr (.inr hsc))
      refine main l r .intersect rfl k.1 k.2 ?_
      have n1 : p.union = none := by
        cases e : p.union with
        | none => rfl
        | some x => simpa using huniq _ ((I.union x.1 x.2.1 x.2.2).1 e) (.inl ⟨_, _, _, rfl⟩)
      have n2 : p.except = none := by
        cases e : p.except with
        | none => rfl
        | some x => simpa using huniq _ ((I.except x.1 x.2).1 e) (.inr (.inl ⟨_, _, rfl⟩))
      rw [(I.intersect l r).2 hsc, n1, n2] at h
      simpa [pn, mkSet, quiet_drop k.1, quiet_drop k.2, eq_comm] using h

theorem parts_ext {cs cs' : List (Clause Q)} {p p' : Parts Q} (hm : ∀ c, c ∈ cs ↔ c ∈ cs') (I : Inv cs p)
    (I' : Inv cs' p') (F : Flags cs p) (F' : Flags cs' p') : p = p' := by
  have key : ∀ {α : Type} {a b : Option α} {f : α → Clause Q}, (∀ x, a = some x ↔ f x ∈ cs) →
      (∀ x, b = some x ↔ f x ∈ cs') → a = b := fun h h' => Option.ext fun x => by
    rw [h, h', hm]
  have e1 := key I.hints I'.hints
  have e2 := key I.explain I'.explain
  have e3 := key I.cte I'.cte
  have e4 := key I.select I'.select
  have e5 := key I.src I'.src
  have e6 := key I.where_ I'.where_
  have e7 := key I.groupBy I'.groupBy
  have e8 := key I.having_ I'.having_
  have e9 := key I.orderBy I'.orderBy
  have e10 := key I.limit I'.limit
  have e11 : p.union = p'.union := Option.ext fun ⟨l, r, a⟩ => by rw [I.union, I'.union, hm]
  have e12 : p.except = p'.except := Option.ext fun ⟨l, r⟩ => by rw [I.except, I'.except, hm]
  have e13 : p.intersect = p'.intersect := Option.ext fun ⟨l, r⟩ => by rw [I.intersect, I'.intersect, hm]
  have e14 : p.set = p'.set := by
    rw [Bool.eq_iff_iff, F.sides, F'.sides, e11, e12, e13]
  have e15 : p.implicit = p'.implicit := by rw [F.implicit, F'.implicit, e5]
  have e16 : p.explicit = p'.explicit := by rw [F.explicit, F'.explicit, e5]
  cases p; cases p'
  simp only at e1 e2 e3 e4 e5 e6 e7 e8 e9 e10 e11 e12 e13 e14 e15 e16
  subst_vars
  rfl

/-- The order of the clauses does not matter, if they are of pairwise different kinds. -/
theorem C117_order (cs cs' : List (Clause Q)) (hp : cs.Perm cs') (hd : (cs.map kind).Nodup) : build cs = build cs' := by
  unfold build
  rw [parts_ext (fun c => hp.mem_iff) (inv_fold cs hd) (inv_fold cs' ((hp.map kind).nodup_iff.1 hd)) (flags_fold cs)
    (flags_fold cs')]

theorem nodup_kinds {k : Nat} {l : List (Option (Clause Q))}
    (h : Ranked k l) (hk : ∀ c, some c ∈ l → kind c = rank c) : ((l.filterMap id).map kind).Nodup := by
  induction l generalizing k with
  | nil => simp
  | cons o l ih =>
    cases o with
    | none => exact ih h.2 (fun c hc => hk c (by simp [hc]))
    | some x =>
      change ((x :: l.filterMap id).map kind).Nodup
      rw [List.map_cons, List.nodup_cons]
      refine ⟨fun hm => ?_, ih h.2 (fun c hc => hk c (by simp [hc]))⟩
      obtain ⟨y, hy, e⟩ := List.mem_map.1 hm
      obtain ⟨z, hz, rfl⟩ := List.mem_filterMap.1 hy
      have h1 := ranked_le h.2 y hz
      have h2 := h.1 x rfl
      rw [hk y (by simp [show some y ∈ l from hz]), hk x (by simp)] at e
      omega

theorem sel_kinds (s : Sel Q) : (s.clauses.map kind).Nodup := by
  unfold Sel.clauses
  refine nodup_kinds (k := 0) ?_ ?_
  · simp only [Ranked, Option.map_eq_some_iff, forall_exists_index, and_imp, and_true, Option.some.injEq]
    refine ⟨?_, ?_, ?_, ?_, ?_, ?_, ?_, ?_, ?_, ?_⟩ <;> intros <;> (try subst_vars) <;> rfl
  · intro c hc
    have : c ∈ s.clauses := List.mem_filterMap.2 ⟨some c, hc, rfl⟩
    rw [mem_selClauses] at this
    rcases this with (⟨x, -, rfl⟩ | ⟨x, -, rfl⟩ | ⟨x, -, rfl⟩ | rfl | ⟨x, -, rfl⟩ | ⟨x, -, rfl⟩ | ⟨x, -, rfl⟩ |
        ⟨x, -, rfl⟩ | ⟨x, -, rfl⟩ | ⟨x, -, rfl⟩) <;> rfl

/-- Building a query from the clauses of a plain query whose class fits to its FROM clause, or of a set query whose
sides are not EXPLAIN queries, gives the query back. -/
theorem C117_rebuild (q : Stmt Q) (hf : ∀ s, q = .sel s → Fitting s) (hq : QuietSides q.clauses) :
    build q.clauses = some q := by
  cases q with
  | sel s =>
    change build s.clauses = _
    have I := inv_fold s.clauses (sel_kinds s)
    have F := flags_fold s.clauses
    unfold build
    generalize s.clauses.foldl Parts.add {} = p at I F
    have ns : p.set = false := by
      rw [Bool.eq_false_iff]
      intro h
      obtain ⟨c, hc, k⟩ := F.set.1 h
      rw [mem_selClauses] at hc
      rcases hc with (⟨x, -, rfl⟩ | ⟨x, -, rfl⟩ | ⟨x, -, rfl⟩ | rfl | ⟨x, -, rfl⟩ | ⟨x, -, rfl⟩ | ⟨x, -, rfl⟩ |
        ⟨x, -, rfl⟩ | ⟨x, -, rfl⟩ | ⟨x, -, rfl⟩) <;> simp [IsSet] at k
    have e1 : p.hints = s.hints := Option.ext fun x => by rw [I.hints, mem_selClauses]; simp
    have e2 : p.explain = s.explain := Option.ext fun x => by rw [I.explain, mem_selClauses]; simp
    have e3 : p.cte = s.cte := Option.ext fun x => by rw [I.cte, mem_selClauses]; simp
    have e4 : p.select = some s.select := Option.ext fun x => by rw [I.select, mem_selClauses]; simp [eq_comm]
    have e5 : p.src = s.src := Option.ext fun x => by rw [I.src, mem_selClauses]; simp
    have e6 : p.where_ = s.where_ := Option.ext fun x => by rw [I.where_, mem_selClauses]; simp
    have e7 : p.groupBy = s.groupBy := Option.ext fun x => by rw [I.groupBy, mem_selClauses]; simp
    have e8 : p.having_ = s.having_ := Option.ext fun x => by rw [I.having_, mem_selClauses]; simp
    have e9 : p.orderBy = s.orderBy := Option.ext fun x => by rw [I.orderBy, mem_selClauses]; simp
    have e10 : p.limit = s.limit := Option.ext fun x => by rw [I.limit, mem_selClauses]; simp
    rw [finish_plain ns, e4, Option.map_some, e1, e2, e3, e5, e6, e7, e8, e9, e10, F.implicit, F.explicit, e5]
    have hf := hf s rfl
    unfold Fitting at hf
    cases s with
    | mk cls hints explain cte select src where_ groupBy having_ orderBy limit =>
      cases src with
      | none => simp_all
      | some f =>
        obtain ⟨fc, fi⟩ := f
        cases fc <;> simp_all
  | set l r op cte o m h e =>
    have quiet : Quiet l ∧ Quiet r := by
      refine hq l r ?_
      have : setClause l r op ∈ (Stmt.set l r op cte o m h e).clauses := by rw [mem_setClauses]; simp
      cases op
      · exact .inl ⟨_, this⟩
      · exact .inl ⟨_, this⟩
      · exact .inr (.inr this)
      · exact .inr (.inl this)
    have F := flags_fold (Stmt.set l r op cte o m h e).clauses
    have nd : (((Stmt.set l r op cte o m h e).clauses).map kind).Nodup := by
      unfold Stmt.clauses
      cases h <;> cases e <;> cases cte <;> cases o <;> cases m <;> cases op <;> simp [setClause, kind]
    have I := inv_fold _ nd
    unfold build
    generalize (Stmt.set l r op cte o m h e).clauses.foldl Parts.add {} = p at I F
    have e1 : p.hints = h := Option.ext fun x => by rw [I.hints, mem_setClauses]; cases op <;> simp [setClause]
    have e2 : p.explain = e := Option.ext fun x => by rw [I.explain, mem_setClauses]; cases op <;> simp [setClause]
    have e3 : p.cte = cte := Option.ext fun x => by rw [I.cte, mem_setClauses]; cases op <;> simp [setClause]
    have e9 : p.orderBy = o := Option.ext fun x => by rw [I.orderBy, mem_setClauses]; cases op <;> simp [setClause]
    have e10 : p.limit = m := Option.ext fun x => by rw [I.limit, mem_setClauses]; cases op <;> simp [setClause]
    have e4 : p.select = none := Option.ext fun x => by rw [I.select, mem_setClauses]; cases op <;> simp [setClause]
    have e5 : p.src = none := Option.ext fun x => by rw [I.src, mem_setClauses]; cases op <;> simp [setClause]
    have e6 : p.where_ = none := Option.ext fun x => by rw [I.where_, mem_setClauses]; cases op <;> simp [setClause]
    have e7 : p.groupBy = none := Option.ext fun x => by rw [I.groupBy, mem_setClauses]; cases op <;> simp [setClause]
    have e8 : p.having_ = none := Option.ext fun x => by rw [I.having_, mem_setClauses]; cases op <;> simp [setClause]
    have hs : p.set = true := F.set.2 ⟨setClause l r op, by rw [mem_setClauses]; simp, by
      cases op <;> simp [IsSet, setClause]⟩
    unfold Parts.finish
    rw [if_pos hs, e1, e2, e3, e4, e5, e6, e7, e8, e9, e10]
    cases op
    · have u : p.union = some (l, r, false) := by rw [I.union, mem_setClauses]; simp [setClause]
      simp [u, mkSet, quiet_drop quiet.1, quiet_drop quiet.2]
    · have u : p.union = some (l, r, true) := by rw [I.union, mem_setClauses]; simp [setClause]
      simp [u, mkSet, quiet_drop quiet.1, quiet_drop quiet.2]
    · have u : p.union = none := Option.ext fun ⟨x, y, a⟩ => by rw [I.union, mem_setClauses]; simp [setClause]
      have v : p.except = none := Option.ext fun ⟨x, y⟩ => by rw [I.except, mem_setClauses]; simp [setClause]
      have w : p.intersect = some (l, r) := by rw [I.intersect, mem_setClauses]; simp [setClause]
      simp [u, v, w, mkSet, quiet_drop quiet.1, quiet_drop quiet.2]
    · have u : p.union = none := Option.ext fun ⟨x, y, a⟩ => by rw [I.union, mem_setClauses]; simp [setClause]
      have v : p.except = some (l, r) := by rw [I.except, mem_setClauses]; simp [setClause]
      simp [u, v, mkSet, quiet_drop quiet.1, quiet_drop quiet.2]

/-! ### Disagreements -/

/-- `SELECT * FROM R`, as an object of the class `SqlQuery` or `ImplicitSqlQuery`. -/
def sample (cls : QueryClass) : Sel (QH 0) :=
  ⟨cls, none, none, none, ⟨[⟨.star none, ""⟩], .none, []⟩, some ⟨.implicit, [.table 0]⟩, none, none, none, none, none⟩

/-- Whether two queries are equal depends on the order of the operands: a query of the base class equals a query of a
derived class with the same clauses, but not the other way round. The same holds for FROM clauses. -/
theorem C116_symm_violated :
    ((opsAt 1).eq (.sel (sample .plain) : Stmt (QH 0)) (.sel (sample .implicit) : Stmt (QH 0)) = true ∧
      (opsAt 1).eq (.sel (sample .implicit) : Stmt (QH 0)) (.sel (sample .plain) : Stmt (QH 0)) = false) ∧
    ∀ (n : Nat) (items : List (Source (QH n))) (c : FromClass), c ≠ .plain →
      From.eq (opsAt n) ⟨.plain, items⟩ ⟨c, items⟩ = true ∧ From.eq (opsAt n) ⟨c, items⟩ ⟨.plain, items⟩ = false := by
  refine ⟨⟨by decide +kernel, by decide +kernel⟩, fun n items c hc => ?_⟩
  have := listEq_refl (eq := Source.eq (opsAt n)) (fun i (_ : i ∈ items) => source_refl (C116_refl n) i)
  cases c <;> simp_all [From.eq, FromClass.covers]

/-- A query and its WHERE clause replaced. -/
def withWhere {n : Nat} (s : Sel (QH n)) (e : Expr (QH n)) : Stmt (QH n) := .sel { s with where_ := some e }

/-- Equal queries with different hash values, for every other part of the query: the values of an IN predicate in a
different order, an EXPLAIN clause whose format is empty or missing, another FETCH direction, a LATERAL subquery, a table
instead of a string as the name of a WITH query. -/
theorem C116_hash_violated (n : Nat) (s : Sel (QH n)) :
    (∀ (c : Col) (v w : Val), v ≠ w →
      (opsAt (n + 1)).eq (withWhere s (.inP (.col c) [.static v, .static w]))
        (withWhere s (.inP (.col c) [.static w, .static v])) = true ∧
      (opsAt (n + 1)).hash (withWhere s (.inP (.col c) [.static v, .static w])) ≠
        (opsAt (n + 1)).hash (withWhere s (.inP (.col c) [.static w, .static v]))) ∧
    (∀ a, (opsAt (n + 1)).eq (.sel { s with explain := some ⟨a, some ""⟩ } : Stmt (QH n))
        (.sel { s with explain := some ⟨a, none⟩ } : Stmt (QH n)) = true ∧
      (opsAt (n + 1)).hash (.sel { s with explain := some ⟨a, some ""⟩ } : Stmt (QH n)) ≠
        (opsAt (n + 1)).hash (.sel { s with explain := some ⟨a, none⟩ } : Stmt (QH n))) ∧
    (∀ l o, (opsAt (n + 1)).eq (.sel { s with limit := some ⟨l, o, "first"⟩ } : Stmt (QH n))
        (.sel { s with limit := some ⟨l, o, "next"⟩ } : Stmt (QH n)) = true ∧
      (opsAt (n + 1)).hash (.sel { s with limit := some ⟨l, o, "first"⟩ } : Stmt (QH n)) ≠
        (opsAt (n + 1)).hash (.sel { s with limit := some ⟨l, o, "next"⟩ } : Stmt (QH n))) ∧
    (∀ q x, (opsAt (n + 1)).eq (.sel { s with src := some ⟨.plain, [.subquery q x true]⟩ } : Stmt (QH n))
        (.sel { s with src := some ⟨.plain, [.subquery q x false]⟩ } : Stmt (QH n)) = true ∧
      (opsAt (n + 1)).hash (.sel { s with src := some ⟨.plain, [.subquery q x true]⟩ } : Stmt (QH n)) ≠
        (opsAt (n + 1)).hash (.sel { s with src := some ⟨.plain, [.subquery q x false]⟩ } : Stmt (QH n))) ∧
    (∀ q x t, (opsAt (n + 1)).eq (.sel { s with cte := some ⟨[.query q ⟨x, none⟩ none], false⟩ } : Stmt (QH n))
        (.sel { s with cte := some ⟨[.query q ⟨x, some t⟩ none], false⟩ } : Stmt (QH n)) = true ∧
      (opsAt (n + 1)).hash (.sel { s with cte := some ⟨[.query q ⟨x, none⟩ none], false⟩ } : Stmt (QH n)) ≠
        (opsAt (n + 1)).hash (.sel { s with cte := some ⟨[.query q ⟨x, some t⟩ none], false⟩ } : Stmt (QH n))) := by
  have hr := stmt_refl (C116_refl n) (.sel s)
  rw [Stmt.eq, sel_eq] at hr
  have hq := C116_refl n
  refine ⟨fun c v w hvw => ⟨?_, ?_⟩, fun a => ⟨?_, ?_⟩, fun l o => ⟨?_, ?_⟩, fun q x => ⟨?_, ?_⟩, fun q x t => ⟨?_, ?_⟩⟩
  · change Sel.eq _ _ _ = true
    rw [sel_eq]
    refine ⟨hr.1, hr.2.1, hr.2.2.1, hr.2.2.2.1, hr.2.2.2.2.1, hr.2.2.2.2.2.1, ?_, hr.2.2.2.2.2.2.2⟩
    simp [optEq, exprEq, allIn, anyIn, exprHash, key_beq]
  · change Sel.hash _ _ ≠ Sel.hash _ _
    simp [Sel.hash, Key.opt, exprHash, exprHashL]
    intro h
    exact absurd h hvw
  · change Sel.eq _ _ _ = true
    rw [sel_eq]
    refine ⟨hr.1, hr.2.1, ?_, hr.2.2.2⟩
    simp [optEq, Explain.eq, Explain.target]
  · change Sel.hash _ _ ≠ Sel.hash _ _
    simp [Sel.hash, Key.opt, Explain.hash]
  · change Sel.eq _ _ _ = true
    rw [sel_eq]
    obtain ⟨a1, a2, a3, a4, a5, a6, a7, a8, a9, a10, a11⟩ := hr
    refine ⟨a1, a2, a3, a4, a5, a6, a7, a8, a9, a10, ?_⟩
    simp [optEq, Limit.eq]
  · change Sel.hash _ _ ≠ Sel.hash _ _
    simp [Sel.hash, Key.opt, Limit.hash]
  · change Sel.eq _ _ _ = true
    rw [sel_eq]
    obtain ⟨a1, a2, a3, a4, a5, a6, a7, a8, a9, a10, a11⟩ := hr
    refine ⟨a1, a2, a3, a4, a5, ?_, a7, a8, a9, a10, a11⟩
    simp [optEq, From.eq, FromClass.covers, listEq, Source.eq, hq]
  · change Sel.hash _ _ ≠ Sel.hash _ _
    simp [Sel.hash, Key.opt, From.hash, Source.hash]
  · change Sel.eq _ _ _ = true
    rw [sel_eq]
    obtain ⟨a1, a2, a3, a4, a5, a6, a7, a8, a9, a10, a11⟩ := hr
    refine ⟨a1, a2, a3, ?_, a5, a6, a7, a8, a9, a10, a11⟩
    simp [optEq, Cte.eq, listEq, With.eq, hq]
  · change Sel.hash _ _ ≠ Sel.hash _ _
    simp [Sel.hash, Key.opt, Cte.hash, With.hash]

/-- Comparing two EXCEPT clauses, or two INTERSECT clauses, always raises an exception, even for the same clause. -/
theorem C116_set_clause_violated (n : Nat) (l r l' r' : Stmt (QH n)) :
    setClauseEq (opsAt n) (.except l r) (.except l' r') = none ∧
      setClauseEq (opsAt n) (.intersect l r) (.intersect l' r') = none ∧
      setClauseEq (opsAt n) (.union l r true) (.union l r true) = some true := by
  refine ⟨rfl, rfl, ?_⟩
  simp [setClauseEq, stmt_refl (C116_refl n)]

/-- If there are two set operations, all but one of them are ignored: the EXCEPT clause and its queries get lost. -/
theorem C117_two_operations_violated (l r l' r' : Stmt Q) (a : Bool) :
    build [.except l r, .union l' r' a] = build [.union l' r' a] ∧ (build [.union l' r' a]).isSome = true :=
  ⟨rfl, rfl⟩

/-- A query of the base class is not rebuilt: the class changes, and the result is not equal to the query. -/
theorem C117_class_violated (n : Nat) (s : Sel (QH n)) (h : s.cls = .plain) :
    ∃ s', build s.clauses = some (.sel s') ∧ (opsAt (n + 1)).eq (.sel s : Stmt (QH n)) (.sel s' : Stmt (QH n)) = true ∧
      (opsAt (n + 1)).eq (.sel s' : Stmt (QH n)) (.sel s : Stmt (QH n)) = false := by
  obtain ⟨cls, h1⟩ : ∃ cls, Fitting { s with cls := cls } ∧ cls ≠ .plain := by
    unfold Fitting
    cases e : s.src with
    | none => exact ⟨.implicit, by simp [e]⟩
    | some f =>
      obtain ⟨fc, fi⟩ := f
      cases fc
      · exact ⟨.mixed, by simp [e]⟩
      · exact ⟨.implicit, by simp [e]⟩
      · exact ⟨.explicit, by simp [e]⟩
  refine ⟨{ s with cls := cls }, ?_, ?_, ?_⟩
  · have := C117_rebuild (.sel { s with cls := cls }) (fun t ht => by cases ht; exact h1.1) (by
      intro l r hm
      change (∃ a, _ ∈ Sel.clauses _) ∨ _ ∈ Sel.clauses _ ∨ _ ∈ Sel.clauses _ at hm
      simp [mem_selClauses] at hm)
    exact this
  · change Sel.eq _ _ _ = true
    have hr := stmt_refl (C116_refl n) (.sel s)
    rw [Stmt.eq, sel_eq] at hr
    rw [sel_eq]
    exact ⟨by simp [QueryClass.covers, h], hr.2⟩
  · change Sel.eq _ _ _ = false
    rw [Bool.eq_false_iff, Ne, sel_eq]
    simp [QueryClass.covers, h, h1.2]

/-! ### The hypotheses are met -/

theorem exprOk_col {R : Rules Q} (h : ∀ e, R.node e) (c : Col) : ExprOk R (.col c) := by
  rw [exprOk_iff]; simp [h, Expr.subs]

/-- `SELECT * FROM R` with the class that `build_query` chooses. -/
def good : Stmt (QH 0) := .sel (sample .implicit)

/-- `SELECT x.a FROM (SELECT * FROM R) AS x WHERE x.a IN (1) LIMIT 3` -/
def outer : Stmt (QH 1) :=
  .sel ⟨.mixed, none, some ⟨true, none⟩, none, ⟨[⟨.col ⟨some 1, 0⟩, "b"⟩], .none, []⟩,
    some ⟨.plain, [.subquery good "x" false]⟩, some (.inP (.col ⟨some 1, 0⟩) [.static (.num 1)]), none, none, none,
    some ⟨some 3, none, "first"⟩⟩

/-- `SELECT * FROM R UNION SELECT * FROM R` -/
def both : Stmt (QH 0) := .set good good .union none none none none none

theorem oneValue_of {e : Expr Q} (h : ∀ x vs, e ≠ .inP x vs) : OneValue e := fun x vs k => absurd k (h x vs)

theorem good_plain : Follows plainRules 1 good := by
  change StmtOk _ _
  refine ⟨?_, ?_, ?_, ?_, ?_, ?_, ?_, ?_, ?_, ?_, ?_⟩ <;> simp [sample, Fitting, plainRules, SourceOk]
  rw [exprOk_iff]
  simp [Expr.subs, OneValue]

theorem outer_plain : Follows plainRules 2 outer := by
  change StmtOk _ _
  refine ⟨?_, ?_, ?_, ?_, ?_, ?_, ?_, ?_, ?_, ?_, ?_⟩ <;> simp [outer, Fitting, plainRules, SourceOk]
  · rw [exprOk_iff]
    simp [Expr.subs, OneValue]
  · exact ⟨fun q n h => (by cases h), good_plain⟩
  · rw [exprOk_iff]
    refine ⟨⟨by simp [OneValue], by simp⟩, ?_⟩
    simp only [Expr.subs, List.mem_cons, List.not_mem_nil, or_false]
    rintro c (rfl | rfl) <;> rw [exprOk_iff] <;> simp [Expr.subs, OneValue]

example : (opsAt 2).eq outer outer = true := (C116_equal_partial 2 outer outer outer_plain outer_plain).2 rfl

theorem plain_built (n : Nat) (q : QH n) (h : Follows plainRules n q) : Follows builtRules n q ∧ Follows hashRules n q := by
  have E : ∀ {Q : Type} {R R' : Rules Q}, (∀ e, R.node e → R'.node e) → (∀ q, R.sub q → R'.sub q) →
      ∀ e, ExprOk R e → ExprOk R' e := fun h1 h2 e he s hs => ⟨h1 _ (he s hs).1, fun q hq => h2 q ((he s hs).2 q hq)⟩
  have S : ∀ {Q : Type} {R R' : Rules Q}, (∀ e, R.node e → R'.node e) → (∀ q, R.sub q → R'.sub q) →
      (∀ e, R.source e → R'.source e) → ∀ s, SourceOk R s → SourceOk R' s := by
    intro Q R R' h1 h2 h3 s hs
    induction s with
    | table => exact h3 _ hs
    | subquery => exact ⟨h3 _ hs.1, h2 _ hs.2⟩
    | values => exact ⟨h3 _ hs.1, fun r hr e he => E h1 h2 e (hs.2 r hr e he)⟩
    | func => exact ⟨h3 _ hs.1, E h1 h2 _ hs.2⟩
    | join l r c ty ihl ihr => exact ⟨h3 _ hs.1, ihl hs.2.1, ihr hs.2.2.1, fun e he => E h1 h2 _ (hs.2.2.2 e he)⟩
  have T : ∀ {Q : Type} {R R' : Rules Q}, (∀ e, R.node e → R'.node e) → (∀ q, R.sub q → R'.sub q) →
      (∀ e, R.source e → R'.source e) → (∀ e, R.with_ e → R'.with_ e) → (∀ e, R.explain e → R'.explain e) →
      (∀ e, R.limit e → R'.limit e) → (∀ e, R.sel e → R'.sel e) → ∀ s, StmtOk R s → StmtOk R' s := by
    intro Q R R' h1 h2 h3 h4 h5 h6 h7 s hs
    have W : ∀ w, WithOk R w → WithOk R' w := fun w hw =>
      ⟨h4 _ hw.1, fun q t m e => h2 _ (hw.2.1 q t m e), fun r t c m e row hr x hx => E h1 h2 _ (hw.2.2 r t c m e row hr x hx)⟩
    induction s with
    | sel s =>
      exact ⟨h7 _ hs.sel, fun e he => h5 _ (hs.explain e he), fun c hc w hw => W w (hs.cte c hc w hw),
        fun t ht => E h1 h2 _ (hs.targets t ht), fun e he => E h1 h2 _ (hs.distinct e he),
        fun f hf i hi => S h1 h2 h3 i (hs.src f hf i hi), fun e he => E h1 h2 _ (hs.where_ e he),
        fun g hg e he => E h1 h2 _ (hs.groupBy g hg e he), fun e he => E h1 h2 _ (hs.having_ e he),
        fun o ho i hi => E h1 h2 _ (hs.orderBy o ho i hi), fun l hl => h6 _ (hs.limit l hl)⟩
    | set l r op c o m h e ihl ihr =>
      obtain ⟨a1, a2, a3, a4, a5, a6⟩ := hs
      exact ⟨ihl a1, ihr a2, fun x hx w hw => W w (a3 x hx w hw), fun x hx i hi => E h1 h2 _ (a4 x hx i hi),
        fun x hx => h6 _ (a5 x hx), fun x hx => h5 _ (a6 x hx)⟩
  induction n with
  | zero => exact ⟨trivial, trivial⟩
  | succ n ih =>
    exact ⟨T (R := plainRules (Follows plainRules n)) (R' := builtRules (Follows builtRules n)) (fun _ _ => trivial) (fun q hq => (ih q hq).1) (fun _ _ => trivial)
      (fun _ _ => trivial) (fun _ _ => trivial) (fun _ _ => trivial) (fun _ h => h) q h,
      T (R := plainRules (Follows plainRules n)) (R' := hashRules (Follows hashRules n)) (fun _ h => h) (fun q hq => (ih q hq).2) (fun _ h => h)
      (fun _ h => fun q t m e => (h.1 q t m e).1) (fun _ h => h) (fun _ h => h) (fun _ _ => trivial) q h⟩

example : Follows builtRules 2 outer ∧ Follows hashRules 2 outer := plain_built 2 outer outer_plain

example : build both.clauses = some both ∧ QuietSides both.clauses ∧ (both.clauses.map kind).Nodup := by
  refine ⟨rfl, ?_, by simp [both, Stmt.clauses, setClause]⟩
  intro l r h
  simp [both, Stmt.clauses, setClause] at h
  simp [h, good, Quiet, sample]

example : Fitting (sample .implicit) ∧ build good.clauses = some good := ⟨by simp [Fitting, sample], rfl⟩

end PB.EqHashProps
