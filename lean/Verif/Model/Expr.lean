import Mathlib.Data.Finset.Basic
import Mathlib.Data.Finset.Union
import Mathlib.Data.Finset.Image
import Mathlib.Data.Finset.Card
import Mathlib.Data.Finset.Prod

/-! Model of SQL expressions (postbound/qal/_qal.py:95-2075). Predicates are expressions in the code
(`AbstractPredicate(SqlExpression)`, postbound/qal/_qal.py:2078), hence there is one type for both. Tables are
represented by numbers: equal numbers are tables that are equal in Python, and the order of the numbers is the order
of the identifiers. Subqueries are of an arbitrary type `Q`, of which an expression only uses the operations in
`QOps`. -/

namespace PB.Qal

/-- A `TableReference` up to equality (see Verif.Model.Refs for the references themselves). -/
abbrev Tab := Nat

/-- `ColumnReference` (postbound/_core.py:923-1189): a name, represented by a number whose order is the order of the
names, and the table if the column is bound. -/
structure Col where
  tab : Option Tab
  name : Nat
deriving DecidableEq, Repr

/-- `ColumnReference.__lt__` (postbound/_core.py:1123-1132): unbound columns first, then by table, then by name. -/
def Col.lt (a b : Col) : Bool :=
  if a.tab = b.tab then decide (a.name < b.name)
  else match a.tab, b.tab with
    | none, _ => true
    | _, none => false
    | some s, some t => decide (s < t)

/-- The value of a `StaticValueExpression`. -/
inductive Val where
  | null
  | num (n : Int)
  | str (s : String)
deriving DecidableEq, Repr

/-- `MathOperator` (postbound/qal/_qal.py:23-31) -/
inductive MathOp where
  | add | sub | mul | div | mod | concat
deriving DecidableEq, Repr

/-- `LogicalOperator` (postbound/qal/_qal.py:34-58) -/
inductive LogOp where
  | eq | ne | lt | le | gt | ge | like | notLike | ilike | notILike | inOp | existsOp | isOp | isNot | between
  | distinctFrom | notDistinctFrom | contains | containedBy | overlaps
deriving DecidableEq, Repr

/-- `CompoundOperator` (postbound/qal/_qal.py:67-72) -/
inductive CompOp where
  | and | or | not
deriving DecidableEq, Repr

/-- `QuantifierOperator` (postbound/qal/_qal.py:88-92) -/
inductive Quant where
  | all | any
deriving DecidableEq, Repr

/-- An ORDER BY direction: `ascending` and `nulls_first` (postbound/qal/_qal.py:7373-7384). -/
abbrev Dir := Option Bool × Option Bool

/-- Expressions and predicates. The WHEN/THEN pairs of a `CaseExpression` are kept as two lists of the same length,
the ORDER BY of a `WindowExpression` as the list of its expressions and the list of their directions. The second
argument of a `MathExpression` is `[]` for `None`, `[x]` for a single expression and a longer list for a tuple (the
constructor unpacks one-element sequences, postbound/qal/_qal.py:538-554). -/
inductive Expr (Q : Type) where
  /-- `StaticValueExpression` (postbound/qal/_qal.py:219-296) -/
  | static (v : Val)
  /-- `StarExpression` (postbound/qal/_qal.py:299-356) -/
  | star (t : Option Tab)
  /-- `CastExpression` (postbound/qal/_qal.py:359-504) -/
  | cast (e : Expr Q) (ty : String) (params : List (Expr Q)) (arr : Bool)
  /-- `MathExpression` (postbound/qal/_qal.py:507-702) -/
  | math (op : MathOp) (first : Expr Q) (second : List (Expr Q))
  /-- `ColumnExpression` (postbound/qal/_qal.py:705-767) -/
  | col (c : Col)
  /-- `FunctionExpression` (postbound/qal/_qal.py:796-1029) -/
  | func (name : String) (args : List (Expr Q)) (distinct : Bool) (filter : Option (Expr Q))
  /-- `ArrayExpression` (postbound/qal/_qal.py:1032-1096) -/
  | array (es : List (Expr Q))
  /-- `ArrayAccessExpression` (postbound/qal/_qal.py:1099-1241) -/
  | arrGet (a : Expr Q) (idx lower upper : Option (Expr Q))
  /-- `SubqueryExpression` (postbound/qal/_qal.py:1244-1305) -/
  | subq (q : Q)
  /-- `WindowExpression` (postbound/qal/_qal.py:1308-1450) -/
  | window (fn : Expr Q) (part : List (Expr Q)) (order : List (Expr Q)) (dirs : List Dir) (filter : Option (Expr Q))
  /-- `CaseExpression` (postbound/qal/_qal.py:1453-1586) -/
  | case (whens thens : List (Expr Q)) (simple els : Option (Expr Q))
  /-- `QuantifierExpression` (postbound/qal/_qal.py:1589-1677) -/
  | quant (q : Quant) (e : Expr Q)
  /-- `BinaryPredicate` (postbound/qal/_qal.py:2506-2629) -/
  | binary (op : LogOp) (a b : Expr Q)
  /-- `BetweenPredicate` (postbound/qal/_qal.py:2632-2792) -/
  | between (e lower upper : Expr Q)
  /-- `InPredicate` (postbound/qal/_qal.py:2795-2968) -/
  | inP (e : Expr Q) (vals : List (Expr Q))
  /-- `UnaryPredicate` (postbound/qal/_qal.py:2971-3095) -/
  | unary (e : Expr Q) (op : Option LogOp)
  /-- `CompoundPredicate` (postbound/qal/_qal.py:3098-3380); `_children` is a one-element tuple for NOT. -/
  | compound (op : CompOp) (cs : List (Expr Q))
deriving Repr

namespace Expr
variable {Q : Type}

/-! ### Equality

`==` of two expressions compares the classes and all components (postbound/qal/_qal.py:285, 350, 478, 675, 763, 1009,
1091, 1220, 1300, 1426, 1568, 1669, 2620, 2783, 3075, 3358). The one exception, `InPredicate.__eq__`
(postbound/qal/_qal.py:2959-2964), compares the values as sets; here all predicates are compared by components. The
decision procedure below is only needed to model the sets of predicates. -/

mutual
/-- Equality test. -/
def beq [DecidableEq Q] : Expr Q → Expr Q → Bool
  | static v, static v' => v == v'
  | star t, star t' => t == t'
  | cast e ty ps a, cast e' ty' ps' a' => beq e e' && ty == ty' && beqL ps ps' && a == a'
  | math op a bs, math op' a' bs' => op == op' && beq a a' && beqL bs bs'
  | col c, col c' => c == c'
  | func n as d f, func n' as' d' f' => n == n' && beqL as as' && d == d' && beqO f f'
  | array es, array es' => beqL es es'
  | arrGet a i l u, arrGet a' i' l' u' => beq a a' && beqO i i' && beqO l l' && beqO u u'
  | subq q, subq q' => decide (q = q')
  | window fn p o d f, window fn' p' o' d' f' => beq fn fn' && beqL p p' && beqL o o' && d == d' && beqO f f'
  | case w t s e, case w' t' s' e' => beqL w w' && beqL t t' && beqO s s' && beqO e e'
  | quant q e, quant q' e' => q == q' && beq e e'
  | binary op a b, binary op' a' b' => op == op' && beq a a' && beq b b'
  | between e l u, between e' l' u' => beq e e' && beq l l' && beq u u'
  | inP e vs, inP e' vs' => beq e e' && beqL vs vs'
  | unary e op, unary e' op' => beq e e' && op == op'
  | compound op cs, compound op' cs' => op == op' && beqL cs cs'
  | _, _ => false
/-- Equality test on lists. -/
def beqL [DecidableEq Q] : List (Expr Q) → List (Expr Q) → Bool
  | [], [] => true
  | x :: xs, y :: ys => beq x y && beqL xs ys
  | _, _ => false
/-- Equality test on optional expressions. -/
def beqO [DecidableEq Q] : Option (Expr Q) → Option (Expr Q) → Bool
  | none, none => true
  | some x, some y => beq x y
  | _, _ => false
end

mutual
theorem beq_iff [DecidableEq Q] (a b : Expr Q) : beq a b = true ↔ a = b := by
  cases a <;> cases b <;> simp [beq, beq_iff, beqL_iff, beqO_iff, and_assoc]
theorem beqL_iff [DecidableEq Q] (a b : List (Expr Q)) : beqL a b = true ↔ a = b := by
  cases a <;> cases b <;> simp [beqL, beq_iff, beqL_iff]
theorem beqO_iff [DecidableEq Q] (a b : Option (Expr Q)) : beqO a b = true ↔ a = b := by
  cases a <;> cases b <;> simp [beqO, beq_iff]
end

instance [DecidableEq Q] : DecidableEq (Expr Q) := fun a b => decidable_of_iff _ (beq_iff a b)

/-- All immediate syntactic subexpressions (the attributes of the Python objects). -/
def subs : Expr Q → List (Expr Q)
  | static _ => []
  | star _ => []
  | cast e _ ps _ => e :: ps
  | math _ a bs => a :: bs
  | col _ => []
  | func _ args _ f => args ++ f.toList
  | array es => es
  | arrGet a i l u => a :: (i.toList ++ l.toList ++ u.toList)
  | subq _ => []
  | window fn p o _ f => fn :: (p ++ o ++ f.toList)
  | case w t s e => w ++ t ++ s.toList ++ e.toList
  | quant _ e => [e]
  | binary _ a b => [a, b]
  | between e l u => [e, l, u]
  | inP e vs => e :: vs
  | unary e _ => [e]
  | compound _ cs => cs

theorem sizeOf_mem {c : Expr Q} {l : List (Expr Q)} (h : c ∈ l) : sizeOf c < sizeOf l :=
  List.sizeOf_lt_of_mem h

theorem sizeOf_memO {c : Expr Q} {o : Option (Expr Q)} (h : c ∈ o.toList) : sizeOf c < sizeOf o := by
  cases o with
  | none => simp at h
  | some x => simp at h; subst h; simp

theorem sizeOf_subs {c e : Expr Q} (h : c ∈ e.subs) : sizeOf c < sizeOf e := by
  have L : ∀ {l : List (Expr Q)}, c ∈ l → sizeOf c < sizeOf l := sizeOf_mem
  have O : ∀ {o : Option (Expr Q)}, c ∈ o.toList → sizeOf c < sizeOf o := sizeOf_memO
  cases e with
  | static | star | col | subq => simp [subs] at h
  | cast e ty ps a =>
    rcases List.mem_cons.1 h with rfl | h
    · simp; omega
    · have := L h; simp; omega
  | math op a bs =>
    rcases List.mem_cons.1 h with rfl | h
    · simp; omega
    · have := L h; simp; omega
  | func n as d f =>
    rcases List.mem_append.1 h with h | h
    · have := L h; simp; omega
    · have := O h; simp; omega
  | array es => have := L (l := es) h; simp; omega
  | arrGet a i l u =>
    simp only [subs, List.mem_cons, List.mem_append, or_assoc] at h
    obtain h1 | h1 | h1 | h1 := h
    · subst h1; simp; omega
    all_goals have := O h1; simp; omega
  | window fn p o d f =>
    simp only [subs, List.mem_cons, List.mem_append, or_assoc] at h
    obtain h1 | h1 | h1 | h1 := h
    · subst h1; simp; omega
    · have := L h1; simp; omega
    · have := L h1; simp; omega
    · have := O h1; simp; omega
  | case w t s e =>
    simp only [subs, List.mem_append, or_assoc] at h
    obtain h1 | h1 | h1 | h1 := h
    · have := L h1; simp; omega
    · have := L h1; simp; omega
    · have := O h1; simp; omega
    · have := O h1; simp; omega
  | quant q e => simp [subs] at h; subst h; simp; omega
  | binary op a b => simp [subs] at h; rcases h with rfl | rfl <;> simp <;> omega
  | between a b d => simp [subs] at h; rcases h with rfl | rfl | rfl <;> simp <;> omega
  | inP e vs =>
    rcases List.mem_cons.1 h with rfl | h
    · simp; omega
    · have := L h; simp; omega
  | unary e op => simp [subs] at h; subst h; simp; omega
  | compound op cs => have := L (l := cs) h; simp; omega

/-- Induction over the syntactic subexpressions. -/
theorem ind {P : Expr Q → Prop} (h : ∀ e, (∀ c ∈ e.subs, P c) → P e) (e : Expr Q) : P e :=
  h e (fun c hc => have := sizeOf_subs hc; ind h c)
termination_by sizeOf e

/-- `isinstance(_, BasePredicate)` (postbound/qal/_qal.py:2461) -/
def isBase : Expr Q → Bool
  | binary .. | between .. | inP .. | unary .. => true
  | _ => false

/-- `is_compound` (postbound/qal/_qal.py:2497, 3298) -/
def isCompound : Expr Q → Bool
  | compound .. => true
  | _ => false

/-- `isinstance(_, AbstractPredicate)` (postbound/qal/_qal.py:2078) -/
def isPred (e : Expr Q) : Bool := e.isBase || e.isCompound

/-- `iterexpressions` of predicates (postbound/qal/_qal.py:2595, 2757, 2923, 3056, 3323). -/
def iterExpressions : Expr Q → List (Expr Q)
  | binary _ a b => [a, b]
  | between e l u => [e, l, u]
  | inP e vs => e :: vs
  | unary e _ => [e]
  | compound _ cs => cs.flatMap fun c => c.iterExpressions
  | _ => []
termination_by e => sizeOf e

/-- The parts of CASE and window expressions that are represented by *their* children in `iterchildren`
(postbound/qal/_qal.py:1402-1405, 1541-1552). The WHEN parts are listed before the THEN parts. -/
def grandParts : Expr Q → List (Expr Q)
  | window fn p _ _ _ => fn :: p
  | case w t s e => w ++ t ++ s.toList ++ e.toList
  | _ => []

/-- The parts that are listed themselves by `iterchildren` (postbound/qal/_qal.py:275, 340, 468, 635, 753, 999, 1081,
1290, 1406-1409, 1659, 2233, 3307). -/
def directParts : Expr Q → List (Expr Q)
  | cast e _ ps _ => e :: ps
  | math _ a bs => a :: bs
  | func _ args _ _ => args
  | array es => es
  | arrGet a i l u => a :: (i.toList ++ l.toList ++ u.toList)
  | window _ _ o _ f => o ++ f.toList.flatMap fun c => c.iterExpressions
  | quant _ e => [e]
  | binary _ a b => [a, b]
  | between e l u => [e, l, u]
  | inP e vs => e :: vs
  | unary e _ => [e]
  | compound _ cs => cs
  | _ => []

theorem grandParts_subs (e c : Expr Q) (h : c ∈ e.grandParts) : c ∈ e.subs := by
  cases e <;> simp [grandParts, subs] at h ⊢
  · rcases h with h | h <;> simp [h]
  · exact h

/-- `iterchildren` (postbound/qal/_qal.py:275, 340, 468, 635, 753, 999, 1081, 1290, 1401, 1540, 1659, 2233, 3307). -/
def iterChildren (e : Expr Q) : List (Expr Q) :=
  (e.grandParts.attach.flatMap fun ⟨c, h⟩ => have := sizeOf_subs (grandParts_subs e c h); c.iterChildren) ++
    e.directParts
termination_by sizeOf e

theorem iterChildren_eq (e : Expr Q) :
    e.iterChildren = (e.grandParts.flatMap fun c => c.iterChildren) ++ e.directParts := by
  rw [iterChildren]
  simp [List.flatMap_subtype]

theorem sizeOf_iterExpressions (e : Expr Q) : ∀ c ∈ e.iterExpressions, sizeOf c < sizeOf e := by
  induction e using ind with
  | h e ih =>
    intro c hc
    cases e with
    | binary | between | inP | unary =>
      simp only [iterExpressions] at hc
      exact sizeOf_subs hc
    | compound op cs =>
      simp only [iterExpressions, List.mem_flatMap] at hc
      obtain ⟨d, hd, hc⟩ := hc
      have h1 := ih d hd c hc
      have h2 := sizeOf_subs (e := compound op cs) hd
      omega
    | _ => simp [iterExpressions] at hc

theorem sizeOf_directParts (e : Expr Q) : ∀ c ∈ e.directParts, sizeOf c < sizeOf e := by
  intro c hc
  cases e with
  | static | star | col | subq | case => simp [directParts] at hc
  | func n as d f => exact sizeOf_subs (by simp [subs, directParts] at hc ⊢; simp [hc])
  | window fn p o d f =>
    simp only [directParts, List.mem_append, List.mem_flatMap] at hc
    obtain h1 | ⟨x, hx, h1⟩ := hc
    · exact sizeOf_subs (by simp [subs, h1])
    · have := sizeOf_iterExpressions x c h1
      have := sizeOf_subs (c := x) (e := window fn p o d f) (by simp [subs] at hx ⊢; simp [hx])
      omega
  | _ => exact sizeOf_subs hc

theorem sizeOf_iterChildren (e : Expr Q) : ∀ c ∈ e.iterChildren, sizeOf c < sizeOf e := by
  induction e using ind with
  | h e ih =>
    intro c hc
    rw [iterChildren_eq, List.mem_append, List.mem_flatMap] at hc
    obtain ⟨d, hd, hc⟩ | hc := hc
    · have hs := grandParts_subs e d hd
      have := ih d hs c hc
      have := sizeOf_subs hs
      omega
    · exact sizeOf_directParts e c hc

end Expr

/-- What expressions use of their subqueries (`SqlQuery.tables`, `columns`, `itercolumns` and `unbound_tables`). -/
structure QOps (Q : Type) where
  tables : Q → Finset Tab
  columns : Q → Finset Col
  iterCols : Q → List Col
  unbound : Q → Finset Tab

/-- A bound table as a set. -/
def tabSet (t : Option Tab) : Finset Tab := match t with
  | none => ∅
  | some t => {t}

/-- `set_union` (postbound/util/collections.py:303-319) -/
def unionAll {α : Type} [DecidableEq α] (l : List (Finset α)) : Finset α := l.foldr (fun s acc => s ∪ acc) ∅

namespace Expr
variable {Q : Type}

/-- The subexpressions whose tables are united by `tables()` (postbound/qal/_qal.py:453, 602, 978, 1072, 1392, 1531,
1650, 2182). A tuple of second arguments of a `MathExpression` is ignored, since the code tests for lists. -/
def tabParts : Expr Q → List (Expr Q)
  | cast e _ ps _ => e :: ps
  | math _ a [b] => [a, b]
  | math _ a _ => [a]
  | func _ args _ f => args ++ f.toList
  | array es => es
  | arrGet a i l u => a :: (i.toList ++ l.toList ++ u.toList)
  | e@(window ..) => e.iterChildren
  | e@(case ..) => e.iterChildren
  | quant _ e => [e]
  | e@(binary ..) => e.iterExpressions
  | e@(between ..) => e.iterExpressions
  | e@(inP ..) => e.iterExpressions
  | e@(unary ..) => e.iterExpressions
  | e@(compound ..) => e.iterExpressions
  | _ => []

/-- The subexpressions whose columns are united by `columns()` (postbound/qal/_qal.py:458, 610, 983, 1075, 1395, 1534,
1653, 2587, 2743, 2912, 3050, 3304). -/
def colParts : Expr Q → List (Expr Q)
  | cast e _ ps _ => e :: ps
  | math _ a [b] => [a, b]
  | math _ a _ => [a]
  | func _ args _ f => args ++ f.toList
  | array es => es
  | arrGet a i l u => a :: (i.toList ++ l.toList ++ u.toList)
  | e@(window ..) => e.iterChildren
  | e@(case ..) => e.iterChildren
  | quant _ e => [e]
  | binary _ a b => [a, b]
  | between e l u => [e, l, u]
  | inP e vs => e :: vs
  | unary e _ => [e]
  | compound _ cs => cs
  | _ => []

/-- The subexpressions whose columns are listed by `itercolumns()` (postbound/qal/_qal.py:463, 619, 991, 1078, 1398,
1537, 1656, 2590, 2750, 2918, 3053, 3320). -/
def iterColParts : Expr Q → List (Expr Q)
  | cast e _ ps _ => e :: ps
  | math _ a bs => a :: bs
  | func _ args _ f => args ++ f.toList
  | array es => es
  | arrGet a i l u => a :: (i.toList ++ l.toList ++ u.toList)
  | e@(window ..) => e.iterChildren
  | e@(case ..) => e.iterChildren
  | quant _ e => [e]
  | binary _ a b => [a, b]
  | between e l u => [e, l, u]
  | inP e vs => e :: vs
  | unary e _ => [e]
  | compound _ cs => cs
  | _ => []

theorem sizeOf_tabParts (e : Expr Q) : ∀ c ∈ e.tabParts, sizeOf c < sizeOf e := by
  intro c hc
  cases e with
  | static | star | col | subq => simp [tabParts] at hc
  | cast | func | array | arrGet | quant => exact sizeOf_subs hc
  | math op a bs =>
    rw [tabParts.eq_def] at hc
    split at hc <;> try contradiction
    · rename_i h; cases h; exact sizeOf_subs hc
    · rename_i h; cases h; simp at hc; subst hc; exact sizeOf_subs (by simp [subs])
  | window | case => exact sizeOf_iterChildren _ _ hc
  | binary | between | inP | unary | compound => exact sizeOf_iterExpressions _ _ hc

theorem sizeOf_colParts (e : Expr Q) : ∀ c ∈ e.colParts, sizeOf c < sizeOf e := by
  intro c hc
  cases e with
  | static | star | col | subq => simp [colParts] at hc
  | cast | func | array | arrGet | quant | binary | between | inP | unary | compound => exact sizeOf_subs hc
  | math op a bs =>
    rw [colParts.eq_def] at hc
    split at hc <;> try contradiction
    · rename_i h; cases h; exact sizeOf_subs hc
    · rename_i h; cases h; simp at hc; subst hc; exact sizeOf_subs (by simp [subs])
  | window | case => exact sizeOf_iterChildren _ _ hc

theorem sizeOf_iterColParts (e : Expr Q) : ∀ c ∈ e.iterColParts, sizeOf c < sizeOf e := by
  intro c hc
  cases e with
  | static | star | col | subq => simp [iterColParts] at hc
  | cast | math | func | array | arrGet | quant | binary | between | inP | unary | compound => exact sizeOf_subs hc
  | window | case => exact sizeOf_iterChildren _ _ hc

/-- The tables an expression mentions itself (postbound/qal/_qal.py:266, 329, 742, 1281). -/
def ownTables (ops : QOps Q) : Expr Q → Finset Tab
  | star t => tabSet t
  | col c => tabSet c.tab
  | subq q => ops.tables q
  | _ => ∅

/-- The columns an expression mentions itself (postbound/qal/_qal.py:269, 334, 747, 1284). -/
def ownColumns (ops : QOps Q) : Expr Q → Finset Col
  | col c => {c}
  | subq q => ops.columns q
  | _ => ∅

/-- The columns an expression lists itself (postbound/qal/_qal.py:272, 337, 750, 1287). -/
def ownIterCols (ops : QOps Q) : Expr Q → List Col
  | col c => [c]
  | subq q => ops.iterCols q
  | _ => []

/-- `tables()` (see `tabParts` and `ownTables`). -/
def tables (ops : QOps Q) (e : Expr Q) : Finset Tab :=
  e.ownTables ops ∪ unionAll (e.tabParts.attach.map fun ⟨c, h⟩ => have := sizeOf_tabParts e c h; c.tables ops)
termination_by sizeOf e

/-- `columns()` (see `colParts` and `ownColumns`). -/
def columns (ops : QOps Q) (e : Expr Q) : Finset Col :=
  e.ownColumns ops ∪ unionAll (e.colParts.attach.map fun ⟨c, h⟩ => have := sizeOf_colParts e c h; c.columns ops)
termination_by sizeOf e

/-- `itercolumns()` (see `iterColParts` and `ownIterCols`). -/
def iterColumns (ops : QOps Q) (e : Expr Q) : List Col :=
  e.ownIterCols ops ++ e.iterColParts.attach.flatMap fun ⟨c, h⟩ => have := sizeOf_iterColParts e c h; c.iterColumns ops
termination_by sizeOf e

/-- `isinstance(_, (ColumnExpression, StaticValueExpression, SubqueryExpression))`
(postbound/qal/_qal.py:1949, 1968-1970) -/
def isBaseExpr : Expr Q → Bool
  | col _ | static _ | subq _ => true
  | _ => false

/-- `_collect_base_expressions` (postbound/qal/_qal.py:1953-1975) -/
def collectBase (e : Expr Q) : List (Expr Q) :=
  if e.isBaseExpr then [e]
  else e.iterChildren.attach.flatMap fun ⟨c, h⟩ => have := sizeOf_iterChildren e c h; c.collectBase
termination_by sizeOf e

/-- The columns of a base expression that is a column. -/
def colOf : Expr Q → List Col
  | col c => [c]
  | _ => []

/-- `_collect_subquery_expressions` (postbound/qal/_qal.py:1978-1999), returning the queries. -/
def subqOf : Expr Q → List Q
  | subq q => [q]
  | _ => []

/-- `_collect_column_expression_columns` (postbound/qal/_qal.py:2002-2024) -/
def baseCols (e : Expr Q) : Finset Col := (e.collectBase.flatMap colOf).toFinset

/-- `_collect_column_expression_tables` (postbound/qal/_qal.py:2027-2047) -/
def baseTabs (e : Expr Q) : Finset Tab := e.baseCols.biUnion fun c => tabSet c.tab

/-- `ExpressionCollector._check_match` (postbound/qal/_qal.py:1844-1862) for a matcher; the result is a set. -/
def collectMatches (matcher : Expr Q → Bool) (continueAfter : Bool) (e : Expr Q) : List (Expr Q) :=
  if matcher e && !continueAfter then [e]
  else (if matcher e then [e] else []) ++
    e.iterChildren.attach.flatMap fun ⟨c, h⟩ => have := sizeOf_iterChildren e c h; c.collectMatches matcher continueAfter
termination_by sizeOf e

end Expr
end PB.Qal
