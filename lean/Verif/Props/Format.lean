import Verif.Model.Format
import Mathlib.Tactic.Common
import Mathlib.Data.List.Basic
import Mathlib.Data.List.Induction

/-!
# Properties of the text of queries

The specification consists of a lexer for SQL texts (`toks`), which ignores the layout but keeps quoted parts as they are, and of the words of a query according to the grammar of
SQL (`canon`).
-/

set_option linter.unusedSimpArgs false
set_option linter.unusedVariables false
set_option linter.unnecessarySimpa false
set_option linter.unnecessarySeqFocus false
set_option linter.unusedSectionVars false

namespace PB.FormatProps
open PB.Format

/-! ### Specification: the lexer -/

/-- A token: a word (including quoted parts) or one of `( ) , ;`. -/
abbrev Tok := List Char

/-- Layout. -/
def space (c : Char) : Bool := c = ' ' || c = '\n' || c = '\t' || c = '\r'

/-- The characters that are tokens on their own. -/
def punct (c : Char) : Bool := c = '(' || c = ')' || c = ',' || c = ';'

/-- The characters that start and end a quoted part. -/
def quoteC (c : Char) : Bool := c = '\'' || c = '"'

/-- The word read so far, if there is one. -/
def flush (cur : List Char) : List Tok := if cur = [] then [] else [cur]

/-- The tokens of a text. The first argument is the quote that ends the current quoted part, the second argument the word read so far. -/
def lexer : Option Char → List Char → List Char → List Tok
  | _, cur, [] => flush cur
  | some d, cur, c :: cs => lexer (if c = d then none else some d) (cur ++ [c]) cs
  | none, cur, c :: cs =>
    if space c then flush cur ++ lexer none [] cs
    else if punct c then flush cur ++ [c] :: lexer none [] cs
    else lexer (if quoteC c then some c else none) (cur ++ [c]) cs

/-- The tokens of a text. -/
def toks (t : List Char) : List Tok := lexer none [] t

/-- All quoted parts of the text are closed and none of them contains a line break. -/
def plainFrom : Option Char → List Char → Bool
  | q, [] => q.isNone
  | some d, c :: cs => c ≠ '\n' && plainFrom (if c = d then none else some d) cs
  | none, c :: cs => plainFrom (if quoteC c then some c else none) cs

/-- See `plainFrom`. -/
def Plain (t : List Char) : Prop := plainFrom none t = true

instance (t : List Char) : Decidable (Plain t) := inferInstanceAs (Decidable (_ = _))

/-! ### Specification: the words of a query -/

/-- Words. -/
def ws (l : List String) : List Tok := l.map String.toList

/-- Lists with separators. -/
def sepBy (s : List Tok) : List (List Tok) → List Tok
  | [] => []
  | [t] => t
  | t :: u :: us => t ++ s ++ sepBy s (u :: us)

/-- Lists with commas. -/
abbrev commaSep (l : List (List Tok)) : List Tok := sepBy (ws [","]) l

/-- Parentheses. -/
def paren (t : List Tok) : List Tok := ws ["("] ++ t ++ ws [")"]

/-- The words of an optional part. -/
def opt (f : α → List Tok) : Option α → List Tok
  | none => []
  | some a => f a

/-- An expression: its words and its nested queries, which are put in parentheses. -/
def canonGap (rec : Q → List Tok) : Gap Q → List Tok
  | .sub q => paren (rec q)
  | .brk _ => []

/-- An expression. -/
def canonEx (rec : Q → List Tok) (e : Ex Q) : List Tok := toks e.head ++ e.tail.flatMap (fun p => canonGap rec p.1 ++ toks p.2)

/-- `MATERIALIZED`. -/
def canonMat : Option Bool → List Tok
  | none => []
  | some true => ws ["MATERIALIZED"]
  | some false => ws ["NOT", "MATERIALIZED"]

/-- A list of names in parentheses. -/
def canonCols (cols : List Text) : List Tok := if cols = [] then [] else paren (commaSep (cols.map toks))

/-- `VALUES (..), (..)`. -/
def canonRows (rows : List (List Text)) : List Tok := ws ["VALUES"] ++ commaSep (rows.map (fun r => paren (commaSep (r.map toks))))

/-- `(VALUES (..), (..)) AS name (cols)`. -/
def canonValues (rows : List (List Text)) (name : Option (Text × List Text)) : List Tok :=
  paren (canonRows rows) ++ opt (fun p => ws ["AS"] ++ toks p.1 ++ canonCols p.2) name

/-- A query of a WITH clause. A list of values is given directly or as a query that selects its contents. -/
def canonCte (rec : Q → List Tok) (direct : Bool) (c : Cte Q) : List Tok :=
  match c.body with
  | .query q => toks c.name ++ ws ["AS"] ++ canonMat c.mat ++ paren (rec q)
  | .values cols row rows =>
    if direct then toks c.name ++ canonCols cols ++ ws ["AS"] ++ canonMat c.mat ++ paren (canonRows (row :: rows))
    else toks c.name ++ ws ["AS"] ++ canonMat c.mat ++ paren (ws ["SELECT", "*", "FROM"] ++ canonValues (row :: rows) (some (c.name, cols)))

/-- The WITH clause. -/
def canonWith (rec : Q → List Tok) (direct : Bool) (w : With Q) : List Tok :=
  ws ["WITH"] ++ (if w.recursive then ws ["RECURSIVE"] else []) ++ commaSep ((w.first :: w.rest).map (canonCte rec direct))

/-- DISTINCT. -/
def canonDistinct : Distinct → List Tok
  | .no => []
  | .all => ws ["DISTINCT"]
  | .on c cs => ws ["DISTINCT", "ON"] ++ paren (commaSep ((c :: cs).map toks))

/-- An optional name. -/
def canonName (n : Option Text) : List Tok := opt (fun n => ws ["AS"] ++ toks n) n

/-- The SELECT clause. The hints are given behind SELECT and DISTINCT. -/
def canonSelect (rec : Q → List Tok) (hint : Option Text) (s : Select Q) : List Tok :=
  ws ["SELECT"] ++ canonDistinct s.distinct ++ opt toks hint ++ commaSep ((s.first :: s.rest).map (fun p => canonEx rec p.ex ++ canonName p.name))

/-- The words of the joins. -/
def canonJoin : JoinType → List Tok
  | .inner => ws ["JOIN"]
  | .outer => ws ["FULL", "OUTER", "JOIN"]
  | .left => ws ["LEFT", "OUTER", "JOIN"]
  | .right => ws ["RIGHT", "OUTER", "JOIN"]
  | .cross => ws ["CROSS", "JOIN"]
  | .natInner => ws ["NATURAL", "JOIN"]
  | .natOuter => ws ["NATURAL", "OUTER", "JOIN"]
  | .natLeft => ws ["NATURAL", "LEFT", "JOIN"]
  | .natRight => ws ["NATURAL", "RIGHT", "JOIN"]

/-- Whether a source is a join. -/
def isJoin : Source Q → Bool
  | .join .. => true
  | _ => false

/-- An item of the FROM clause. Joins are read from left to right, so that joins on the right-hand side need parentheses. -/
def canonSource (rec : Q → List Tok) (ex : Ex Q → List Tok) : Source Q → List Tok
  | .table t => toks t
  | .values row rows name => canonValues (row :: rows) name
  | .func e name => ex e ++ canonName name
  | .sub lateral q name => (if lateral then ws ["LATERAL"] else []) ++ paren (rec q) ++ canonName name
  | .join l r typ cond =>
    canonSource rec ex l ++ canonJoin typ ++ (if isJoin r then paren (canonSource rec ex r) else canonSource rec ex r)
      ++ opt (fun c => ws ["ON"] ++ ex c) cond

/-- The FROM clause. -/
def canonFrom (rec : Q → List Tok) (ex : Ex Q → List Tok) : FromC Q → List Tok
  | .implicit [] => []
  | .implicit (t :: ts) => ws ["FROM"] ++ commaSep ((t :: ts).map toks)
  | .explicit root => ws ["FROM"] ++ canonSource rec ex root
  | .general s ss => ws ["FROM"] ++ commaSep ((s :: ss).map (canonSource rec ex))

/-- The WHERE clause. -/
def canonWhere (ex : Ex Q → List Tok) (w : WhereC Q) : List Tok := ws ["WHERE"] ++ sepBy (ws ["AND"]) ((w.first :: w.rest).map ex)

/-- The GROUP BY clause. -/
def canonGroup (ex : Ex Q → List Tok) (g : GroupC Q) : List Tok :=
  ws ["GROUP", "BY"] ++ (if g.distinct then ws ["DISTINCT"] else []) ++ commaSep ((g.first :: g.rest).map ex)

/-- An entry of the ORDER BY clause. -/
def canonOrderE (ex : Ex Q → List Tok) (o : OrderE Q) : List Tok :=
  ex o.ex ++ opt (fun b => if b then ws ["ASC"] else ws ["DESC"]) o.asc
    ++ opt (fun b => if b then ws ["NULLS", "FIRST"] else ws ["NULLS", "LAST"]) o.nullsFirst

/-- The ORDER BY clause. -/
def canonOrder (ex : Ex Q → List Tok) (o : OrderC Q) : List Tok := ws ["ORDER", "BY"] ++ commaSep ((o.first :: o.rest).map (canonOrderE ex))

/-- The words of the directions. -/
def canonFetch : Fetch → List Tok
  | .first => ws ["FIRST"]
  | .next => ws ["NEXT"]
  | .prior => ws ["PRIOR"]
  | .last => ws ["LAST"]

/-- The ways to write limits: `FETCH .. OFFSET ..`, `OFFSET .. FETCH ..` and `LIMIT .. OFFSET ..`. -/
inductive LimitStyle
  | fetchOffset | offsetFetch | limitOffset

/-- The LIMIT clause. -/
def canonLimit (l : LimitC) : LimitStyle → List Tok
  | .fetchOffset =>
    opt (fun n => ws ["FETCH"] ++ canonFetch l.fetch ++ [num n] ++ ws ["ROWS", "ONLY"]) l.limit ++ opt (fun n => ws ["OFFSET"] ++ [num n] ++ ws ["ROWS"]) l.offset
  | .offsetFetch =>
    opt (fun n => ws ["OFFSET"] ++ [num n] ++ ws ["ROWS"]) l.offset ++ opt (fun n => ws ["FETCH"] ++ canonFetch l.fetch ++ [num n] ++ ws ["ROWS", "ONLY"]) l.limit
  | .limitOffset => opt (fun n => ws ["LIMIT"] ++ [num n]) l.limit ++ opt (fun n => ws ["OFFSET"] ++ [num n]) l.offset

/-- The words of a set operation. -/
def canonOp : SetOp → List Tok
  | .union => ws ["UNION"]
  | .unionAll => ws ["UNION", "ALL"]
  | .intersect => ws ["INTERSECT"]
  | .exc => ws ["EXCEPT"]

/-- How a query is written: the limits and the lists of values in a WITH clause with several queries. -/
structure Style where
  limit : LimitC → LimitStyle
  valuesDirect : Bool

/-- The words of a query, with the hints at its start or behind SELECT (`inline`). `rec` are the words of the nested queries. -/
def canonQ (sty : Style) (rec : Bool → Q → List Tok) (inline : Bool) : Query Q → List Tok
  | .sel hint explain cte select src whr group having order limit =>
    (if inline then [] else opt toks hint)
      ++ opt toks explain
      ++ opt (fun w => canonWith (rec false) (sty.valuesDirect || w.rest.isEmpty) w) cte
      ++ canonSelect (rec inline) (if inline then hint else none) select
      ++ opt (canonFrom (rec false) (canonEx (rec inline))) src
      ++ opt (canonWhere (canonEx (rec inline))) whr
      ++ opt (canonGroup (canonEx (rec inline))) group
      ++ opt (fun e => ws ["HAVING"] ++ canonEx (rec inline) e) having
      ++ opt (canonOrder (canonEx (rec inline))) order
      ++ opt (fun l => canonLimit l (sty.limit l)) limit
  | .set hint explain cte l r op order limit =>
    opt toks hint
      ++ opt toks explain
      ++ opt (fun w => canonWith (rec false) (sty.valuesDirect || w.rest.isEmpty) w) cte
      ++ paren (rec inline l) ++ canonOp op ++ paren (rec inline r)
      ++ opt (canonOrder (canonEx (rec inline))) order
      ++ opt (fun l => canonLimit l .offsetFetch) limit

/-- The words of a query. -/
def canon (sty : Style) : (n : Nat) → (inline : Bool) → Nested n → List Tok
  | 0, _, q => nomatch q
  | n + 1, inline, q => canonQ sty (canon sty n) inline q

/-! ### Specification: the contents of a query -/

/-- The texts of an expression. -/
def exTexts (e : Ex Q) : List Text := e.head :: e.tail.map Prod.snd

/-- The query of a gap. -/
def gapSubs : Gap Q → List Q
  | .sub q => [q]
  | .brk _ => []

/-- The nested queries of an expression. -/
def exSubs (e : Ex Q) : List Q := e.tail.flatMap (fun p => gapSubs p.1)

/-- The texts and nested queries of a part: both are lists. -/
structure Parts (Q : Type) where
  texts : List Text
  subs : List Q

/-- No contents. -/
def none' : Parts Q := ⟨[], []⟩

/-- Both contents. -/
def Parts.and (a b : Parts Q) : Parts Q := ⟨a.texts ++ b.texts, a.subs ++ b.subs⟩

/-- The contents of all entries. -/
def allParts (f : α → Parts Q) : List α → Parts Q
  | [] => none'
  | a :: as => (f a).and (allParts f as)

/-- The contents of an optional part. -/
def optParts (f : α → Parts Q) : Option α → Parts Q
  | none => none'
  | some a => f a

/-- Texts only. -/
def textParts (l : List Text) : Parts Q := ⟨l, []⟩

/-- The contents of an expression. -/
def exParts (e : Ex Q) : Parts Q := ⟨exTexts e, exSubs e⟩

/-- The contents of a query of a WITH clause. -/
def cteParts (c : Cte Q) : Parts Q :=
  match c.body with
  | .query q => ⟨[c.name], [q]⟩
  | .values cols row rows => ⟨c.name :: cols ++ (row :: rows).flatten, []⟩

/-- The contents of DISTINCT. -/
def distinctTexts : Distinct → List Text
  | .on c cs => c :: cs
  | _ => []

/-- The contents of a projection. -/
def projParts (p : Proj Q) : Parts Q := (exParts p.ex).and (textParts p.name.toList)

/-- The contents of a source. -/
def sourceParts : Source Q → Parts Q
  | .table t => textParts [t]
  | .values row rows none => textParts (row :: rows).flatten
  | .values row rows (some (n, cols)) => textParts ((row :: rows).flatten ++ n :: cols)
  | .func e name => (exParts e).and (textParts name.toList)
  | .sub _ q name => ⟨name.toList, [q]⟩
  | .join l r _ cond => ((sourceParts l).and (sourceParts r)).and (optParts exParts cond)

/-- The contents of the FROM clause. -/
def fromParts : FromC Q → Parts Q
  | .implicit ts => textParts ts
  | .explicit root => sourceParts root
  | .general s ss => allParts sourceParts (s :: ss)

/-- The contents of a query. -/
def queryParts : Query Q → Parts Q
  | .sel hint explain cte select src whr group having order limit =>
    ((((((((textParts (hint.toList ++ explain.toList)).and (optParts (fun w => allParts cteParts (w.first :: w.rest)) cte)).and
      ((textParts (distinctTexts select.distinct)).and (allParts projParts (select.first :: select.rest)))).and
      (optParts fromParts src)).and (optParts (fun w => allParts exParts (w.first :: w.rest)) whr)).and
      (optParts (fun g => allParts exParts (g.first :: g.rest)) group)).and (optParts exParts having)).and
      (optParts (fun o => allParts (fun e => exParts e.ex) (o.first :: o.rest)) order))
  | .set hint explain cte l r op order limit =>
    (((textParts (hint.toList ++ explain.toList)).and (optParts (fun w => allParts cteParts (w.first :: w.rest)) cte)).and ⟨[], [l, r]⟩).and
      (optParts (fun o => allParts (fun e => exParts e.ex) (o.first :: o.rest)) order)

/-! ### The lexer -/

/-- The text has closed quotes without line breaks and the given tokens. -/
def G (t : Text) (ts : List Tok) : Prop := Plain t ∧ toks t = ts

instance (t : Text) (ts : List Tok) : Decidable (G t ts) := inferInstanceAs (Decidable (_ ∧ _))

/-- A separator. -/
def sepC (c : Char) : Bool := space c || punct c

/-- The text starts with a separator. -/
def startSep : Text → Bool
  | [] => true
  | c :: _ => sepC c

/-- The text ends with a separator. -/
def endSep (t : Text) : Bool :=
  match t.getLast? with
  | none => true
  | some c => sepC c

theorem plainFrom_append {a b : Text} : ∀ {q : Option Char}, plainFrom q a = true → plainFrom q (a ++ b) = plainFrom none b := by
  induction a with
  | nil => intro q h; cases q <;> simp_all [plainFrom]
  | cons c a ih =>
    intro q h
    cases q with
    | none => simp only [plainFrom, List.cons_append] at h ⊢; exact ih h
    | some d =>
      simp only [plainFrom, List.cons_append, Bool.and_eq_true] at h ⊢
      rw [ih h.2, h.1]; simp

theorem sepC_quote {c : Char} (h : sepC c = true) : quoteC c = false := by
  simp only [sepC, space, punct, quoteC, Bool.or_eq_true, decide_eq_true_eq] at *
  rcases h with ((((h | h) | h) | h) | (((h | h) | h) | h)) <;> subst h <;> decide

theorem lexer_none_sep (cur : List Char) {c : Char} (cs : Text) (h : sepC c = true) : lexer none cur (c :: cs) = flush cur ++ lexer none [] (c :: cs) := by
  simp only [lexer]
  by_cases h1 : space c = true
  · simp [h1, flush]
  · by_cases h2 : punct c = true
    · simp [h1, h2, flush]
    · simp [sepC, h1, h2] at h

theorem lexer_append_right {b : Text} (hb : startSep b = true) {a : Text} :
    ∀ {q : Option Char} {cur : List Char}, plainFrom q a = true → lexer q cur (a ++ b) = lexer q cur a ++ lexer none [] b := by
  induction a with
  | nil =>
    intro q cur h
    cases q with
    | some d => simp [plainFrom] at h
    | none =>
      cases b with
      | nil => simp [lexer, flush]
      | cons c b => simp only [List.nil_append]; rw [lexer_none_sep cur b (by simpa [startSep] using hb)]; simp [lexer]
  | cons c a ih =>
    intro q cur h
    cases q with
    | some d =>
      simp only [plainFrom, Bool.and_eq_true] at h
      simp only [List.cons_append, lexer]
      exact ih h.2
    | none =>
      simp only [plainFrom] at h
      simp only [List.cons_append, lexer]
      by_cases h1 : space c = true
      · have hq := sepC_quote (c := c) (by simp [sepC, h1])
        rw [hq] at h
        simp only [h1, if_true]; rw [ih (q := none) h]; simp
      · by_cases h2 : punct c = true
        · have hq := sepC_quote (c := c) (by simp [sepC, h2])
          rw [hq] at h
          simp only [h1, h2, if_true]; rw [ih (q := none) h]; simp
        · simp only [h1, h2]; exact ih h

/-- The state of the lexer is that of a quote. -/
def Qok (q : Option Char) : Prop := ∀ d, q = some d → quoteC d = true

theorem lexer_append_left {b : Text} {a : Text} :
    ∀ {q : Option Char} {cur : List Char}, Qok q → a ≠ [] → endSep a = true → plainFrom q a = true → lexer q cur (a ++ b) = lexer q cur a ++ lexer none [] b := by
  induction a with
  | nil => intro q cur _ h; exact absurd rfl h
  | cons c a ih =>
    intro q cur hq _ he h
    by_cases ha : a = []
    · subst ha
      have hc : sepC c = true := by simpa [endSep] using he
      cases q with
      | some d =>
        exfalso
        simp only [plainFrom, Bool.and_eq_true] at h
        by_cases hcd : c = d
        · have := hq d rfl
          rw [← hcd, sepC_quote hc] at this; cases this
        · simp [hcd, plainFrom] at h
      | none =>
        simp only [List.cons_append, List.nil_append, lexer]
        by_cases h1 : space c = true
        · simp [h1, flush]
        · have h2 : punct c = true := by simpa [sepC, h1] using hc
          simp [h1, h2, flush]
    · have he' : endSep a = true := by
        simpa [endSep, List.getLast?_cons, ha, List.getLast?_eq_some_getLast ha] using he
      cases q with
      | some d =>
        simp only [plainFrom, Bool.and_eq_true] at h
        simp only [List.cons_append, lexer]
        refine ih ?_ ha he' h.2
        intro x hx
        split at hx
        · cases hx
        · cases hx; exact hq _ rfl
      | none =>
        simp only [plainFrom] at h
        simp only [List.cons_append, lexer]
        by_cases h1 : space c = true
        · rw [sepC_quote (c := c) (by simp [sepC, h1])] at h
          simp only [h1, if_true]; rw [ih (q := none) (by intro d hd; cases hd) ha he' h]; simp
        · by_cases h2 : punct c = true
          · rw [sepC_quote (c := c) (by simp [sepC, h2])] at h
            simp only [h1, h2, if_true]; rw [ih (q := none) (by intro d hd; cases hd) ha he' h]; simp
          · simp only [h1, h2]
            refine ih ?_ ha he' h
            intro x hx
            split at hx
            · cases hx; assumption
            · cases hx

theorem G.right {a b : Text} {ta tb : List Tok} (ha : G a ta) (hb : G b tb) (h : startSep b = true) : G (a ++ b) (ta ++ tb) := by
  refine ⟨?_, ?_⟩
  · unfold Plain; rw [plainFrom_append ha.1]; exact hb.1
  · rw [toks, lexer_append_right h ha.1, ← ha.2, ← hb.2]; rfl

theorem G.left {a b : Text} {ta tb : List Tok} (ha : G a ta) (hb : G b tb) (h : endSep a = true) : G (a ++ b) (ta ++ tb) := by
  refine ⟨?_, ?_⟩
  · unfold Plain; rw [plainFrom_append ha.1]; exact hb.1
  · by_cases hn : a = []
    · subst hn; rw [← ha.2, ← hb.2]; rfl
    · rw [toks, lexer_append_left (by intro d hd; cases hd) hn h ha.1, ← ha.2, ← hb.2]; rfl

theorem G.nil : G [] [] := ⟨rfl, rfl⟩

theorem G.of {t : Text} (h : Plain t) : G t (toks t) := ⟨h, rfl⟩

theorem startSep_append {a b : Text} (h : startSep a = true) (hn : a ≠ []) : startSep (a ++ b) = true := by
  cases a with
  | nil => exact absurd rfl hn
  | cons c a => exact h

theorem endSep_append {a b : Text} (h : endSep b = true) (hn : b ≠ []) : endSep (a ++ b) = true := by
  simpa [endSep, List.getLast?_append, List.getLast?_eq_some_getLast hn] using h

theorem G_spaces (n : Nat) : G (spaces n) [] := by
  induction n with
  | zero => exact G.nil
  | succ n ih =>
    have := G.left (a := [' ']) (ta := []) ⟨by decide, by decide⟩ ih (by decide)
    simpa [spaces, List.replicate_succ] using this

theorem endSep_spaces (n : Nat) : endSep (spaces n) = true := by
  cases n with
  | zero => rfl
  | succ n => simp [spaces, List.replicate_succ', endSep, sepC, space]

theorem G.indent {t : Text} {ts : List Tok} (h : G t ts) (n : Nat) : G (spaces n ++ t) ts := by
  simpa using (G_spaces n).left h (endSep_spaces n)

/-- Texts in parentheses. -/
theorem G.paren {t : Text} {ts : List Tok} (h : G t ts) : G (lit "(" ++ t ++ lit ")") (paren ts) := by
  have h1 : G (lit "(") (ws ["("]) := ⟨by decide +kernel, by decide +kernel⟩
  have h2 : G (lit ")") (ws [")"]) := ⟨by decide +kernel, by decide +kernel⟩
  exact (h1.left h (by decide +kernel)).right h2 (by decide +kernel)

/-! ### Lines -/

/-- The lines have closed quotes without line breaks and together have the given tokens. -/
def Ls (l : List Text) (ts : List Tok) : Prop := (∀ t ∈ l, Plain t) ∧ l.flatMap toks = ts

theorem Ls.nil : Ls [] [] := ⟨by simp, rfl⟩

theorem Ls.one {t : Text} {ts : List Tok} (h : G t ts) : Ls [t] ts := ⟨by simpa using h.1, by simpa using h.2⟩

theorem Ls.append {a b : List Text} {ta tb : List Tok} (ha : Ls a ta) (hb : Ls b tb) : Ls (a ++ b) (ta ++ tb) := by
  refine ⟨?_, by rw [List.flatMap_append, ha.2, hb.2]⟩
  intro t ht
  rcases List.mem_append.mp ht with h | h
  · exact ha.1 _ h
  · exact hb.1 _ h

theorem Ls.cons {t : Text} {b : List Text} {ta tb : List Tok} (ha : G t ta) (hb : Ls b tb) : Ls (t :: b) (ta ++ tb) := (Ls.one ha).append hb

theorem Ls.indent {l : List Text} {ts : List Tok} (h : Ls l ts) (n : Nat) : Ls (l.map (fun x => spaces n ++ x)) ts := by
  refine ⟨?_, ?_⟩
  · intro t ht
    obtain ⟨x, hx, rfl⟩ := List.mem_map.mp ht
    exact ((G.of (h.1 x hx)).indent n).1
  · rw [← h.2, List.flatMap_map]
    apply List.flatMap_congr
    intro x hx
    exact ((G.of (h.1 x hx)).indent n).2

theorem Ls.appendLast {l : List Text} {ts : List Tok} (h : Ls l ts) {s : Text} {ss : List Tok} (hs : G s ss) (hst : startSep s = true) (hn : l ≠ []) :
    Ls (appendLast s l) (ts ++ ss) := by
  induction l generalizing ts with
  | nil => exact absurd rfl hn
  | cons t l ih =>
    cases l with
    | nil =>
      have ht : G t ts := ⟨h.1 t (by simp), by simpa using h.2⟩
      exact Ls.one (ht.right hs hst)
    | cons u us =>
      have h1 : G t (toks t) := G.of (h.1 t (by simp))
      have h2 : Ls (u :: us) ((u :: us).flatMap toks) := ⟨fun x hx => h.1 x (List.mem_cons_of_mem _ hx), rfl⟩
      have h3 := Ls.cons h1 (ih h2 (by simp))
      rw [← h.2, List.flatMap_cons, List.append_assoc]
      exact h3

theorem Ls.prependFirst {l : List Text} {ts : List Tok} (h : Ls l ts) {s : Text} {ss : List Tok} (hs : G s ss) (hst : endSep s = true) (hn : l ≠ []) :
    Ls (prependFirst s l) (ss ++ ts) := by
  cases l with
  | nil => exact absurd rfl hn
  | cons t l =>
    have h1 : G t (toks t) := G.of (h.1 t (by simp))
    have h2 : Ls l (l.flatMap toks) := ⟨fun x hx => h.1 x (List.mem_cons_of_mem _ hx), rfl⟩
    have := Ls.cons (hs.left h1 hst) h2
    rw [← h.2, List.flatMap_cons]
    simpa [Format.prependFirst] using this

theorem G_join {s : Text} {ss : List Tok} (hs : G s ss) (h1 : startSep s = true) (h2 : endSep s = true) (hn : s ≠ []) {l : List Text}
    (hl : ∀ t ∈ l, Plain t) : G (join s l) (sepBy ss (l.map toks)) := by
  induction l with
  | nil => exact G.nil
  | cons t l ih =>
    cases l with
    | nil => exact G.of (hl t (by simp))
    | cons u us =>
      have ht : G t (toks t) := G.of (hl t (by simp))
      have := (ht.right hs h1).left (ih (fun x hx => hl x (List.mem_cons_of_mem _ hx))) (endSep_append h2 hn)
      simpa [join, sepBy] using this

theorem sepBy_nil (l : List (List Tok)) : sepBy [] l = l.flatten := by
  induction l with
  | nil => rfl
  | cons t l ih =>
    cases l with
    | nil => simp [sepBy]
    | cons u us => rw [sepBy, ih]; simp

/-- Lines separated by line breaks and spaces. -/
theorem Ls.join {l : List Text} {ts : List Tok} (h : Ls l ts) (n : Nat) : G (join (lit "\n" ++ spaces n) l) ts := by
  have hb : G (lit "\n" ++ spaces n) [] := by
    have h1 : G (lit "\n") [] := ⟨by decide +kernel, by decide +kernel⟩
    simpa using h1.left (G_spaces n) (by decide +kernel)
  have he : endSep (lit "\n" ++ spaces n) = true := by
    cases n with
    | zero => rfl
    | succ n => exact endSep_append (endSep_spaces _) (by simp [spaces, List.replicate_succ])
  have := G_join hb (by rfl) he (by simp [lit]) h.1
  rw [sepBy_nil] at this
  rw [← h.2, List.flatMap_def]; exact this

theorem Ls.join0 {l : List Text} {ts : List Tok} (h : Ls l ts) : G (Format.join (lit "\n") l) ts := by simpa [spaces] using h.join 0

theorem G_commaJoin {α : Type} {l : List α} {f : α → Text} {g : α → List Tok} (h : ∀ x ∈ l, G (f x) (g x)) : G (join (lit ", ") (l.map f)) (commaSep (l.map g)) := by
  have h1 : G (lit ", ") (ws [","]) := ⟨by decide +kernel, by decide +kernel⟩
  have := G_join h1 (by decide +kernel) (by decide +kernel) (by decide +kernel) (l := l.map f) (by
    intro t ht; obtain ⟨x, hx, rfl⟩ := List.mem_map.mp ht; exact (h x hx).1)
  have he : (l.map f).map toks = l.map g := by
    rw [List.map_map]; exact List.map_congr_left (fun x hx => (h x hx).2)
  rw [he] at this; exact this

theorem commas_ls {l : List Text} (h : ∀ t ∈ l, Plain t) : Ls (commas l) (commaSep (l.map toks)) := by
  induction l with
  | nil => exact Ls.nil
  | cons t l ih =>
    cases l with
    | nil => exact Ls.one (G.of (h t (by simp)))
    | cons u us =>
      have h1 : G (lit ",") (ws [","]) := ⟨by decide +kernel, by decide +kernel⟩
      have ht := (G.of (h t (by simp))).right h1 (by decide +kernel)
      have := Ls.cons ht (ih (fun x hx => h x (List.mem_cons_of_mem _ hx)))
      simpa [commas, commaSep, sepBy] using this

theorem lines_ls_aux {t : Text} : ∀ {q : Option Char} (cur : List Char), plainFrom q t = true →
    ∃ l ls, lines t = l :: ls ∧ plainFrom q l = true ∧ (∀ x ∈ ls, Plain x) ∧ lexer q cur t = lexer q cur l ++ ls.flatMap toks := by
  induction t with
  | nil => intro q cur h; exact ⟨[], [], rfl, h, by simp, by simp⟩
  | cons c t ih =>
    intro q cur h
    by_cases hc : c = '\n'
    · subst hc
      cases q with
      | some d => simp [plainFrom] at h
      | none =>
        have h' : plainFrom none t = true := by simpa [plainFrom, quoteC] using h
        obtain ⟨l, ls, e, p1, p2, p3⟩ := ih (q := none) [] h'
        refine ⟨[], l :: ls, by simp [lines, e], rfl, ?_, ?_⟩
        · intro x hx
          rcases List.mem_cons.mp hx with rfl | hx
          · exact p1
          · exact p2 x hx
        · have : lexer none cur ('\n' :: t) = flush cur ++ lexer none [] t := by simp [lexer, space]
          rw [this, p3]; simp [lexer, toks]
    · cases q with
      | some d =>
        simp only [plainFrom, Bool.and_eq_true] at h
        obtain ⟨l, ls, e, p1, p2, p3⟩ := ih (cur ++ [c]) h.2
        refine ⟨c :: l, ls, by simp [lines, hc, e], by simp [plainFrom, p1, hc], p2, ?_⟩
        simp only [lexer]; exact p3
      | none =>
        simp only [plainFrom] at h
        by_cases h1 : space c = true
        · have hq := sepC_quote (c := c) (by simp [sepC, h1])
          have h' := h; rw [hq] at h'
          obtain ⟨l, ls, e, p1, p2, p3⟩ := ih [] h'
          refine ⟨c :: l, ls, by simp [lines, hc, e], by simp [plainFrom, hq]; exact p1, p2, ?_⟩
          simp only [lexer, h1, if_true]; simp only [Bool.false_eq_true, if_false] at p3; rw [p3]; simp
        · by_cases h2 : punct c = true
          · have hq := sepC_quote (c := c) (by simp [sepC, h2])
            have h' := h; rw [hq] at h'
            obtain ⟨l, ls, e, p1, p2, p3⟩ := ih [] h'
            refine ⟨c :: l, ls, by simp [lines, hc, e], by simp [plainFrom, hq]; exact p1, p2, ?_⟩
            simp only [lexer, h1, h2, if_true]; simp only [Bool.false_eq_true, if_false] at p3; rw [p3]; simp
          · obtain ⟨l, ls, e, p1, p2, p3⟩ := ih (cur ++ [c]) h
            refine ⟨c :: l, ls, by simp [lines, hc, e], by simp only [plainFrom]; exact p1, p2, ?_⟩
            simp only [lexer, h1, h2]; exact p3

/-- Without line breaks in quoted parts, the lines of a text together have its tokens. -/
theorem G.lines {t : Text} {ts : List Tok} (h : G t ts) : Ls (lines t) ts := by
  obtain ⟨l, ls, e, p1, p2, p3⟩ := lines_ls_aux [] h.1
  rw [e]
  refine ⟨?_, ?_⟩
  · intro x hx
    rcases List.mem_cons.mp hx with rfl | hx
    · exact p1
    · exact p2 x hx
  · rw [← h.2, toks, p3]; simp [toks]

theorem lines_ne (t : Text) : lines t ≠ [] := by
  cases t with
  | nil => simp [lines]
  | cons c t =>
    simp only [lines]
    split
    · simp
    · split <;> simp

theorem G.increase {t : Text} {ts : List Tok} (h : G t ts) : G (increase t) ts := (h.lines.join 2).indent 2

theorem G.subText {t : Text} {ts : List Tok} (h : G t ts) : G (subText t) (FormatProps.paren ts) := by
  unfold Format.subText
  split
  · have hl := h.paren.lines
    cases e : Format.lines (lit "(" ++ t ++ lit ")") with
    | nil => exact absurd e (lines_ne _)
    | cons l ls =>
      rw [e] at hl
      simp only
      have h1 : G l (toks l) := G.of (hl.1 l (by simp))
      have h2 : Ls ls (ls.flatMap toks) := ⟨fun x hx => hl.1 x (List.mem_cons_of_mem _ hx), rfl⟩
      have hb : G (lit "\n" ++ spaces 4) [] := ⟨by decide +kernel, by decide +kernel⟩
      have := (Ls.cons (hb.left h1 (by decide +kernel)) (h2.indent 4)).join0
      rw [← hl.2]
      simpa using this
  · exact h.paren.indent 4

/-! ### Numbers and trailing characters -/

theorem lexer_word {t : Text} (h : ∀ c ∈ t, space c = false ∧ punct c = false ∧ quoteC c = false) : ∀ cur, lexer none cur t = flush (cur ++ t) ∧ plainFrom none t = true := by
  induction t with
  | nil => intro cur; simp [lexer, plainFrom]
  | cons c t ih =>
    intro cur
    obtain ⟨h1, h2, h3⟩ := h c (by simp)
    have := ih (fun x hx => h x (List.mem_cons_of_mem _ hx)) (cur ++ [c])
    simp only [lexer, plainFrom, h1, h2, h3]
    refine ⟨?_, ?_⟩
    · simpa using this.1
    · simpa using this.2

theorem digit_word {c : Char} (h : c.isDigit = true) : space c = false ∧ punct c = false ∧ quoteC c = false := by
  have key : ∀ p : Char → Bool, (∀ c, p c = true → c.isDigit = false) → p c = false := by
    intro p hp
    cases hc : p c with
    | false => rfl
    | true => rw [hp c hc] at h; cases h
  refine ⟨key space ?_, key punct ?_, key quoteC ?_⟩
  · intro c hc
    simp only [space, Bool.or_eq_true, decide_eq_true_eq] at hc
    rcases hc with ((hc | hc) | hc) | hc <;> subst hc <;> decide
  · intro c hc
    simp only [punct, Bool.or_eq_true, decide_eq_true_eq] at hc
    rcases hc with ((hc | hc) | hc) | hc <;> subst hc <;> decide
  · intro c hc
    simp only [quoteC, Bool.or_eq_true, decide_eq_true_eq] at hc
    rcases hc with hc | hc <;> subst hc <;> decide

theorem G_num (n : Nat) : G (num n) [num n] := by
  have h : ∀ c ∈ num n, space c = false ∧ punct c = false ∧ quoteC c = false := by
    intro c hc
    rw [num, Nat.toList_repr] at hc
    exact digit_word (Nat.isDigit_of_mem_toDigits (by decide) (by decide) hc)
  have hn : num n ≠ [] := by rw [num, Nat.toList_repr]; exact Nat.toDigits_ne_nil
  refine ⟨(lexer_word h []).2, ?_⟩
  rw [toks, (lexer_word h []).1]
  simp [flush, hn]

theorem plain_init {c : Char} (hc : sepC c = true) {t : Text} : ∀ {q : Option Char}, Qok q → plainFrom q (t ++ [c]) = true → plainFrom q t = true := by
  induction t with
  | nil =>
    intro q hq h
    cases q with
    | none => rfl
    | some d =>
      exfalso
      simp only [List.nil_append, plainFrom, Bool.and_eq_true] at h
      by_cases hcd : c = d
      · have := hq d rfl; rw [← hcd, sepC_quote hc] at this; cases this
      · simp [hcd] at h
  | cons x t ih =>
    intro q hq h
    cases q with
    | none =>
      simp only [List.cons_append, plainFrom] at h ⊢
      refine ih ?_ h
      intro y hy
      split at hy
      · cases hy; assumption
      · cases hy
    | some d =>
      simp only [List.cons_append, plainFrom, Bool.and_eq_true] at h ⊢
      refine ⟨h.1, ih ?_ h.2⟩
      intro y hy
      split at hy
      · cases hy
      · cases hy; exact hq _ rfl

theorem G.init {t : Text} {c : Char} (hc : sepC c = true) {ts : List Tok} (h : G (t ++ [c]) ts) : G t (toks t) ∧ ts = toks t ++ toks [c] := by
  have h1 : Plain t := plain_init hc (by intro d hd; cases hd) h.1
  refine ⟨G.of h1, ?_⟩
  rw [← h.2]
  exact lexer_append_right (b := [c]) (by simpa [startSep] using hc) h1

theorem G.rstripSemi {t : Text} : ∀ {ts : List Tok}, G t ts → [';'] ∉ ts → G (rstripSemi t) ts := by
  induction t using List.reverseRecOn with
  | nil => intro ts h _; exact h
  | append_singleton t c ih =>
    intro ts h hn
    by_cases hc : c = ' '
    · subst hc
      obtain ⟨h1, h2⟩ := h.init (by decide)
      have h3 : toks [' '] = [] := by decide
      rw [h3, List.append_nil] at h2
      have := ih (ts := ts) (by rw [h2]; exact h1) hn
      simpa [Format.rstripSemi] using this
    · by_cases hc' : c = ';'
      · subst hc'
        obtain ⟨h1, h2⟩ := h.init (by decide)
        exfalso; apply hn; rw [h2]
        have h3 : toks [';'] = [[';']] := by decide
        rw [h3]; simp
      · simpa [Format.rstripSemi, hc, hc'] using h

theorem G.rstrip {t : Text} : ∀ {ts : List Tok}, G t ts → G (rstrip t) ts := by
  induction t using List.reverseRecOn with
  | nil => intro ts h; exact h
  | append_singleton t c ih =>
    intro ts h
    by_cases hc : space c = true
    · obtain ⟨h1, h2⟩ := h.init (by simp [sepC, hc])
      have h3 : toks [c] = [] := by simp [toks, lexer, hc, flush]
      rw [h3, List.append_nil] at h2
      have := ih (ts := ts) (by rw [h2]; exact h1)
      have e : Format.rstrip (t ++ [c]) = Format.rstrip t := by
        unfold Format.rstrip
        rw [List.reverse_append]
        simp only [List.reverse_singleton, List.singleton_append]
        rw [List.dropWhile_cons_of_pos]
        simpa [space] using hc
      rw [e]; exact this
    · have e : Format.rstrip (t ++ [c]) = t ++ [c] := by
        unfold Format.rstrip
        rw [List.reverse_append]
        simp only [List.reverse_singleton, List.singleton_append]
        rw [List.dropWhile_cons_of_neg]
        · simp
        · simpa [space] using hc
      rw [e]; exact h

/-! ### The parts of a query -/

variable {Q : Type}

/-- The texts of the part are plain and its nested queries satisfy the predicate. -/
def Holds (P : Q → Prop) (p : Parts Q) : Prop := (∀ t ∈ p.texts, Plain t) ∧ ∀ q ∈ p.subs, P q

theorem holds_and {P : Q → Prop} {a b : Parts Q} : Holds P (a.and b) ↔ Holds P a ∧ Holds P b := by
  simp only [Holds, Parts.and, List.mem_append]
  constructor
  · intro ⟨h1, h2⟩
    exact ⟨⟨fun t ht => h1 t (Or.inl ht), fun q hq => h2 q (Or.inl hq)⟩, ⟨fun t ht => h1 t (Or.inr ht), fun q hq => h2 q (Or.inr hq)⟩⟩
  · intro ⟨h1, h2⟩
    exact ⟨fun t ht => ht.elim (h1.1 t) (h2.1 t), fun q hq => hq.elim (h1.2 q) (h2.2 q)⟩

theorem holds_all {P : Q → Prop} {α : Type} {f : α → Parts Q} {l : List α} : Holds P (allParts f l) ↔ ∀ x ∈ l, Holds P (f x) := by
  induction l with
  | nil => simp [allParts, Holds, none']
  | cons a l ih => simp [allParts, holds_and, ih]

theorem holds_opt {P : Q → Prop} {α : Type} {f : α → Parts Q} {o : Option α} : Holds P (optParts f o) ↔ ∀ a, o = some a → Holds P (f a) := by
  cases o <;> simp [optParts, Holds, none']

theorem holds_text {P : Q → Prop} {l : List Text} : Holds P (textParts l) ↔ ∀ t ∈ l, Plain t := by simp [textParts, Holds]

/-- Nested queries are written with the given tokens, in parentheses. -/
structure SubOk (sub : Q → Text) (c : Q → List Tok) (q : Q) : Prop where
  g : G (sub q) (paren (c q))
  start : startSep (sub q) = true
  stop : endSep (sub q) = true
  ne : sub q ≠ []

/-- Line breaks are layout. -/
structure BrkOk (brk : Nat → Text) : Prop where
  g : ∀ k, G (brk k) []
  start : ∀ k, startSep (brk k) = true
  stop : ∀ k, endSep (brk k) = true
  ne : ∀ k, brk k ≠ []

theorem exText_ok {sub : Q → Text} {brk : Nat → Text} {c : Q → List Tok} {e : Ex Q} (hb : BrkOk brk) (h : Holds (SubOk sub c) (exParts e)) :
    G (exText sub brk e) (canonEx c e) := by
  have key : ∀ l : List (Gap Q × Text), (∀ p ∈ l, Plain p.2) → (∀ p ∈ l, ∀ q ∈ gapSubs p.1, SubOk sub c q) →
      G ((l.map (fun p => (match p.1 with | .sub q => sub q | .brk k => brk k) ++ p.2)).flatten) (l.flatMap (fun p => canonGap c p.1 ++ toks p.2)) ∧
      startSep ((l.map (fun p => (match p.1 with | .sub q => sub q | .brk k => brk k) ++ p.2)).flatten) = true := by
    intro l h1 h2
    induction l with
    | nil => exact ⟨G.nil, rfl⟩
    | cons p l ih =>
      obtain ⟨i1, i2⟩ := ih (fun p hp => h1 p (List.mem_cons_of_mem _ hp)) (fun p hp => h2 p (List.mem_cons_of_mem _ hp))
      obtain ⟨g, t⟩ := p
      have ht : G t (toks t) := G.of (h1 (g, t) (by simp))
      simp only [List.map_cons, List.flatten_cons, List.flatMap_cons]
      cases g with
      | sub q =>
        have hq := h2 (.sub q, t) (by simp) q (by simp [gapSubs])
        refine ⟨(hq.g.left ht hq.stop).right i1 i2, ?_⟩
        simp only [List.append_assoc]
        exact startSep_append hq.start hq.ne
      | brk k =>
        refine ⟨?_, ?_⟩
        · have := ((hb.g k).left ht (hb.stop k)).right i1 i2
          simpa [canonGap] using this
        · simp only [List.append_assoc]
          exact startSep_append (hb.start k) (hb.ne k)
  have hh : G e.head (toks e.head) := G.of (h.1 _ (by simp [exParts, exTexts]))
  obtain ⟨k1, k2⟩ := key e.tail (fun p hp => h.1 _ (by simp [exParts, exTexts]; right; exact ⟨p.1, hp⟩))
    (fun p hp q hq => h.2 _ (by simp only [exParts, exSubs, List.mem_flatMap]; exact ⟨p, hp, hq⟩))
  exact hh.right k1 k2

theorem subText_start (t : Text) : startSep (subText t) = true ∧ endSep (subText t) = true ∧ subText t ≠ [] := by
  have join_last : ∀ (l : List Text) (x : Text), l ≠ [] → l.getLast? = some x → x ≠ [] → (join (lit "\n") l).getLast? = x.getLast? := by
    intro l
    induction l with
    | nil => intro x h; exact absurd rfl h
    | cons a l ih =>
      intro x _ hx hne
      cases l with
      | nil => simp at hx; subst hx; rfl
      | cons b bs =>
        have := ih x (by simp) (by simpa using hx) hne
        simp only [join]
        rw [List.getLast?_append, this]
        rw [List.getLast?_eq_some_getLast hne]; rfl
  have lines_last : ∀ t : Text, ∃ ls x, lines (t ++ lit ")") = ls ++ [x] ∧ x.getLast? = some ')' := by
    intro t
    induction t with
    | nil => exact ⟨[], [')'], by decide +kernel, rfl⟩
    | cons c t ih =>
      obtain ⟨ls, x, e, hx⟩ := ih
      simp only [List.cons_append, lines]
      by_cases hc : c = '\n'
      · simp only [hc, if_true]; exact ⟨[] :: ls, x, by rw [e]; rfl, hx⟩
      · simp only [hc, if_false]
        rw [e]
        cases ls with
        | nil =>
          refine ⟨[], c :: x, rfl, ?_⟩
          have hxn : x ≠ [] := by intro h; rw [h] at hx; cases hx
          rw [List.getLast?_cons, hx]; rfl
        | cons l ls => exact ⟨(c :: l) :: ls, x, rfl, hx⟩
  unfold subText
  split
  · obtain ⟨ls, x, e, hx⟩ := lines_last (lit "(" ++ t)
    rw [e]
    have hxn : x ≠ [] := by intro h; rw [h] at hx; cases hx
    cases ls with
    | nil =>
      simp only [List.nil_append, List.map_nil, join]
      refine ⟨?_, ?_, by simp [lit]⟩
      · rfl
      · unfold endSep; rw [List.getLast?_append, hx]; rfl
    | cons l ls =>
      simp only [List.cons_append]
      refine ⟨?_, ?_, ?_⟩
      · cases hh : List.map (fun l => spaces 4 ++ l) (ls ++ [x]) with
        | nil => simp at hh
        | cons a as => rfl
      · unfold endSep
        rw [join_last _ (spaces 4 ++ x) (by simp) (by simp [List.getLast?_append, List.getLast?_cons]) (by simp [hxn]), List.getLast?_append, hx]
        rfl
      · cases hh : List.map (fun l => spaces 4 ++ l) (ls ++ [x]) with
        | nil => simp at hh
        | cons a as => simp [join, lit]
  · refine ⟨rfl, ?_, by simp [lit]⟩
    unfold endSep
    rw [← List.append_assoc, List.getLast?_append]; rfl

theorem brkText_ok : BrkOk brkText := by
  refine ⟨?_, fun _ => rfl, ?_, ?_⟩
  · intro k
    have h1 : G (lit "\n") [] := by decide +kernel
    simpa [brkText] using h1.left (G_spaces k) (by decide +kernel)
  · intro k
    cases k with
    | zero => rfl
    | succ n => exact endSep_append (endSep_spaces _) (by simp [spaces, List.replicate_succ])
  · intro k; simp [brkText, lit]

theorem Holds.mono {P P' : Q → Prop} {p : Parts Q} (h : Holds P p) (hp : ∀ q, P q → P' q) : Holds P' p := ⟨h.1, fun q hq => hp q (h.2 q hq)⟩

theorem fmtEx_ok {rec : Q → Text} {c : Q → List Tok} {e : Ex Q} (h : Holds (fun q => G (rec q) (c q)) (exParts e)) : G (fmtEx rec e) (canonEx c e) := by
  refine exText_ok brkText_ok (h.mono ?_)
  intro q hq
  obtain ⟨h1, h2, h3⟩ := subText_start (rec q)
  exact ⟨hq.subText, h1, h2, h3⟩

/-! ### The parts of the text -/

theorem G.as {t n : Text} {ts : List Tok} (h : G t ts) (hn : Plain n) : G (t ++ lit " AS " ++ n) (ts ++ (ws ["AS"] ++ toks n)) := by
  have h1 : G (lit " AS ") (ws ["AS"]) := by decide +kernel
  have := (h.right h1 (by decide +kernel)).left (G.of hn) (endSep_append (by decide +kernel) (by decide +kernel))
  simpa using this

theorem projText_ok {ex : Ex Q → Text} {cex : Ex Q → List Tok} {p : Proj Q} (h : G (ex p.ex) (cex p.ex)) (hn : ∀ n, p.name = some n → Plain n) :
    G (projText ex p) (cex p.ex ++ canonName p.name) := by
  unfold projText
  cases e : p.name with
  | none => simpa [canonName, opt] using h
  | some n => exact h.as (hn n e)

theorem rowText_ok {r : List Text} (h : ∀ t ∈ r, Plain t) : G (rowText r) (paren (commaSep (r.map toks))) := by
  have := G_commaJoin (l := r) (f := id) (g := toks) (fun x hx => G.of (h x hx))
  rw [List.map_id] at this
  exact this.paren

theorem rows_ok {rows : List (List Text)} (h : ∀ t ∈ rows.flatten, Plain t) : G (lit "VALUES " ++ join (lit ", ") (rows.map rowText)) (canonRows rows) := by
  have h1 : G (lit "VALUES ") (ws ["VALUES"]) := by decide +kernel
  exact h1.left (G_commaJoin (fun r hr => rowText_ok (fun t ht => h t (List.mem_flatten.mpr ⟨r, hr, ht⟩)))) (by decide +kernel)

theorem cols_ok {cols : List Text} (h : ∀ t ∈ cols, Plain t) : G (if cols = [] then [] else lit "(" ++ join (lit ", ") cols ++ lit ")") (canonCols cols) := by
  unfold canonCols
  split
  · exact G.nil
  · exact rowText_ok h

theorem cols_start (cols : List Text) : startSep (if cols = [] then [] else lit "(" ++ join (lit ", ") cols ++ lit ")") = true := by
  split
  · rfl
  · rfl

theorem valuesText_ok {rows : List (List Text)} {name : Option (Text × List Text)} (h : ∀ t ∈ rows.flatten, Plain t)
    (hn : ∀ n cols, name = some (n, cols) → Plain n ∧ ∀ t ∈ cols, Plain t) : G (valuesText rows name) (canonValues rows name) := by
  have h1 := (rows_ok h).paren
  have e : lit "(" ++ (lit "VALUES " ++ join (lit ", ") (rows.map rowText)) ++ lit ")" = lit "(VALUES " ++ join (lit ", ") (rows.map rowText) ++ lit ")" := by
    simp [lit]
  rw [e] at h1
  unfold valuesText canonValues
  cases name with
  | none => simpa [opt] using h1
  | some p =>
    obtain ⟨n, cols⟩ := p
    obtain ⟨h2, h3⟩ := hn n cols rfl
    have h4 := h1.as h2
    have h5 : G (if cols = [] then [] else lit " (" ++ join (lit ", ") cols ++ lit ")") (canonCols cols) := by
      unfold canonCols
      split
      · exact G.nil
      · have := (rowText_ok h3).indent 1
        simpa [rowText, spaces, lit] using this
    have h6 : startSep (if cols = [] then [] else lit " (" ++ join (lit ", ") cols ++ lit ")") = true := by
      split
      · rfl
      · rfl
    have := h4.right h5 h6
    simpa [opt, List.append_assoc] using this

theorem funcText_ok {ex : Ex Q → Text} {cex : Ex Q → List Tok} {e : Ex Q} {name : Option Text} (h : G (ex e) (cex e)) (hn : ∀ n, name = some n → Plain n) :
    G (funcText ex e name) (cex e ++ canonName name) := by
  unfold funcText
  cases hh : name with
  | none => simpa [canonName, opt] using h
  | some n => exact h.as (hn n hh)

theorem ascText_ok (b : Option Bool) : G (ascText b) (opt (fun b => if b then ws ["ASC"] else ws ["DESC"]) b) ∧ startSep (ascText b) = true := by
  rcases b with _ | _ | _ <;> decide +kernel

theorem nullsText_ok (b : Option Bool) : G (nullsText b) (opt (fun b => if b then ws ["NULLS", "FIRST"] else ws ["NULLS", "LAST"]) b) ∧ startSep (nullsText b) = true := by
  rcases b with _ | _ | _ <;> decide +kernel

theorem orderText_ok {ex : Ex Q → Text} {cex : Ex Q → List Tok} {o : OrderE Q} (h : G (ex o.ex) (cex o.ex)) : G (orderText ex o) (canonOrderE cex o) :=
  (h.right (ascText_ok o.asc).1 (ascText_ok o.asc).2).right (nullsText_ok o.nullsFirst).1 (nullsText_ok o.nullsFirst).2

theorem nameText_ok {n : Option Text} (h : ∀ t, n = some t → Plain t) : G (nameText n) (canonName n) ∧ startSep (nameText n) = true := by
  cases n with
  | none => exact ⟨G.nil, rfl⟩
  | some t =>
    have h1 : G (lit " AS ") (ws ["AS"]) := by decide +kernel
    exact ⟨h1.left (G.of (h t rfl)) (by decide +kernel), rfl⟩

theorem orderByText_ok {ex : Ex Q → Text} {cex : Ex Q → List Tok} {o : OrderC Q} (h : ∀ e ∈ o.first :: o.rest, G (ex e.ex) (cex e.ex)) :
    G (orderByText ex o) (canonOrder cex o) := by
  have a1 : G (lit "ORDER BY ") (ws ["ORDER", "BY"]) := by decide +kernel
  exact a1.left (G_commaJoin (fun e he => orderText_ok (h e he))) (by decide +kernel)

theorem havingText_ok {ex : Ex Q → Text} {cex : Ex Q → List Tok} {e : Ex Q} (h : G (ex e) (cex e)) : G (havingText ex e) (ws ["HAVING"] ++ cex e) := by
  have a1 : G (lit "HAVING ") (ws ["HAVING"]) := by decide +kernel
  exact a1.left h (by decide +kernel)

theorem fetch_ok (f : Fetch) : G f.text (canonFetch f) := by cases f <;> decide +kernel

theorem op_ok (f : SetOp) : G f.text (canonOp f) := by cases f <;> decide +kernel

theorem joinType_ok (f : JoinType) : G f.text (canonJoin f) := by cases f <;> decide +kernel

theorem fetchText_ok (f : Fetch) (n : Nat) : G (lit "FETCH " ++ f.text ++ lit " " ++ num n ++ lit " ROWS ONLY") (ws ["FETCH"] ++ canonFetch f ++ [num n] ++ ws ["ROWS", "ONLY"]) := by
  have a1 : G (lit "FETCH ") (ws ["FETCH"]) := by decide +kernel
  have a2 : G (lit " ") [] := by decide +kernel
  have a3 : G (lit " ROWS ONLY") (ws ["ROWS", "ONLY"]) := by decide +kernel
  have h1 := (a1.left (fetch_ok f) (by decide +kernel)).right a2 (by decide +kernel)
  have h2 := (h1.left (G_num n) (endSep_append (by decide +kernel) (by decide +kernel))).right a3 (by decide +kernel)
  simpa using h2

theorem offsetText_ok (n : Nat) : G (lit "OFFSET " ++ num n ++ lit " ROWS") (ws ["OFFSET"] ++ [num n] ++ ws ["ROWS"]) := by
  have a1 : G (lit "OFFSET ") (ws ["OFFSET"]) := by decide +kernel
  have a3 : G (lit " ROWS") (ws ["ROWS"]) := by decide +kernel
  exact (a1.left (G_num n) (by decide +kernel)).right a3 (by decide +kernel)

theorem limitText_ok (l : LimitC) : G (limitText l) (canonLimit l .offsetFetch) := by
  obtain ⟨lim, off, f⟩ := l
  have a2 : G (lit " ") [] := by decide +kernel
  cases off with
  | none =>
    cases lim with
    | none => exact G.nil
    | some n =>
      have hne : fetchText f (some n) ≠ [] := by simp [fetchText, lit]
      have e : limitText ⟨some n, none, f⟩ = fetchText f (some n) := by
        unfold limitText
        rw [if_neg (by simp [offsetText]), if_neg (by simp [offsetText]), if_pos hne]
      rw [e]; exact fetchText_ok f n
  | some m =>
    have h1 := offsetText_ok m
    have hne1 : offsetText (some m) ≠ [] := by simp [offsetText, lit]
    cases lim with
    | none =>
      have e : limitText ⟨none, some m, f⟩ = offsetText (some m) := by
        unfold limitText
        rw [if_neg (by simp [fetchText]), if_pos hne1]
      rw [e]
      simpa [canonLimit, opt, offsetText] using h1
    | some n =>
      have h := fetchText_ok f n
      have hne : fetchText f (some n) ≠ [] := by simp [fetchText, lit]
      have h2 := (h1.right a2 (by decide +kernel)).left h (endSep_append (by decide +kernel) (by decide +kernel))
      have e : limitText ⟨some n, some m, f⟩ = offsetText (some m) ++ lit " " ++ fetchText f (some n) := by
        unfold limitText
        rw [if_pos ⟨hne1, hne⟩]
      rw [e]
      simpa [canonLimit, opt, offsetText, fetchText] using h2

/-! ### The clauses -/

theorem matText_ok (m : Option Bool) : G (matText m) (canonMat m) ∧ endSep (matText m) = true := by
  rcases m with _ | _ | _ <;> decide +kernel

/-- The restrictions on lists of values in WITH clauses: a single list of values is written without RECURSIVE and MATERIALIZED. -/
def WithOk (w : With Q) : Prop :=
  ∀ cols row rows, w.rest = [] → w.first.body = .values cols row rows → w.recursive = false ∧ w.first.mat = none

theorem header_ok {name : Text} {mat : Option Bool} (hn : Plain name) : G (name ++ lit " AS " ++ matText mat ++ lit "(") (toks name ++ ws ["AS"] ++ canonMat mat ++ ws ["("]) := by
  have h1 : G (lit " AS ") (ws ["AS"]) := by decide +kernel
  have h2 : G (lit "(") (ws ["("]) := by decide +kernel
  have h3 := ((G.of hn).right h1 (by decide +kernel)).left (matText_ok mat).1 (endSep_append (by decide +kernel) (by decide +kernel))
  exact h3.right h2 (by decide +kernel)

/-- The words between the parentheses of a query of a WITH clause with several queries. -/
def inner (c : Q → List Tok) (x : Cte Q) : List Tok :=
  match x.body with
  | .query q => c q
  | .values cols row rows => ws ["SELECT", "*", "FROM"] ++ canonValues (row :: rows) (some (x.name, cols))

theorem inner_ok {rec : Q → Text} {c : Q → List Tok} {x : Cte Q} (h : Holds (fun q => G (rec q) (c q)) (cteParts x)) :
    G (cteContent rec x) (inner c x) ∧ Plain x.name ∧ canonCte c false x = toks x.name ++ ws ["AS"] ++ canonMat x.mat ++ ws ["("] ++ inner c x ++ ws [")"] := by
  unfold cteContent inner canonCte
  cases e : x.body with
  | query q =>
    simp only [cteParts, e, Holds, List.mem_singleton, forall_eq] at h
    refine ⟨h.2, h.1, ?_⟩
    simp [paren]
  | values cols row rows =>
    simp only [cteParts, e, Holds] at h
    have hn : Plain x.name := h.1 _ (by simp)
    refine ⟨?_, hn, ?_⟩
    · have a1 : G (lit "SELECT *") (ws ["SELECT", "*"]) := by decide +kernel
      have a2 : G (lit "FROM") (ws ["FROM"]) := by decide +kernel
      have a3 : G (valuesText (row :: rows) (some (x.name, cols))) (canonValues (row :: rows) (some (x.name, cols))) := by
        refine valuesText_ok (fun t ht => h.1 t (by simp at ht ⊢; tauto)) ?_
        intro n cs e'
        simp only [Option.some.injEq, Prod.mk.injEq] at e'
        rw [← e'.1, ← e'.2]
        exact ⟨hn, fun t ht => h.1 t (by simp; tauto)⟩
      have := (Ls.cons a1 (Ls.cons a2 (Ls.one (a3.indent 2)))).join0
      simpa [ws] using this
    · simp [paren]

theorem rest_ok {rec : Q → Text} {c : Q → List Tok} {l : List (Cte Q)} (h : ∀ x ∈ l, Holds (fun q => G (rec q) (c q)) (cteParts x)) :
    Ls ((l.map (fun c => [lit "), " ++ c.name ++ lit " AS " ++ matText c.mat ++ lit "(", increase (cteContent rec c)])).flatten ++ [lit ")"])
      (ws [")"] ++ (l.flatMap (fun x => ws [","] ++ canonCte c false x))) := by
  induction l with
  | nil =>
    have h2 : G (lit ")") (ws [")"]) := by decide +kernel
    simpa using Ls.one h2
  | cons x l ih =>
    obtain ⟨h1, h2, h3⟩ := inner_ok (h x (by simp))
    have a1 : G (lit "), ") (ws [")", ","]) := by decide +kernel
    have a2 := a1.left (header_ok (mat := x.mat) h2) (by decide +kernel)
    have a3 := Ls.cons a2 (Ls.cons h1.increase (ih (fun y hy => h y (List.mem_cons_of_mem _ hy))))
    simp only [List.map_cons, List.flatten_cons, List.flatMap_cons]
    rw [h3]
    have e : ws [")", ","] = ws [")"] ++ ws [","] := rfl
    rw [e] at a3
    simpa [List.append_assoc] using a3

theorem commaSep_cons (t : List Tok) (l : List (List Tok)) : commaSep (t :: l) = t ++ l.flatMap (fun u => ws [","] ++ u) := by
  induction l generalizing t with
  | nil => simp [commaSep, sepBy]
  | cons u us ih =>
    have := ih u
    simp only [commaSep] at this ⊢
    rw [sepBy, this]; simp

theorem values_join {row : List Text} {rows : List (List Text)} (h : ∀ t ∈ (row :: rows).flatten, Plain t) :
    G (join (lit ",\n") ((lit "VALUES " ++ rowText row) :: rows.map rowText)) (canonRows (row :: rows)) := by
  have h1 : G (lit ",\n") (ws [","]) := by decide +kernel
  have h0 : G (lit "VALUES ") (ws ["VALUES"]) := by decide +kernel
  have hr : ∀ r ∈ row :: rows, G (rowText r) (paren (commaSep (r.map toks))) := fun r hr => rowText_ok (fun t ht => h t (List.mem_flatten.mpr ⟨r, hr, ht⟩))
  have hf := h0.left (hr row (by simp)) (by decide +kernel)
  have := G_join h1 (by decide +kernel) (by decide +kernel) (by decide +kernel) (l := (lit "VALUES " ++ rowText row) :: rows.map rowText) (by
    intro t ht
    rcases List.mem_cons.mp ht with rfl | ht
    · exact hf.1
    · obtain ⟨r, hr', rfl⟩ := List.mem_map.mp ht
      exact (hr r (List.mem_cons_of_mem _ hr')).1)
  have e : sepBy (ws [","]) (((lit "VALUES " ++ rowText row) :: rows.map rowText).map toks) = canonRows (row :: rows) := by
    have em : (rows.map rowText).map toks = rows.map (fun r => paren (commaSep (r.map toks))) := by
      rw [List.map_map]; exact List.map_congr_left (fun r hr' => (hr r (List.mem_cons_of_mem _ hr')).2)
    rw [List.map_cons, hf.2, em]
    show commaSep _ = _
    rw [commaSep_cons, canonRows, List.map_cons, commaSep_cons]
    simp
  rw [e] at this; exact this

theorem fmtCte_ok {rec : Q → Text} {c : Q → List Tok} {w : With Q} (h : Holds (fun q => G (rec q) (c q)) (allParts cteParts (w.first :: w.rest))) (hw : WithOk w) :
    Ls (fmtCte rec w) (canonWith c w.rest.isEmpty w) := by
  rw [holds_all] at h
  have hf := h w.first (by simp)
  have a0 : G (lit "WITH ") (ws ["WITH"]) := by decide +kernel
  have a1 : G (if w.recursive then lit "RECURSIVE " else []) (if w.recursive then ws ["RECURSIVE"] else []) ∧ endSep (lit "WITH " ++ if w.recursive then lit "RECURSIVE " else []) = true := by
    cases w.recursive <;> decide +kernel
  have a2 := a0.left a1.1 (by decide +kernel)
  have ac : G (lit ")") (ws [")"]) := by decide +kernel
  unfold fmtCte
  cases er : w.rest with
  | nil =>
    simp only [canonWith, er, List.isEmpty_nil, List.map_cons, List.map_nil, sepBy]
    cases eb : w.first.body with
    | query q =>
      simp only [cteParts, eb, Holds, List.mem_singleton, forall_eq] at hf
      have b1 := a2.left (header_ok (mat := w.first.mat) hf.1) a1.2
      have := Ls.cons b1 (Ls.cons hf.2.increase (Ls.one ac))
      simp only [canonCte, eb]
      simpa [paren, List.append_assoc] using this
    | values cols row rows =>
      obtain ⟨hw1, hw2⟩ := hw cols row rows er eb
      simp only [cteParts, eb, Holds] at hf
      have hn : Plain w.first.name := hf.1 _ (by simp)
      have hc : ∀ t ∈ cols, Plain t := fun t ht => hf.1 t (by simp; tauto)
      have hv : ∀ t ∈ (row :: rows).flatten, Plain t := fun t ht => hf.1 t (by simp at ht ⊢; tauto)
      have as : G (lit " AS (") (ws ["AS", "("]) := by decide +kernel
      have b1 := (((a0.left (G.of hn) (by decide +kernel)).right (cols_ok hc) (cols_start cols)).right as (by decide +kernel))
      have := Ls.cons b1 (Ls.cons (values_join hv).increase (Ls.one ac))
      simp only [canonCte, eb, hw1, hw2]
      have e : ws ["AS", "("] = ws ["AS"] ++ ws ["("] := rfl
      rw [e] at this
      simpa [paren, canonMat, List.append_assoc] using this
  | cons x xs =>
    obtain ⟨h1, h2, h3⟩ := inner_ok hf
    have as : G (lit " ") [] := by decide +kernel
    have b1 := (a2.right as (by decide +kernel)).left (header_ok (mat := w.first.mat) h2) (endSep_append (by decide +kernel) (by decide +kernel))
    have b2 := rest_ok (l := x :: xs) (fun y hy => h y (by rw [er]; exact List.mem_cons_of_mem _ hy))
    have b3 := Ls.cons b1 (Ls.cons h1.increase b2)
    have e : canonWith c (x :: xs).isEmpty w = ws ["WITH"] ++ (if w.recursive then ws ["RECURSIVE"] else []) ++ (canonCte c false w.first
        ++ (x :: xs).flatMap (fun x => ws [","] ++ canonCte c false x)) := by
      unfold canonWith
      rw [er, List.map_cons, commaSep_cons, List.flatMap_map]; rfl
    rw [e, h3]
    simpa [List.append_assoc] using b3

theorem prefix_ok {d : Distinct} (h : ∀ t ∈ distinctTexts d, Plain t) : G (selectPrefix d) (ws ["SELECT"] ++ canonDistinct d) := by
  cases d with
  | no => decide +kernel
  | all => decide +kernel
  | on c cs =>
    have a1 : G (lit "SELECT DISTINCT ON ") (ws ["SELECT"] ++ ws ["DISTINCT", "ON"]) := by decide +kernel
    have := a1.left (rowText_ok (r := c :: cs) h) (by decide +kernel)
    simp only [selectPrefix, canonDistinct]
    have e : lit "SELECT DISTINCT ON (" ++ join (lit ", ") (c :: cs) ++ lit ")" = lit "SELECT DISTINCT ON " ++ rowText (c :: cs) := by
      simp [lit, rowText]
    rw [e]; simpa [List.append_assoc] using this

theorem hintText_ok {h : Option Text} (hh : ∀ t, h = some t → Plain t) : G (hintText h) (opt toks h) ∧ endSep (hintText h) = true := by
  cases h with
  | none => exact ⟨G.nil, rfl⟩
  | some t =>
    have a1 : G (lit " ") [] := by decide +kernel
    refine ⟨?_, endSep_append (by decide +kernel) (by decide +kernel)⟩
    simpa [hintText, opt] using (G.of (hh t rfl)).right a1 (by decide +kernel)

theorem commas_map {α : Type} {t : Text} {ts : List Tok} (ht : G t ts) {l : List α} {f : α → Text} {g : α → List Tok} (h : ∀ x ∈ l, G (f x) (g x)) :
    Ls (commas (t :: l.map (fun x => spaces 2 ++ f x))) (commaSep (ts :: l.map g)) := by
  have := commas_ls (l := t :: l.map (fun x => spaces 2 ++ f x)) (by
    intro u hu
    rcases List.mem_cons.mp hu with rfl | hu
    · exact ht.1
    · obtain ⟨x, hx, rfl⟩ := List.mem_map.mp hu
      exact ((h x hx).indent 2).1)
  have e : (t :: l.map (fun x => spaces 2 ++ f x)).map toks = ts :: l.map g := by
    rw [List.map_cons, ht.2, List.map_map]
    congr 1
    exact List.map_congr_left (fun x hx => ((h x hx).indent 2).2)
  rw [e] at this; exact this

theorem fmtSelect_ok {ex : Ex Q → Text} {c : Q → List Tok} {hint : Option Text} {s : Select Q} (hd : ∀ t ∈ distinctTexts s.distinct, Plain t)
    (hp : ∀ p ∈ s.first :: s.rest, G (ex p.ex) (canonEx c p.ex) ∧ ∀ n, p.name = some n → Plain n) (hh : ∀ t, hint = some t → Plain t) :
    Ls (fmtSelect ex hint s) (canonSelect c hint s) := by
  have hpr := prefix_ok hd
  obtain ⟨hh1, hh2⟩ := hintText_ok hh
  have as : G (lit " ") [] := by decide +kernel
  have hproj : ∀ p ∈ s.first :: s.rest, G (projText ex p) (canonEx c p.ex ++ canonName p.name) := fun p hpm => projText_ok (hp p hpm).1 (hp p hpm).2
  have hstart := (hpr.right as (by decide +kernel)).left hh1 (endSep_append (by decide +kernel) (by decide +kernel))
  have hend : endSep (selectPrefix s.distinct ++ lit " " ++ hintText hint) = true := by
    cases hint with
    | none => simp only [hintText, List.append_nil]; exact endSep_append (by decide +kernel) (by decide +kernel)
    | some t => exact endSep_append hh2 (by simp [hintText, lit])
  unfold fmtSelect
  split
  · simp only
    by_cases ho : s.distinct.isOn = true
    · simp only [ho, if_true]
      have h2 : endSep (hintText hint ++ spaces 2) = true := endSep_append (by decide +kernel) (by decide +kernel)
      have b1 := (hh1.left (G_spaces 2) hh2).left (hproj s.first (by simp)) h2
      have b2 := Ls.cons hpr (commas_map b1 (l := s.rest) (fun p hpm => hproj p (List.mem_cons_of_mem _ hpm)))
      unfold canonSelect
      rw [List.map_cons, commaSep_cons]
      rw [commaSep_cons] at b2
      simpa [List.append_assoc] using b2
    · simp only [ho, if_false]
      have b1 := hstart.left (hproj s.first (by simp)) hend
      have b2 := commas_map b1 (l := s.rest) (fun p hpm => hproj p (List.mem_cons_of_mem _ hpm))
      unfold canonSelect
      rw [List.map_cons, commaSep_cons]
      rw [commaSep_cons] at b2
      simpa [List.append_assoc] using b2
  · have b1 := hstart.left (G_commaJoin hproj) hend
    have := Ls.one b1
    simpa [canonSelect, List.append_assoc] using this

theorem fmtImplicit_ok {ts : List Text} (h : ∀ t ∈ ts, Plain t) (rec : Q → List Tok) (ex : Ex Q → List Tok) : Ls (fmtImplicit ts) (canonFrom rec ex (.implicit ts)) := by
  cases ts with
  | nil => exact Ls.nil
  | cons t ts =>
    have a1 : G (lit "FROM ") (ws ["FROM"]) := by decide +kernel
    have b1 := a1.left (G.of (h t (by simp))) (by decide +kernel)
    simp only [fmtImplicit, canonFrom]
    split
    · have := commas_map b1 (l := ts) (f := fun u => u) (g := toks) (fun u hu => G.of (h u (List.mem_cons_of_mem _ hu)))
      rw [List.map_cons, commaSep_cons]
      rw [commaSep_cons] at this
      simpa [List.append_assoc] using this
    · have h3 := G_commaJoin (l := t :: ts) (f := id) (g := toks) (fun u hu => G.of (h u hu))
      rw [List.map_id] at h3
      exact Ls.one (a1.left h3 (by decide +kernel))

/-- Whether a source is a table. -/
def isTable : Source Q → Bool
  | .table _ => true
  | _ => false

/-- Joins on the right-hand side of a join have a table on the left-hand side; otherwise they are written without parentheses. -/
def JoinsOk : Source Q → Prop
  | .join l r _ _ => (isJoin r = true → isTable l = true) ∧ JoinsOk l ∧ JoinsOk r
  | _ => True

theorem condText_ok {ex : Ex Q → Text} {cex : Ex Q → List Tok} {cond : Option (Ex Q)} (h : ∀ e, cond = some e → G (ex e) (cex e)) :
    G (condText ex cond) (opt (fun c => ws ["ON"] ++ cex c) cond) ∧ startSep (condText ex cond) = true := by
  cases cond with
  | none => exact ⟨G.nil, rfl⟩
  | some e =>
    have a1 : G (lit " ON ") (ws ["ON"]) := by decide +kernel
    exact ⟨a1.left (h e rfl) (by decide +kernel), rfl⟩

theorem fmtJoin_ne (l r : Source Q) (typ : JoinType) (cond : Text) (ls rs : List Text) : fmtJoin l r typ cond ls rs ≠ [] := by
  unfold fmtJoin
  split
  · simp
  · simp
  · simp
  · cases ls <;> simp [appendLast]
    · cases rs <;> simp [appendLast]
    · rename_i a as
      cases as <;> simp [appendLast]

theorem fmtSource_ne (rec : Q → Text) (ex : Ex Q → Text) (s : Source Q) : fmtSource rec ex s ≠ [] := by
  cases s with
  | join l r typ cond => exact fmtJoin_ne _ _ _ _ _ _
  | _ => simp [fmtSource]

/-- A line with the type of a join and a table. -/
theorem joinLine_ok {typ : JoinType} {u cond : Text} {cc : List Tok} (hu : Plain u) (hc : G cond cc) (hs : startSep cond = true) :
    G (spaces 2 ++ typ.text ++ lit " " ++ u ++ cond) (canonJoin typ ++ toks u ++ cc) := by
  have as : G (lit " ") [] := by decide +kernel
  have := ((((joinType_ok typ).indent 2).right as (by decide +kernel)).left (G.of hu) (endSep_append (by decide +kernel) (by decide +kernel))).right hc hs
  simpa using this

theorem fmtSource_ok {rec : Q → Text} {c : Q → List Tok} {ex : Ex Q → Text} {cex : Ex Q → List Tok} {P : Q → Prop} (hP : ∀ q, P q → G (rec q) (c q))
    (hex : ∀ e, Holds P (exParts e) → G (ex e) (cex e)) (s : Source Q) (h : Holds P (sourceParts s)) (hj : JoinsOk s) :
    Ls (fmtSource rec ex s) (canonSource c cex s) := by
  induction s with
  | table t => exact Ls.one (G.of (h.1 t (by simp [sourceParts, textParts])))
  | values row rows name =>
    refine Ls.one (valuesText_ok ?_ ?_)
    · intro t ht
      apply h.1
      cases name with
      | none => exact ht
      | some p => obtain ⟨n, cols⟩ := p; simp only [sourceParts, textParts]; exact List.mem_append_left _ ht
    · intro n cols e
      subst e
      exact ⟨h.1 _ (by simp [sourceParts, textParts]), fun t ht => h.1 _ (by simp [sourceParts, textParts]; tauto)⟩
  | func e name =>
    simp only [sourceParts, holds_and, holds_text] at h
    exact Ls.one (funcText_ok (hex e h.1) (fun n hn => h.2 n (by simp [hn])))
  | sub lateral q name =>
    have hq : G (rec q) (c q) := hP q (h.2 q (by simp [sourceParts]))
    obtain ⟨hn1, hn2⟩ := nameText_ok (n := name) (fun t ht => h.1 t (by simp [sourceParts, ht]))
    have a1 : G (lit "LATERAL (") (ws ["LATERAL"] ++ ws ["("]) := by decide +kernel
    have a2 : G (lit "(") (ws ["("]) := by decide +kernel
    have a3 : G (lit ")") (ws [")"]) := by decide +kernel
    have a4 : G (if lateral then lit "LATERAL (" else lit "(") ((if lateral then ws ["LATERAL"] else []) ++ ws ["("]) := by
      cases lateral
      · exact a2
      · exact a1
    have := Ls.cons a4 ((hq.lines.indent 2).append (Ls.one (a3.right hn1 hn2)))
    simpa [fmtSource, canonSource, paren, List.append_assoc] using this
  | join l r typ cond ihl ihr =>
    simp only [sourceParts, holds_and, holds_opt] at h
    obtain ⟨⟨hl, hr⟩, hc⟩ := h
    simp only [JoinsOk] at hj
    have hl' := ihl hl hj.2.1
    have hr' := ihr hr hj.2.2
    obtain ⟨hc1, hc2⟩ := condText_ok (cond := cond) (fun e he => hex e (hc e he))
    have general : Ls ((appendLast (condText ex cond) (fmtSource rec ex l ++ [typ.text] ++ fmtSource rec ex r)).map (fun x => spaces 2 ++ x))
        (canonSource c cex l ++ canonJoin typ ++ canonSource c cex r ++ opt (fun c => ws ["ON"] ++ cex c) cond) :=
      (((hl'.append (Ls.one (joinType_ok typ))).append hr').appendLast hc1 hc2 (by simp)).indent 2
    simp only [fmtSource, canonSource]
    unfold fmtJoin
    cases l with
    | table t =>
      have ht : Plain t := hl.1 t (by simp [sourceParts, textParts])
      cases r with
      | table u =>
        have hu : Plain u := hr.1 u (by simp [sourceParts, textParts])
        have := Ls.cons (G.of ht) (Ls.one (joinLine_ok (typ := typ) hu hc1 hc2))
        simpa [canonSource, isJoin, List.append_assoc] using this
      | join l2 r2 typ2 cond2 =>
        have a1 : G (lit " (") (ws ["("]) := by decide +kernel
        have a3 : G (lit ")") (ws [")"]) := by decide +kernel
        cases hrs : fmtSource rec ex (.join l2 r2 typ2 cond2) with
        | nil => exact absurd hrs (fmtSource_ne _ _ _)
        | cons x xs =>
          rw [hrs] at hr'
          have hx : G x (toks x) := G.of (hr'.1 x (by simp))
          have hxs : Ls xs (xs.flatMap toks) := ⟨fun y hy => hr'.1 y (List.mem_cons_of_mem _ hy), rfl⟩
          have b1 := ((joinType_ok typ).right a1 (by decide +kernel)).left hx (endSep_append (by decide +kernel) (by decide +kernel))
          have := Ls.cons (G.of ht) ((Ls.cons b1 (hxs.indent 2)).append (Ls.one (a3.right hc1 hc2)))
          have e : canonSource c cex (.join l2 r2 typ2 cond2) = toks x ++ xs.flatMap toks := by rw [← hr'.2]; simp
          simp only [isJoin, if_true, e, paren]
          simpa [canonSource, List.append_assoc] using this
      | values row rows name => simpa [isJoin] using general
      | func e name => simpa [isJoin] using general
      | sub lat q name => simpa [isJoin] using general
    | join l2 r2 typ2 cond2 =>
      cases r with
      | table u =>
        have hu : Plain u := hr.1 u (by simp [sourceParts, textParts])
        have := hl'.append (Ls.one (joinLine_ok (typ := typ) hu hc1 hc2))
        simpa [canonSource, fmtSource, isJoin, List.append_assoc] using this
      | join l3 r3 typ3 cond3 => have := hj.1 rfl; simp [isTable] at this
      | values row rows name => simpa [isJoin] using general
      | func e name => simpa [isJoin] using general
      | sub lat q name => simpa [isJoin] using general
    | values row rows name =>
      cases r with
      | join l3 r3 typ3 cond3 => have := hj.1 rfl; simp [isTable] at this
      | _ => simpa [isJoin] using general
    | func e name =>
      cases r with
      | join l3 r3 typ3 cond3 => have := hj.1 rfl; simp [isTable] at this
      | _ => simpa [isJoin] using general
    | sub lat q name =>
      cases r with
      | join l3 r3 typ3 cond3 => have := hj.1 rfl; simp [isTable] at this
      | _ => simpa [isJoin] using general

/-- The sources of a FROM clause. -/
def sources : FromC Q → List (Source Q)
  | .implicit _ => []
  | .explicit root => [root]
  | .general s ss => s :: ss

theorem fmtGeneral_ok {rec : Q → Text} {c : Q → List Tok} {ex : Ex Q → Text} {cex : Ex Q → List Tok} {P : Q → Prop} (hP : ∀ q, P q → G (rec q) (c q))
    (hex : ∀ e, Holds P (exParts e) → G (ex e) (cex e)) (l : List (Source Q)) (h : ∀ s ∈ l, Holds P (sourceParts s)) (hj : ∀ s ∈ l, JoinsOk s) :
    Ls (fmtGeneral rec ex l) (commaSep (l.map (canonSource c cex))) := by
  induction l with
  | nil => exact Ls.nil
  | cons s l ih =>
    have hs := (fmtSource_ok hP hex s (h s (by simp)) (hj s (by simp))).indent 2
    cases l with
    | nil => exact hs
    | cons u us =>
      have a1 : G (lit ",") (ws [","]) := by decide +kernel
      have := (hs.appendLast a1 (by decide +kernel) (by simp [fmtSource_ne])).append
        (ih (fun x hx => h x (List.mem_cons_of_mem _ hx)) (fun x hx => hj x (List.mem_cons_of_mem _ hx)))
      simpa [fmtGeneral, commaSep, sepBy] using this

theorem fmtFrom_ok {rec : Q → Text} {c : Q → List Tok} {ex : Ex Q → Text} {cex : Ex Q → List Tok} {P : Q → Prop} (hP : ∀ q, P q → G (rec q) (c q))
    (hex : ∀ e, Holds P (exParts e) → G (ex e) (cex e)) (f : FromC Q) (h : Holds P (fromParts f)) (hj : ∀ s ∈ sources f, JoinsOk s) :
    Ls (fmtFrom rec ex f) (canonFrom c cex f) := by
  cases f with
  | implicit ts => exact fmtImplicit_ok (fun t ht => h.1 t ht) c cex
  | explicit root =>
    have a1 : G (lit "FROM ") (ws ["FROM"]) := by decide +kernel
    exact (fmtSource_ok hP hex root h (hj root (by simp [sources]))).prependFirst a1 (by decide +kernel) (fmtSource_ne _ _ _)
  | general s ss =>
    have a1 : G (lit "FROM") (ws ["FROM"]) := by decide +kernel
    simp only [fromParts, holds_all] at h
    exact Ls.cons a1 (fmtGeneral_ok hP hex (s :: ss) h hj)

theorem sepBy_cons (x : List Tok) (t : List Tok) (l : List (List Tok)) : sepBy x (t :: l) = t ++ l.flatMap (fun u => x ++ u) := by
  induction l generalizing t with
  | nil => simp [sepBy]
  | cons u us ih => rw [sepBy, ih u]; simp

theorem fmtWhere_ok {ex : Ex Q → Text} {cex : Ex Q → List Tok} {w : WhereC Q} (h : ∀ e ∈ w.first :: w.rest, G (ex e) (cex e)) : Ls (fmtWhere ex w) (canonWhere cex w) := by
  have a1 : G (lit "WHERE ") (ws ["WHERE"]) := by decide +kernel
  have a2 : G (lit "AND ") (ws ["AND"]) := by decide +kernel
  have b1 := a1.left (h w.first (by simp)) (by decide +kernel)
  have b2 : Ls (w.rest.map (fun e => spaces 2 ++ (lit "AND " ++ ex e))) (w.rest.flatMap (fun e => ws ["AND"] ++ cex e)) := by
    have hg : ∀ e ∈ w.rest, G (spaces 2 ++ (lit "AND " ++ ex e)) (ws ["AND"] ++ cex e) :=
      fun e he => (a2.left (h e (List.mem_cons_of_mem _ he)) (by decide +kernel)).indent 2
    refine ⟨?_, ?_⟩
    · intro t ht; obtain ⟨e, he, rfl⟩ := List.mem_map.mp ht; exact (hg e he).1
    · rw [List.flatMap_map]; exact List.flatMap_congr (fun e he => (hg e he).2)
  have := Ls.cons b1 b2
  unfold canonWhere
  rw [List.map_cons, sepBy_cons, List.flatMap_map]
  simpa [List.append_assoc, fmtWhere] using this

theorem fmtGroup_ok {ex : Ex Q → Text} {cex : Ex Q → List Tok} {g : GroupC Q} (h : ∀ e ∈ g.first :: g.rest, G (ex e) (cex e)) : Ls (fmtGroup ex g) (canonGroup cex g) := by
  have a1 : G (lit "GROUP BY ") (ws ["GROUP", "BY"]) := by decide +kernel
  have a2 : G (if g.distinct then lit "DISTINCT " else []) (if g.distinct then ws ["DISTINCT"] else []) ∧
      endSep (lit "GROUP BY " ++ if g.distinct then lit "DISTINCT " else []) = true := by
    cases g.distinct <;> decide +kernel
  have a3 := a1.left a2.1 (by decide +kernel)
  unfold fmtGroup canonGroup
  simp only
  split
  · have b1 := a3.left (h g.first (by simp)) a2.2
    have := commas_map b1 (l := g.rest) (fun e he => h e (List.mem_cons_of_mem _ he))
    rw [List.map_cons, commaSep_cons]
    rw [commaSep_cons] at this
    simpa [List.append_assoc] using this
  · exact Ls.one (a3.left (G_commaJoin h) a2.2)

/-- The way `format_quick` writes queries. -/
def formatStyle (fl : Flavor) : Style where
  limit l := match fl, l.fetch with
    | .vanilla, _ => .fetchOffset
    | .postgres, .first => .limitOffset
    | .postgres, .next => .limitOffset
    | .postgres, _ => .offsetFetch
  valuesDirect := false

theorem given_eq {o : Option Nat} (h : o ≠ some 0) : given o = o := by
  rcases o with _ | _ | n
  · rfl
  · exact absurd rfl h
  · rfl

theorem part_ok {α : Type} {f : α → List Text} {g : α → List Tok} {o : Option α} (h : ∀ a, o = some a → Ls (f a) (g a)) : Ls (part f o) (opt g o) := by
  cases o with
  | none => exact Ls.nil
  | some a => exact h a rfl

theorem fmtLimit_ok (fl : Flavor) {l : LimitC} (h1 : l.limit ≠ some 0) (h2 : l.offset ≠ some 0) : Ls (fmtLimit fl l) (canonLimit l ((formatStyle fl).limit l)) := by
  have hl : G (lit "LIMIT ") (ws ["LIMIT"]) := by decide +kernel
  have ho : G (lit "OFFSET ") (ws ["OFFSET"]) := by decide +kernel
  unfold fmtLimit
  rw [given_eq h1, given_eq h2]
  have pg : Ls (part (fun n => [lit "LIMIT " ++ num n]) l.limit ++ part (fun n => [lit "OFFSET " ++ num n]) l.offset) (canonLimit l .limitOffset) :=
    (part_ok (fun n _ => Ls.one (hl.left (G_num n) (by decide +kernel)))).append (part_ok (fun n _ => Ls.one (ho.left (G_num n) (by decide +kernel))))
  have va : Ls (part (fun n => [lit "FETCH " ++ l.fetch.text ++ lit " " ++ num n ++ lit " ROWS ONLY"]) l.limit ++ part (fun n => [lit "OFFSET " ++ num n ++ lit " ROWS"]) l.offset)
      (canonLimit l .fetchOffset) := (part_ok (fun n _ => Ls.one (fetchText_ok _ n))).append (part_ok (fun n _ => Ls.one (offsetText_ok n)))
  cases fl with
  | vanilla => exact va
  | postgres =>
    cases hf : l.fetch with
    | first => simpa [formatStyle, hf] using pg
    | next => simpa [formatStyle, hf] using pg
    | prior => simpa [formatStyle, hf] using Ls.one (limitText_ok l)
    | last => simpa [formatStyle, hf] using Ls.one (limitText_ok l)

/-- The restrictions on a query, without its texts and nested queries. `c` are the words of the nested queries. -/
def Local (c : Bool → Q → List Tok) : Query Q → Prop
  | .sel _ _ cte _ src _ _ _ _ limit =>
    (∀ w, cte = some w → WithOk w) ∧ (∀ f, src = some f → ∀ s ∈ sources f, JoinsOk s) ∧ (∀ l, limit = some l → l.limit ≠ some 0 ∧ l.offset ≠ some 0)
  | .set _ _ cte l r _ _ _ =>
    (∀ w, cte = some w → WithOk w) ∧ ∀ i, [';'] ∉ c i l ∧ [';'] ∉ c i r

theorem format_lines (parts : List Text) (ts : List Tok) (h : Ls parts ts) (hn : parts ≠ []) (semicolon : Bool) :
    G (join (lit "\n") (if semicolon then appendLast (lit ";") parts else parts)) (ts ++ if semicolon then ws [";"] else []) := by
  cases semicolon with
  | false => simpa using h.join0
  | true =>
    have a1 : G (lit ";") (ws [";"]) := by decide +kernel
    exact (h.appendLast a1 (by decide +kernel) hn).join0

/-- The style only differs from that of the formatter in the parts that the query does not have. -/
def SameStyle (fl : Flavor) (sty : Style) (c : Q → List Tok) : Query Q → Prop
  | .sel _ _ cte _ _ _ _ _ _ limit =>
    (∀ w, cte = some w → canonWith c (sty.valuesDirect || w.rest.isEmpty) w = canonWith c w.rest.isEmpty w) ∧
      ∀ l, limit = some l → canonLimit l (sty.limit l) = canonLimit l ((formatStyle fl).limit l)
  | .set _ _ cte _ _ _ _ _ => ∀ w, cte = some w → canonWith c (sty.valuesDirect || w.rest.isEmpty) w = canonWith c w.rest.isEmpty w

theorem sameStyle_self (fl : Flavor) (c : Q → List Tok) (q : Query Q) : SameStyle fl (formatStyle fl) c q := by
  cases q with
  | sel => exact ⟨fun w hw => rfl, fun l hl => rfl⟩
  | set => exact fun w hw => rfl

theorem format_ok (fl : Flavor) {rec : Bool → Q → Text} {c : Bool → Q → List Tok} (q : Query Q) (hq : Holds (fun s => ∀ i, G (rec i s) (c i s)) (queryParts q)) (hl : Local c q)
    (sty : Style) (hsty : SameStyle fl sty (c false) q) (inline semicolon : Bool) : G (format fl rec inline semicolon q) (canonQ sty c inline q ++ if semicolon then ws [";"] else []) := by
  have hex : ∀ (e : Ex Q), Holds (fun s => ∀ i, G (rec i s) (c i s)) (exParts e) → G (fmtEx (rec inline) e) (canonEx (c inline) e) :=
    fun e he => fmtEx_ok (he.mono (fun q hq => hq inline))
  cases q with
  | sel hint explain cte select src whr group having order limit =>
    simp only [queryParts, holds_and, holds_text, holds_opt, holds_all] at hq
    obtain ⟨⟨⟨⟨⟨⟨⟨h1, h2⟩, h3⟩, h4⟩, h5⟩, h6⟩, h7⟩, h8⟩ := hq
    obtain ⟨l1, l2, l3⟩ := hl
    simp only [format, canonQ]
    refine format_lines _ _ ?_ ?_ semicolon
    · have p1 : Ls (if inline = true then [] else part (fun h => [h]) hint) (if inline = true then [] else opt toks hint) := by
        cases inline with
        | true => exact Ls.nil
        | false => exact part_ok (fun h hh => Ls.one (G.of (h1 h (by simp [hh]))))
      have p2 : Ls (part (fun e => [e]) explain) (opt toks explain) := part_ok (fun h hh => Ls.one (G.of (h1 h (by simp [hh]))))
      have p3 : Ls (part (fmtCte (rec false)) cte) (opt (fun w => canonWith (c false) (sty.valuesDirect || w.rest.isEmpty) w) cte) :=
        part_ok (fun w hw => hsty.1 w hw ▸ fmtCte_ok (by rw [holds_all]; exact fun x hx => (h2 w hw x hx).mono (fun q hq => hq false)) (l1 w hw))
      have p4 : Ls (fmtSelect (fmtEx (rec inline)) (if inline = true then hint else none) select) (canonSelect (c inline) (if inline = true then hint else none) select) := by
        refine fmtSelect_ok h3.1 ?_ ?_
        · intro p hp
          have := h3.2 p hp
          simp only [projParts, holds_and, holds_text] at this
          exact ⟨hex _ this.1, fun n hn => this.2 n (by simp [hn])⟩
        · intro t ht
          cases inline with
          | true => exact h1 t (by simp at ht; simp [ht])
          | false => cases ht
      have p5 : Ls (part (fmtFrom (rec false) (fmtEx (rec inline))) src) (opt (canonFrom (c false) (canonEx (c inline))) src) :=
        part_ok (fun f hf => fmtFrom_ok (P := fun s => ∀ i, G (rec i s) (c i s)) (fun q hq => hq false) hex f (h4 f hf) (l2 f hf))
      have p6 : Ls (part (fmtWhere (fmtEx (rec inline))) whr) (opt (canonWhere (canonEx (c inline))) whr) :=
        part_ok (fun w hw => fmtWhere_ok (fun e he => hex e (h5 w hw e he)))
      have p7 : Ls (part (fmtGroup (fmtEx (rec inline))) group) (opt (canonGroup (canonEx (c inline))) group) :=
        part_ok (fun w hw => fmtGroup_ok (fun e he => hex e (h6 w hw e he)))
      have p8 : Ls (part (fun h => [havingText (fmtEx (rec inline)) h]) having) (opt (fun e => ws ["HAVING"] ++ canonEx (c inline) e) having) :=
        part_ok (fun e he => Ls.one (havingText_ok (hex e (h7 e he))))
      have p9 : Ls (part (fun o => [orderByText (fmtEx (rec inline)) o]) order) (opt (canonOrder (canonEx (c inline))) order) :=
        part_ok (fun o ho => Ls.one (orderByText_ok (fun e he => hex e.ex (h8 o ho e he))))
      have p10 : Ls (part (fmtLimit fl) limit) (opt (fun l => canonLimit l (sty.limit l)) limit) :=
        part_ok (fun l hl => hsty.2 l hl ▸ fmtLimit_ok fl (l3 l hl).1 (l3 l hl).2)
      exact ((((((((p1.append p2).append p3).append p4).append p5).append p6).append p7).append p8).append p9).append p10
    · have : fmtSelect (fmtEx (rec inline)) (if inline = true then hint else none) select ≠ [] := by
        unfold fmtSelect
        split
        · simp only
          split
          · simp
          · cases select.rest <;> simp [commas]
        · simp
      simp [this]
  | set hint explain cte l r op order limit =>
    simp only [queryParts, holds_and, holds_text, holds_opt, holds_all] at hq
    obtain ⟨⟨⟨h1, h2⟩, h3⟩, h8⟩ := hq
    obtain ⟨l1, l2⟩ := hl
    simp only [format, canonQ]
    refine format_lines _ _ ?_ (by simp) semicolon
    have hlq : G (rec inline l) (c inline l) := h3.2 l (by simp) inline
    have hrq : G (rec inline r) (c inline r) := h3.2 r (by simp) inline
    have p1 : Ls (part (fun h => [h]) hint) (opt toks hint) := part_ok (fun h hh => Ls.one (G.of (h1 h (by simp [hh]))))
    have p2 : Ls (part (fun e => [e]) explain) (opt toks explain) := part_ok (fun h hh => Ls.one (G.of (h1 h (by simp [hh]))))
    have p3 : Ls (part (fmtCte (rec false)) cte) (opt (fun w => canonWith (c false) (sty.valuesDirect || w.rest.isEmpty) w) cte) :=
      part_ok (fun w hw => hsty w hw ▸ fmtCte_ok (by rw [holds_all]; exact fun x hx => (h2 w hw x hx).mono (fun q hq => hq false)) (l1 w hw))
    have p4 : Ls [lit "(" ++ rstripSemi (rec inline l) ++ lit ")", spaces 2 ++ op.text, lit "(" ++ rstripSemi (rec inline r) ++ lit ")"]
        (paren (c inline l) ++ (canonOp op ++ paren (c inline r))) :=
      Ls.cons (hlq.rstripSemi (l2 inline).1).paren (Ls.cons ((op_ok op).indent 2) (Ls.one (hrq.rstripSemi (l2 inline).2).paren))
    have p9 : Ls (part (fun o => [orderByText (fmtEx (rec inline)) o]) order) (opt (canonOrder (canonEx (c inline))) order) :=
      part_ok (fun o ho => Ls.one (orderByText_ok (fun e he => hex e.ex (h8 o ho e he))))
    have p10 : Ls (part (fun l => [limitText l]) limit) (opt (fun l => canonLimit l .offsetFetch) limit) := part_ok (fun l hl => Ls.one (limitText_ok l))
    have := ((((p1.append p2).append p3).append p4).append p9).append p10
    simpa [List.append_assoc] using this

/-! ### The plain text -/

/-- The parts end with layout and together have the given tokens. -/
theorem flatten_ok {l : List Text} {ts : List Tok} (h : Ls l ts) (he : ∀ t ∈ l, endSep t = true) : G l.flatten ts := by
  induction l generalizing ts with
  | nil => rw [← h.2]; exact G.nil
  | cons t l ih =>
    have h1 : G t (toks t) := G.of (h.1 t (by simp))
    have h2 := ih (ts := l.flatMap toks) ⟨fun x hx => h.1 x (List.mem_cons_of_mem _ hx), rfl⟩ (fun x hx => he x (List.mem_cons_of_mem _ hx))
    rw [← h.2, List.flatMap_cons]
    exact h1.left h2 (he t (by simp))

theorem strSub_ok {rec : Q → Text} {c : Q → List Tok} {q : Q} (h : G (rec q) (c q)) : SubOk (fun q => strSub (rec q)) c q :=
  ⟨h.paren, rfl, endSep_append (by decide +kernel) (by decide +kernel), by simp [strSub, lit]⟩

theorem strEx_ok {rec : Q → Text} {c : Q → List Tok} {e : Ex Q} (h : Holds (fun q => G (rec q) (c q)) (exParts e)) : G (strEx rec e) (canonEx c e) := by
  refine exText_ok ⟨fun k => by decide +kernel, fun k => by decide +kernel, fun k => by decide +kernel, fun k => by decide +kernel⟩ (h.mono ?_)
  intro q hq
  exact strSub_ok hq

theorem strWith_ok {rec : Q → Text} {c : Q → List Tok} {x : Cte Q} (h : Holds (fun q => G (rec q) (c q)) (cteParts x)) : G (strWith rec x) (canonCte c true x) := by
  unfold strWith canonCte
  have a1 : G (lit ")") (ws [")"]) := by decide +kernel
  cases e : x.body with
  | query q =>
    simp only [cteParts, e, Holds, List.mem_singleton, forall_eq] at h
    have := ((header_ok (mat := x.mat) h.1).left h.2 (endSep_append (by decide +kernel) (by decide +kernel))).right a1 (by decide +kernel)
    simpa [paren, List.append_assoc] using this
  | values cols row rows =>
    simp only [cteParts, e, Holds] at h
    have hn : Plain x.name := h.1 _ (by simp)
    have hc : ∀ t ∈ cols, Plain t := fun t ht => h.1 t (by simp; tauto)
    have hv : ∀ t ∈ (row :: rows).flatten, Plain t := fun t ht => h.1 t (by simp at ht ⊢; tauto)
    have h1 : G (lit " AS ") (ws ["AS"]) := by decide +kernel
    have b1 := ((((G.of hn).right (cols_ok hc) (cols_start cols)).right h1 (by decide +kernel)).left (matText_ok x.mat).1 (endSep_append (by decide +kernel) (by decide +kernel)))
    have b2 := b1.right (rows_ok hv).paren (by rfl)
    have e' : lit "(" ++ (lit "VALUES " ++ join (lit ", ") ((row :: rows).map rowText)) ++ lit ")" = lit "(VALUES " ++ join (lit ", ") ((row :: rows).map rowText) ++ lit ")" := by
      simp [lit]
    rw [e'] at b2
    simpa [List.append_assoc] using b2

theorem strCte_ok {rec : Q → Text} {c : Q → List Tok} {w : With Q} (h : Holds (fun q => G (rec q) (c q)) (allParts cteParts (w.first :: w.rest))) :
    G (strCte rec w) (canonWith c true w) := by
  rw [holds_all] at h
  have a0 : G (lit "WITH" ++ (if w.recursive then lit " RECURSIVE" else [])) (ws ["WITH"] ++ (if w.recursive then ws ["RECURSIVE"] else [])) := by
    cases w.recursive <;> decide +kernel
  have as : G (lit " ") [] := by decide +kernel
  have := (a0.right as (by decide +kernel)).left (G_commaJoin (l := w.first :: w.rest) (fun x hx => strWith_ok (h x hx))) (endSep_append (by decide +kernel) (by decide +kernel))
  simpa [strCte, canonWith] using this

theorem strSelect_ok {ex : Ex Q → Text} {c : Q → List Tok} {s : Select Q} (hd : ∀ t ∈ distinctTexts s.distinct, Plain t)
    (hp : ∀ p ∈ s.first :: s.rest, G (ex p.ex) (canonEx c p.ex) ∧ ∀ n, p.name = some n → Plain n) : G (strSelect ex s) (canonSelect c none s) := by
  have as : G (lit " ") [] := by decide +kernel
  have hproj : ∀ p ∈ s.first :: s.rest, G (projText ex p) (canonEx c p.ex ++ canonName p.name) := fun p hpm => projText_ok (hp p hpm).1 (hp p hpm).2
  have := ((prefix_ok hd).right as (by decide +kernel)).left (G_commaJoin hproj) (endSep_append (by decide +kernel) (by decide +kernel))
  simpa [strSelect, canonSelect, opt] using this

/-- The joins that the plain text can express: there is no join on the right-hand side of a join, and there is a condition if and only if the type of the join has one. -/
def PlainJoins : Source Q → Prop
  | .join l r typ cond => isJoin r = false ∧ typ.auto = cond.isNone ∧ PlainJoins l ∧ PlainJoins r
  | _ => True

theorem strSource_ok {rec : Q → Text} {c : Q → List Tok} {ex : Ex Q → Text} {cex : Ex Q → List Tok} {P : Q → Prop} (hP : ∀ q, P q → G (rec q) (c q))
    (hex : ∀ e, Holds P (exParts e) → G (ex e) (cex e)) (s : Source Q) (h : Holds P (sourceParts s)) (hj : PlainJoins s) :
    G (strSource rec ex s) (canonSource c cex s) := by
  induction s with
  | table t => exact G.of (h.1 t (by simp [sourceParts, textParts]))
  | values row rows name =>
    refine valuesText_ok ?_ ?_
    · intro t ht
      apply h.1
      cases name with
      | none => exact ht
      | some p => obtain ⟨n, cols⟩ := p; simp only [sourceParts, textParts]; exact List.mem_append_left _ ht
    · intro n cols e
      subst e
      exact ⟨h.1 _ (by simp [sourceParts, textParts]), fun t ht => h.1 _ (by simp [sourceParts, textParts]; tauto)⟩
  | func e name =>
    simp only [sourceParts, holds_and, holds_text] at h
    exact funcText_ok (hex e h.1) (fun n hn => h.2 n (by simp [hn]))
  | sub lateral q name =>
    have hq : G (rec q) (c q) := hP q (h.2 q (by simp [sourceParts]))
    obtain ⟨hn1, hn2⟩ := nameText_ok (n := name) (fun t ht => h.1 t (by simp [sourceParts, ht]))
    have a4 : G (if lateral then lit "LATERAL " else []) (if lateral then ws ["LATERAL"] else []) ∧ endSep (if lateral then lit "LATERAL " else []) = true := by
      cases lateral <;> decide +kernel
    have := (a4.1.left hq.paren a4.2).right hn1 hn2
    simpa [strSource, canonSource, List.append_assoc] using this
  | join l r typ cond ihl ihr =>
    simp only [sourceParts, holds_and, holds_opt] at h
    obtain ⟨⟨hl, hr⟩, hc⟩ := h
    obtain ⟨j1, j2, j3, j4⟩ := hj
    have as : G (lit " ") [] := by decide +kernel
    have hl' := ihl hl j3
    have hr' := ihr hr j4
    have b1 := (((hl'.right as (by decide +kernel)).left (joinType_ok typ) (endSep_append (by decide +kernel) (by decide +kernel))).right as (by decide +kernel)).left hr'
      (endSep_append (by decide +kernel) (by decide +kernel))
    simp only [strSource, canonSource, j1]
    cases cond with
    | none =>
      have : typ.auto = true := by simpa using j2
      simp only [this, if_true, opt]
      simpa [List.append_assoc] using b1
    | some e =>
      have : typ.auto = false := by simpa using j2
      have a1 : G (lit " ON ") (ws ["ON"]) := by decide +kernel
      have := b1.right (a1.left (hex e (hc e rfl)) (by decide +kernel)) (by rfl)
      simp only [‹typ.auto = false›, opt]
      simpa [List.append_assoc] using this

/-- A FROM clause without tables. -/
def emptyFrom : FromC Q → Bool
  | .implicit [] => true
  | _ => false

theorem strFrom_ok {rec : Q → Text} {c : Q → List Tok} {ex : Ex Q → Text} {cex : Ex Q → List Tok} {P : Q → Prop} (hP : ∀ q, P q → G (rec q) (c q))
    (hex : ∀ e, Holds P (exParts e) → G (ex e) (cex e)) (f : FromC Q) (h : Holds P (fromParts f)) (hj : ∀ s ∈ sources f, PlainJoins s) (he : emptyFrom f = false) :
    G (strFrom rec ex f) (canonFrom c cex f) := by
  have a1 : G (lit "FROM ") (ws ["FROM"]) := by decide +kernel
  cases f with
  | implicit ts =>
    cases ts with
    | nil => simp [emptyFrom] at he
    | cons t ts =>
      have h3 := G_commaJoin (l := t :: ts) (f := id) (g := toks) (fun u hu => G.of (h.1 u hu))
      rw [List.map_id] at h3
      exact a1.left h3 (by decide +kernel)
  | explicit root => exact a1.left (strSource_ok hP hex root h (hj root (by simp [sources]))) (by decide +kernel)
  | general s ss =>
    simp only [fromParts, holds_all] at h
    exact a1.left (G_commaJoin (fun x hx => strSource_ok hP hex x (h x hx) (hj x hx))) (by decide +kernel)

theorem strWhere_ok {ex : Ex Q → Text} {cex : Ex Q → List Tok} {w : WhereC Q} (h : ∀ e ∈ w.first :: w.rest, G (ex e) (cex e)) : G (strWhere ex w) (canonWhere cex w) := by
  have a1 : G (lit "WHERE ") (ws ["WHERE"]) := by decide +kernel
  have a2 : G (lit " AND ") (ws ["AND"]) := by decide +kernel
  have := G_join a2 (by decide +kernel) (by decide +kernel) (by decide +kernel) (l := (w.first :: w.rest).map ex) (by
    intro t ht; obtain ⟨x, hx, rfl⟩ := List.mem_map.mp ht; exact (h x hx).1)
  have he : ((w.first :: w.rest).map ex).map toks = (w.first :: w.rest).map cex := by
    rw [List.map_map]; exact List.map_congr_left (fun x hx => (h x hx).2)
  rw [he] at this
  exact a1.left this (by decide +kernel)

theorem strGroup_ok {ex : Ex Q → Text} {cex : Ex Q → List Tok} {g : GroupC Q} (h : ∀ e ∈ g.first :: g.rest, G (ex e) (cex e)) : G (strGroup ex g) (canonGroup cex g) := by
  have a1 : G (lit "GROUP BY" ++ (if g.distinct then lit " DISTINCT" else [])) (ws ["GROUP", "BY"] ++ (if g.distinct then ws ["DISTINCT"] else [])) := by
    cases g.distinct <;> decide +kernel
  have as : G (lit " ") [] := by decide +kernel
  have := (a1.right as (by decide +kernel)).left (G_commaJoin h) (endSep_append (by decide +kernel) (by decide +kernel))
  simpa [strGroup, canonGroup] using this

/-- The way `str` writes queries. -/
def plainStyle : Style where
  limit _ := .offsetFetch
  valuesDirect := true

/-- The restrictions on a query for its plain text: it is not a set operation. -/
def PlainLocal : Query Q → Prop
  | .sel _ _ _ _ src _ _ _ _ _ => ∀ f, src = some f → emptyFrom f = false ∧ ∀ s ∈ sources f, PlainJoins s
  | .set .. => False

theorem strPart_ok {α : Type} {f : α → Text} {g : α → List Tok} {o : Option α} (h : ∀ a, o = some a → G (f a) (g a)) (s : Text) (hs : s = lit " " ∨ s = lit "\n") :
    Ls (part (fun a => [f a ++ s]) o) (opt g o) ∧ ∀ t ∈ part (fun a => [f a ++ s]) o, endSep t = true := by
  have a1 : G s [] ∧ startSep s = true ∧ endSep s = true ∧ s ≠ [] := by rcases hs with rfl | rfl <;> decide +kernel
  cases o with
  | none => exact ⟨Ls.nil, by simp [part]⟩
  | some a =>
    refine ⟨?_, ?_⟩
    · have := Ls.one ((h a rfl).right a1.1 a1.2.1)
      simpa [part, opt] using this
    · intro t ht
      simp only [part, List.mem_singleton] at ht
      subst ht
      exact endSep_append a1.2.2.1 a1.2.2.2

theorem stringify_ok {rec : Bool → Q → Text} {c : Bool → Q → List Tok} (q : Query Q) (hq : Holds (fun s => G (rec false s) (c false s)) (queryParts q)) (hl : PlainLocal q)
    (semicolon : Bool) : G (stringifyQ rec semicolon q) (canonQ plainStyle c false q ++ if semicolon then ws [";"] else []) := by
  have hex : ∀ (e : Ex Q), Holds (fun s => G (rec false s) (c false s)) (exParts e) → G (strEx (rec false) e) (canonEx (c false) e) := fun e he => strEx_ok he
  cases q with
  | set hint explain cte l r op order limit => exact hl.elim
  | sel hint explain cte select src whr group having order limit =>
    simp only [queryParts, holds_and, holds_text, holds_opt, holds_all] at hq
    obtain ⟨⟨⟨⟨⟨⟨⟨h1, h2⟩, h3⟩, h4⟩, h5⟩, h6⟩, h7⟩, h8⟩ := hq
    simp only [stringifyQ, canonQ]
    have p1 := strPart_ok (f := fun h => h) (g := toks) (o := hint) (fun h hh => G.of (h1 h (by simp [hh]))) (lit "\n") (Or.inr rfl)
    have p2 := strPart_ok (f := fun h => h) (g := toks) (o := explain) (fun h hh => G.of (h1 h (by simp [hh]))) (lit " ") (Or.inl rfl)
    have p3 := strPart_ok (f := strCte (rec false)) (g := fun w => canonWith (c false) (plainStyle.valuesDirect || w.rest.isEmpty) w) (o := cte)
      (fun w hw => strCte_ok (by rw [holds_all]; exact fun x hx => h2 w hw x hx)) (lit " ") (Or.inl rfl)
    have p4 : Ls [strSelect (strEx (rec false)) select ++ lit " "] (canonSelect (c false) none select) ∧ ∀ t ∈ [strSelect (strEx (rec false)) select ++ lit " "], endSep t = true := by
      have g : G (strSelect (strEx (rec false)) select) (canonSelect (c false) none select) := by
        refine strSelect_ok h3.1 ?_
        intro p hp
        have := h3.2 p hp
        simp only [projParts, holds_and, holds_text] at this
        exact ⟨hex _ this.1, fun n hn => this.2 n (by simp [hn])⟩
      exact strPart_ok (f := fun _ : Unit => strSelect (strEx (rec false)) select) (g := fun _ => canonSelect (c false) none select) (o := some ()) (fun _ _ => g) (lit " ") (Or.inl rfl)
    have p5 := strPart_ok (f := strFrom (rec false) (strEx (rec false))) (g := canonFrom (c false) (canonEx (c false))) (o := src)
      (fun f hf => strFrom_ok (P := fun s => G (rec false s) (c false s)) (fun q hq => hq) hex f (h4 f hf) (hl f hf).2 (hl f hf).1) (lit " ") (Or.inl rfl)
    have p6 := strPart_ok (f := strWhere (strEx (rec false))) (g := canonWhere (canonEx (c false))) (o := whr)
      (fun w hw => strWhere_ok (fun e he => hex e (h5 w hw e he))) (lit " ") (Or.inl rfl)
    have p7 := strPart_ok (f := strGroup (strEx (rec false))) (g := canonGroup (canonEx (c false))) (o := group)
      (fun w hw => strGroup_ok (fun e he => hex e (h6 w hw e he))) (lit " ") (Or.inl rfl)
    have p8 := strPart_ok (f := havingText (strEx (rec false))) (g := fun e => ws ["HAVING"] ++ canonEx (c false) e) (o := having)
      (fun e he => havingText_ok (hex e (h7 e he))) (lit " ") (Or.inl rfl)
    have p9 := strPart_ok (f := orderByText (strEx (rec false))) (g := canonOrder (canonEx (c false))) (o := order)
      (fun o ho => orderByText_ok (fun e he => hex e.ex (h8 o ho e he))) (lit " ") (Or.inl rfl)
    have p10 := strPart_ok (f := limitText) (g := fun l => canonLimit l (plainStyle.limit l)) (o := limit) (fun l hl => limitText_ok l) (lit " ") (Or.inl rfl)
    have pl := ((((((((p1.1.append p2.1).append p3.1).append p4.1).append p5.1).append p6.1).append p7.1).append p8.1).append p9.1).append p10.1
    have key := (flatten_ok pl (by
      intro t ht
      simp only [List.mem_append] at ht
      rcases ht with ((((((((ht | ht) | ht) | ht) | ht) | ht) | ht) | ht) | ht) | ht
      · exact p1.2 t ht
      · exact p2.2 t ht
      · exact p3.2 t ht
      · exact p4.2 t ht
      · exact p5.2 t ht
      · exact p6.2 t ht
      · exact p7.2 t ht
      · exact p8.2 t ht
      · exact p9.2 t ht
      · exact p10.2 t ht)).rstrip
    cases semicolon with
    | false => simpa using key
    | true =>
      have a1 : G (lit ";") (ws [";"]) := by decide +kernel
      exact key.right a1 (by decide +kernel)

/-! ### C201: the formatted text -/

/-- The queries whose formatted text is correct: all texts have closed quotes without line breaks, the clauses satisfy the restrictions (`Local`), and the nested queries are of the same kind. -/
def Writable (sty : Style) : (n : Nat) → Nested n → Prop
  | 0, q => nomatch q
  | n + 1, q => (∀ t ∈ (queryParts (Q := Nested n) q).texts, Plain t) ∧ Local (canon sty n) q ∧ ∀ s ∈ (queryParts (Q := Nested n) q).subs, Writable sty n s

/-- **C201 (partial).** The formatted text of a query consists of the words of the query in the order of the grammar: no word is lost, added or changed by the layout, for all
nested queries and both dialects. If a semicolon is requested, it is the last token.

The restrictions are those of `Writable`; see the theorems below for what happens without them. -/
theorem C201_words_partial (fl : Flavor) (n : Nat) (q : Nested n) (h : Writable (formatStyle fl) n q) (inline semicolon : Bool) :
    Plain (formatQuick fl n inline semicolon q) ∧
      toks (formatQuick fl n inline semicolon q) = canon (formatStyle fl) n inline q ++ if semicolon then ws [";"] else [] := by
  induction n generalizing inline semicolon with
  | zero => cases q
  | succ n ih =>
    obtain ⟨h1, h2, h3⟩ := h
    refine format_ok fl (c := canon (formatStyle fl) n) q ⟨h1, ?_⟩ h2 _ (sameStyle_self fl _ q) inline semicolon
    intro s hs i
    have := ih s (h3 s hs) i false
    simpa [G] using this

/-- An expression without nested queries. -/
def e (s : String) : Ex Q := ⟨lit s, []⟩

/-- The query `SELECT b FROM s WHERE b = 'it (''s) ,'`. -/
def exInner : Nested 1 :=
  .sel (Q := Nested 0) none none none ⟨.no, ⟨e "b", none⟩, []⟩ (some (.implicit [lit "s"])) (some ⟨e "b = 'it (''s) ,'", []⟩) none none none none

/-- A query with a WITH clause, four targets, a nested query in the WHERE clause, a join and a limit. -/
def exOuter : Nested 2 :=
  .sel (Q := Nested 1) none (some (lit "EXPLAIN")) (some ⟨true, ⟨lit "w", some true, .query exInner⟩, [⟨lit "v", none, .values [lit "x"] [lit "1"] [[lit "2"]]⟩]⟩)
    ⟨.all, ⟨e "a", none⟩, [⟨e "count(*)", some (lit "\"n m\"")⟩, ⟨e "c", none⟩, ⟨e "d", none⟩]⟩
    (some (.general (.join (.table (lit "r")) (.join (.table (lit "s")) (.table (lit "t")) .left (some (e "s.a = t.a"))) .inner (some (e "r.a = s.a"))) [.sub true exInner (some (lit "u"))]))
    (some ⟨⟨lit "a IN", [(.sub exInner, [])]⟩, [e "c < 5"]⟩) none none (some ⟨⟨e "a", some false, some true⟩, []⟩) (some ⟨some 10, some 5, .first⟩)

/-- The text of the query. -/
def exText' : String := "EXPLAIN
WITH RECURSIVE  w AS MATERIALIZED (
  SELECT b
  FROM s
  WHERE b = 'it (''s) ,'
), v AS (
  SELECT *
  FROM
    (VALUES (1), (2)) AS v (x)
)
SELECT DISTINCT a,
  count(*) AS \"n m\",
  c,
  d
FROM
  r
  JOIN (s
      LEFT OUTER JOIN t ON s.a = t.a
  ) ON r.a = s.a,
  LATERAL (
    SELECT b
    FROM s
    WHERE b = 'it (''s) ,'
  ) AS u
WHERE a IN
    (SELECT b
    FROM s
    WHERE b = 'it (''s) ,')
  AND c < 5
ORDER BY a DESC NULLS FIRST 
LIMIT 10
OFFSET 5;"

example : formatQuick .postgres 2 false true exOuter = exText'.toList := by decide +kernel

theorem exInner_writable (sty : Style) : Writable sty 1 exInner := by
  refine ⟨?_, ?_, ?_⟩
  · have : ∀ t ∈ [lit "b", lit "s", lit "b = 'it (''s) ,'"], Plain t := by decide +kernel
    intro t ht
    simp only [exInner, queryParts, Parts.and, optParts, allParts, projParts, exParts, exTexts, exSubs, textParts, none', distinctTexts, fromParts, e] at ht
    simp at ht
    rcases ht with rfl | rfl | rfl
    · exact this _ (by simp)
    · exact this _ (by simp)
    · exact this _ (by simp)
  · refine ⟨by simp, ?_, by simp⟩
    intro f hf s hs
    cases hf
    simp [sources] at hs
  · intro s hs
    cases s

theorem exOuter_writable (sty : Style) : Writable sty 2 exOuter := by
  refine ⟨?_, ?_, ?_⟩
  · intro t ht
    have : ∀ t ∈ (queryParts (Q := Nested 1) exOuter).texts, Plain t := by decide +kernel
    exact this t ht
  · refine ⟨?_, ?_, ?_⟩
    · intro w hw; cases hw; intro cols row rows hr; cases hr
    · intro f hf s hs
      cases hf
      simp only [sources, List.mem_cons, List.not_mem_nil, or_false] at hs
      rcases hs with rfl | rfl
      · exact ⟨fun _ => rfl, trivial, ⟨by simp [isJoin], trivial, trivial⟩⟩
      · trivial
    · intro l hl; cases hl; decide
  · intro s hs
    have : s = exInner := by
      simp only [exOuter, queryParts, Parts.and, optParts, allParts, projParts, exParts, exTexts, exSubs, textParts, none', distinctTexts, fromParts, e, cteParts, sourceParts, gapSubs] at hs
      simpa using hs
    subst this
    exact exInner_writable sty

example : toks (formatQuick .postgres 2 false true exOuter) = canon (formatStyle .postgres) 2 false exOuter ++ ws [";"] :=
  (C201_words_partial .postgres 2 exOuter (exOuter_writable _) false true).2

/-- The query `SELECT 'a⏎b'` as a nested query in the FROM clause. -/
def exLiteral : Nested 2 :=
  .sel (Q := Nested 1) none none none ⟨.no, ⟨e "*", none⟩, []⟩
    (some (.explicit (.sub false (.sel (Q := Nested 0) none none none ⟨.no, ⟨e "'a\nb'", none⟩, []⟩ none none none none none none : Nested 1) (some (lit "s"))))) none none none none none

/-- **C201 is violated.** The indentation of nested queries changes the literals that contain line breaks: the text has the literal `'a⏎  b'` instead of `'a⏎b'`. -/
theorem C201_literal_violated : toks (formatQuick .postgres 2 false false exLiteral) = [lit "SELECT", lit "*", lit "FROM", lit "(", lit "SELECT", lit "'a\n  b'", lit ")", lit "AS", lit "s"] ∧
    lit "'a\nb'" ∈ canon (formatStyle .postgres) 2 false exLiteral := by
  constructor <;> decide +kernel

/-- **C201 is violated.** A limit of zero rows is not part of the text: the query is written as if it had no limit. -/
theorem C201_zero_violated (fl : Flavor) (rec : Bool → Q → Text) (inline semicolon : Bool) (hint explain : Option Text) (cte : Option (With Q)) (select : Select Q)
    (src : Option (FromC Q)) (whr : Option (WhereC Q)) (group : Option (GroupC Q)) (having : Option (Ex Q)) (order : Option (OrderC Q)) :
    format fl rec inline semicolon (.sel hint explain cte select src whr group having order (some ⟨some 0, none, .first⟩)) =
      format fl rec inline semicolon (.sel hint explain cte select src whr group having order none) := by
  cases fl <;> simp [format, part, fmtLimit, given]

/-- **C201 is violated.** RECURSIVE and MATERIALIZED are not part of the text if the only query of the WITH clause is a list of values. -/
theorem C201_values_violated (rec : Q → Text) (b : Bool) (m : Option Bool) (name : Text) (cols row : List Text) (rows : List (List Text)) :
    fmtCte rec ⟨b, ⟨name, m, .values cols row rows⟩, []⟩ = fmtCte rec ⟨false, ⟨name, none, .values cols row rows⟩, []⟩ := rfl

/-- **C201 is violated.** A join whose both sides are joins is written without parentheses. `(a JOIN b) CROSS JOIN (c RIGHT JOIN d)` is written with the words of
`((a JOIN b) CROSS JOIN c) RIGHT JOIN d`, which is a different query: it keeps the rows of `d` if `a` is empty. This holds for all tables and conditions. -/
theorem C201_parentheses_violated (rec : Q → Text) (crec : Q → List Tok) (ex : Ex Q → Text) (cex : Ex Q → List Tok) (a b c d : Text) (ha : Plain a) (hb : Plain b) (hc : Plain c) (hd : Plain d)
    (t₁ t₂ : JoinType) (x y : Ex Q) (hx : G (ex x) (cex x)) (hy : G (ex y) (cex y)) :
    (fmtSource rec ex (.join (.join (.table a) (.table b) t₁ (some x)) (.join (.table c) (.table d) t₂ (some y)) .cross none)).flatMap toks =
      canonSource crec cex (.join (.join (.join (.table a) (.table b) t₁ (some x)) (.table c) .cross none) (.table d) t₂ (some y)) := by
  have a1 : G (lit " ON ") (ws ["ON"]) := by decide +kernel
  have hx' := a1.left hx (by decide +kernel)
  have hy' := a1.left hy (by decide +kernel)
  have h1 := Ls.cons (G.of ha) (Ls.one (joinLine_ok (typ := t₁) hb hx' (by rfl)))
  have h2 := Ls.cons (G.of hc) (Ls.one (joinLine_ok (typ := t₂) hd hy' (by rfl)))
  have h3 := (((h1.append (Ls.one (joinType_ok .cross))).append h2).appendLast G.nil rfl (by simp)).indent 2
  have := h3.2
  simp only [fmtSource, fmtJoin, condText, canonSource, isJoin, opt, Bool.false_eq_true, if_false] at this ⊢
  rw [this]
  simp [List.append_assoc]

/-! ### C202: the plain text -/

/-- The queries whose plain text is correct. -/
def PlainWritable : (n : Nat) → Nested n → Prop
  | 0, q => nomatch q
  | n + 1, q => (∀ t ∈ (queryParts (Q := Nested n) q).texts, Plain t) ∧ PlainLocal (Q := Nested n) q ∧ ∀ s ∈ (queryParts (Q := Nested n) q).subs, PlainWritable n s

/-- **C202 (partial).** The plain text of a query (`str`) consists of the words of the query in the order of the grammar, including limits of zero rows.

Set operations and joins on the right-hand side of joins are left out; see the theorems below. -/
theorem C202_words_partial (n : Nat) (q : Nested n) (h : PlainWritable n q) (semicolon : Bool) :
    Plain (stringify n semicolon q) ∧ toks (stringify n semicolon q) = canon plainStyle n false q ++ if semicolon then ws [";"] else [] := by
  induction n generalizing semicolon with
  | zero => cases q
  | succ n ih =>
    obtain ⟨h1, h2, h3⟩ := h
    refine stringify_ok (c := canon plainStyle n) q ⟨h1, ?_⟩ h2 semicolon
    intro s hs
    have := ih s (h3 s hs) false
    simpa [G] using this

/-- `SELECT a FROM r JOIN s ON r.a = s.a WHERE a IN (SELECT b ...) LIMIT 0`. -/
def exStr : Nested 2 :=
  .sel (Q := Nested 1) (some (lit "/*+ HashJoin(r s) */")) none none ⟨.no, ⟨e "a", none⟩, []⟩ (some (.explicit (.join (.table (lit "r")) (.table (lit "s")) .inner (some (e "r.a = s.a")))))
    (some ⟨⟨lit "a IN ", [(.sub exInner, [])]⟩, []⟩) none none none (some ⟨some 0, none, .first⟩)

theorem exStr_writable : PlainWritable 2 exStr := by
  refine ⟨?_, ?_, ?_⟩
  · intro t ht
    have : ∀ t ∈ (queryParts (Q := Nested 1) exStr).texts, Plain t := by decide +kernel
    exact this t ht
  · intro f hf
    cases hf
    refine ⟨rfl, ?_⟩
    intro s hs
    simp only [sources, List.mem_singleton] at hs
    subst hs
    exact ⟨rfl, rfl, trivial, trivial⟩
  · intro s hs
    have : s = exInner := by
      simp only [exStr, queryParts, Parts.and, optParts, allParts, projParts, exParts, exTexts, exSubs, textParts, none', distinctTexts, fromParts, e, cteParts, sourceParts, gapSubs] at hs
      simpa using hs
    subst this
    refine ⟨(exInner_writable (formatStyle .vanilla)).1, ?_, fun s _ => nomatch s⟩
    intro f hf
    cases hf
    exact ⟨rfl, by simp [sources]⟩

example : toks (stringify 2 true exStr) = canon plainStyle 2 false exStr ++ ws [";"] := (C202_words_partial 2 exStr exStr_writable true).2

example : stringify 2 true exStr = lit "/*+ HashJoin(r s) */\nSELECT a FROM r JOIN s ON r.a = s.a WHERE a IN (SELECT b FROM s WHERE b = 'it (''s) ,') FETCH FIRST 0 ROWS ONLY;" := by decide +kernel

/-- A set operation without further clauses. -/
def setOp (n : Nat) (op : SetOp) (l r : Nested n) : Nested (n + 1) := .set (Q := Nested n) none none none l r op none none

/-- A nested query one level up. -/
def selectA (t : String) (n : Nat) : Nested (n + 1) :=
  .sel (Q := Nested n) none none none ⟨.no, ⟨e "a", none⟩, []⟩ (some (.implicit [lit t])) none none none none none

/-- **C202 is violated.** The text of set operations has no parentheses: `r EXCEPT (s UNION t)` and `(r EXCEPT s) UNION t` have the same text. -/
theorem C202_set_violated : stringify 3 true (setOp 2 .exc (selectA "r" 1) (setOp 1 .union (selectA "s" 0) (selectA "t" 0))) =
      stringify 3 true (setOp 2 .union (setOp 1 .exc (selectA "r" 0) (selectA "s" 0)) (selectA "t" 1)) ∧
    formatQuick .vanilla 3 false true (setOp 2 .exc (selectA "r" 1) (setOp 1 .union (selectA "s" 0) (selectA "t" 0))) ≠
      formatQuick .vanilla 3 false true (setOp 2 .union (setOp 1 .exc (selectA "r" 0) (selectA "s" 0)) (selectA "t" 1)) := by
  constructor <;> decide +kernel

/-- **C202 is violated.** There is no space between the clauses of a set query: the table `s` and the ORDER BY clause are written as `sORDER BY`. -/
theorem C202_glue_violated : stringify 2 true (.set (Q := Nested 1) none none none (selectA "r" 0) (selectA "s" 0) .union (some ⟨⟨e "a", none, none⟩, []⟩) none) =
    lit "SELECT a FROM r UNION SELECT a FROM sORDER BY a;" := by decide +kernel

/-- **C202 is violated.** EXPLAIN is joined with the first word of a set query. -/
theorem C202_explain_violated : stringify 2 true (.set (Q := Nested 1) none (some (lit "EXPLAIN")) none (selectA "r" 0) (selectA "s" 0) .union none none) =
    lit "EXPLAINSELECT a FROM r UNION SELECT a FROM s;" := by decide +kernel

/-- **C202 is violated.** A join on the right-hand side of a join is written without parentheses: `a CROSS JOIN (b RIGHT JOIN c)` has the text of
`(a CROSS JOIN b) RIGHT JOIN c`, for all tables and conditions. -/
theorem C202_join_violated (rec : Q → Text) (ex : Ex Q → Text) (a b c : Text) (t : JoinType) (x : Ex Q) :
    strSource rec ex (.join (.table a) (.join (.table b) (.table c) t (some x)) .cross none) =
      strSource rec ex (.join (.join (.table a) (.table b) .cross none) (.table c) t (some x)) := by
  simp [strSource, JoinType.auto, List.append_assoc]

/-! ### C203: both texts -/

/-- The query and its nested queries have no limits and a WITH clause with several queries contains no list of values. -/
def Unlimited : (n : Nat) → Nested n → Prop
  | 0, q => nomatch q
  | n + 1, q => (match (q : Query (Nested n)) with
      | .sel _ _ cte _ _ _ _ _ _ limit => limit = none ∧ ∀ w, cte = some w → w.rest = [] ∨ ∀ x ∈ w.first :: w.rest, ∃ s, x.body = .query s
      | .set .. => False) ∧ ∀ s ∈ (queryParts (Q := Nested n) q).subs, Unlimited n s

theorem canonWith_direct (c : Q → List Tok) (w : With Q) (h : w.rest = [] ∨ ∀ x ∈ w.first :: w.rest, ∃ s, x.body = .query s) (b : Bool) :
    canonWith c (b || w.rest.isEmpty) w = canonWith c w.rest.isEmpty w := by
  rcases h with h | h
  · simp [h]
  · have key : ∀ b', (w.first :: w.rest).map (canonCte c b') = (w.first :: w.rest).map (canonCte c true) := by
      intro b'
      refine List.map_congr_left (fun x hx => ?_)
      obtain ⟨s, hs⟩ := h x hx
      simp [canonCte, hs]
    simp only [canonWith]
    rw [key, key (w.rest.isEmpty)]

/-- **C203 (partial).** The formatted text and the plain text of a query have the same tokens, i.e. they only differ in their layout.

This holds for the queries that can be written in both ways and have no limits (which are written differently) and no list of values in a WITH clause with several queries. -/
theorem C203_same_partial (fl : Flavor) (n : Nat) (q : Nested n) (h₁ : Writable plainStyle n q) (h₂ : PlainWritable n q) (h₃ : Unlimited n q) (semicolon : Bool) :
    toks (formatQuick fl n false semicolon q) = toks (stringify n semicolon q) := by
  rw [(C202_words_partial n q h₂ semicolon).2]
  have key : ∀ (n : Nat) (q : Nested n), Writable plainStyle n q → Unlimited n q → ∀ inline semicolon,
      G (formatQuick fl n inline semicolon q) (canon plainStyle n inline q ++ if semicolon then ws [";"] else []) := by
    intro n
    induction n with
    | zero => intro q; cases q
    | succ n ih =>
      intro q h₁ h₃ inline semicolon
      obtain ⟨h1, h2, h3⟩ := h₁
      obtain ⟨h4, h5⟩ := h₃
      refine format_ok fl (c := canon plainStyle n) q ⟨h1, ?_⟩ h2 plainStyle ?_ inline semicolon
      · intro s hs i
        have := ih s (h3 s hs) (h5 s hs) i false
        simpa using this
      · cases q with
        | set => exact h4.elim
        | sel =>
          refine ⟨fun w hw => canonWith_direct _ w (h4.2 w hw) _, ?_⟩
          intro l hl; rw [h4.1] at hl; cases hl
  exact (key n q h₁ h₃ false semicolon).2

example : toks (formatQuick .postgres 1 false true exInner) = toks (stringify 1 true exInner) := by
  refine C203_same_partial .postgres 1 exInner (exInner_writable _) ?_ ⟨⟨rfl, by simp⟩, fun s => nomatch s⟩ true
  refine ⟨(exInner_writable plainStyle).1, ?_, fun s _ => nomatch s⟩
  intro f hf
  cases hf
  exact ⟨rfl, by simp [sources]⟩

/-- **C203 is violated.** With a limit, the formatted text differs from the plain text in more than its layout: the plain text starts with the offset, the formatted text with the limit, and a limit of zero rows is
missing in the formatted text. -/
theorem C203_limit_violated : toks (formatQuick .vanilla 2 false true exStr) ≠ toks (stringify 2 true exStr) := by decide +kernel

end PB.FormatProps
