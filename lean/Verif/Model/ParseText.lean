/-!
# The text-level part of the parser

Models `parse_query` and its helpers for everything that surrounds the SELECT statement itself: *SET* commands,
*EXPLAIN* and hint comments (postbound/parser.py 1981-2015, 2102-2205, 2240-2341).

Texts are lists of characters.  The syntax trees are the ones of pglast; they are represented by the inductive types
below.  The translation of the SELECT statement itself is a parameter here (it is modelled in `Model/ParseStmt`).
Exceptions are `none`.
-/

namespace PB.PText

abbrev Txt := List Char

/-- The characters that `str.strip` removes.  Simplification: the white space of ASCII only. -/
def ws (c : Char) : Bool :=
  c == ' ' || c == '\n' || c == '\t' || c == '\r' || c == Char.ofNat 11 || c == Char.ofNat 12

/-- `str.lstrip()` (used at parser.py 2159). -/
def lstrip (s : Txt) : Txt := s.dropWhile ws

/-- `str.strip()` (used at parser.py 2173, 2189). -/
def strip (s : Txt) : Txt := (((lstrip s).reverse).dropWhile ws).reverse

/-- `s.find(p)` (used at parser.py 2168, 2182, 2183); `none` stands for `-1`. -/
def findSub (p : Txt) : Txt → Option Nat
  | [] => if p.isEmpty then some 0 else none
  | c :: s => if p.isPrefixOf (c :: s) then some 0 else (findSub p s).map (· + 1)

/-- `s[a:b]` for non-negative indexes (parser.py 2189). -/
def slice (s : Txt) (a b : Nat) : Txt := (s.drop a).take (b - a)

/-- `"\n".join(parts)` (parser.py 2163-2164). -/
def joinLines : List Txt → Txt
  | [] => []
  | [s] => s
  | s :: rest => s ++ '\n' :: joinLines rest

/-- The recursion of `_parse_hint_block` (parser.py 2136-2194): the collected comments, in order.
The first argument bounds the number of recursive calls; `hintComments` supplies enough of them. -/
def hintLoop : Nat → Txt → List Txt → Option (List Txt)
  | 0, _, _ => none
  | n + 1, raw₀, acc =>
    let raw := lstrip raw₀
    if ['-', '-'].isPrefixOf raw then
      match findSub ['\n'] raw with
      | none => none
      | some e => hintLoop n (raw.drop e) (acc ++ [strip (raw.take e)])
    else
      match findSub ['/', '*'] raw with
      | none => some acc
      | some b =>
        match findSub ['*', '/'] raw with
        | none => none
        | some e => hintLoop n (raw.drop (e + 2)) (acc ++ [strip (slice raw b (e + 2))])

/-- `_parse_hint_block` (parser.py 2136-2194) up to the construction of the hint.
Simplification: Python's recursion limit is not modelled. -/
def hintComments (raw : Txt) : Option (List Txt) := hintLoop (raw.length + 1) raw []

/-- A `Hint` clause (qal/_qal.py `Hint`): the preparatory statements and the query hints. -/
structure Hint where
  prep : Txt
  hints : Txt
  deriving DecidableEq, Repr

/-- The end of the recursion of `_parse_hint_block` (parser.py 2162-2165). -/
def mkHint (setCmds comments : List Txt) : Option Hint :=
  let prep := joinLines setCmds
  let hints := joinLines comments
  if prep.isEmpty && hints.isEmpty then none else some ⟨prep, hints⟩

/-- `_parse_hint_block` (parser.py 2136-2194); the outer option is the exception. -/
def hintBlock (raw : Txt) (setCmds : List Txt) : Option (Option Hint) :=
  (hintComments raw).map (mkHint setCmds)

/-! ### Syntax trees -/

/-- The argument of a *SET* command as pglast represents it. -/
inductive Arg where
  /-- a string constant or an identifier -/
  | str (s : Txt)
  /-- any other constant or expression; the text is its value -/
  | other (s : Txt)
  deriving DecidableEq, Repr

/-- `VariableSetKind` of pglast. -/
inductive SetKind where
  | value | default | current | multi | reset | resetAll
  deriving DecidableEq, Repr

/-- `VariableSetStmt` of pglast. -/
structure SetStmt where
  kind : SetKind
  name : Txt
  args : List Arg
  isLocal : Bool
  deriving DecidableEq, Repr

/-- An option of *EXPLAIN* (`DefElem` of pglast).  Simplification: the argument of ANALYZE is already read as a
Boolean (a missing argument means true). -/
inductive ExplainOpt where
  | analyze (on : Bool)
  | format (fmt : Option Txt)
  | other (name : Txt)
  deriving DecidableEq, Repr

/-- A statement; `σ` is the type of SELECT statements. -/
inductive Stmt (σ : Type) where
  | set (s : SetStmt)
  | explain (opts : List ExplainOpt) (inner : Stmt σ)
  | select (q : σ)
  | other

/-! ### SET commands -/

/-- The body of the loop of `_pglast_parse_set_commands` (parser.py 2123-2131). -/
def setText (s : SetStmt) : Option Txt :=
  if s.kind ≠ .value then none
  else
    match s.args with
    | .str v :: _ => some ("SET ".toList ++ s.name ++ " TO '".toList ++ v ++ "';".toList)
    | _ => none

/-- `_pglast_parse_set_commands` (parser.py 2102-2133).  The loop variable `i` points to the first statement that is
no *SET* command, or to the last statement if there is none. -/
def parseSets {σ : Type} : List (Stmt σ) → Option (List Txt × List (Stmt σ))
  | [] => none
  | .set v :: rest => do
    let t ← setText v
    match rest with
    | [] => some ([t], [.set v])
    | s :: more =>
      let r ← parseSets (s :: more)
      some (t :: r.1, r.2)
  | .explain o i :: rest => some ([], .explain o i :: rest)
  | .select q :: rest => some ([], .select q :: rest)
  | .other :: rest => some ([], .other :: rest)

/-! ### EXPLAIN -/

/-- An `Explain` clause (qal/_qal.py 5168-5236). -/
structure Explain where
  analyze : Bool
  format : Option Txt
  deriving DecidableEq, Repr

/-- `Explain.__init__` (qal/_qal.py 5234-5236). -/
def mkExplain (analyze : Bool) (format : Txt) : Explain :=
  ⟨analyze, if format.isEmpty then none else some format⟩

/-- The loop of `_pglast_parse_explain` (parser.py 2004-2012). -/
def explainLoop : List ExplainOpt → Bool → Txt → Option Explain
  | [], a, f => some (mkExplain a f)
  | .analyze _ :: rest, _, f => explainLoop rest true f
  | .format (some f) :: rest, a, _ => explainLoop rest a f
  | .format none :: _, _, _ => none
  | .other _ :: _, _, _ => none

/-- `_pglast_parse_explain` (parser.py 1981-2015). -/
def parseExplain (opts : List ExplainOpt) : Option Explain := explainLoop opts false "TEXT".toList

/-! ### parse_query -/

/-- The parameters of `parse_query` (parser.py 2240-2247) and the state that it reads: the module variable
`auto_bind_columns` and the schemas of the databases in the pool. -/
structure Options (S : Type) where
  acceptSet : Bool
  includeHints : Bool
  bindColumns : Option Bool
  dbSchema : Option S
  autoBind : Bool
  pool : List S

/-- The selection of the schema (parser.py 2287-2312).  `any_database` of several is the first one. -/
def chooseSchema {S : Type} (o : Options S) : Option S :=
  let bind := match o.bindColumns with
    | some b => b
    | none => o.autoBind
  match o.dbSchema with
  | some s => some s
  | none => if bind then o.pool.head? else none

/-- The result: the parsed SELECT statement together with the extra clauses of `_apply_extra_clauses`
(parser.py 2197-2205). -/
structure Parsed (τ : Type) where
  query : τ
  hint : Option Hint
  explain : Option Explain
  deriving DecidableEq, Repr

/-- The branch on *EXPLAIN* and the check of the type of statement (parser.py 2321-2328). -/
def unwrap {σ : Type} : Stmt σ → Option (Option Explain × σ)
  | .explain opts inner => do
    let e ← parseExplain opts
    match inner with
    | .select q => some (some e, q)
    | _ => none
  | .select q => some (none, q)
  | _ => none

/-- `parse_query` (parser.py 2240-2341).  `stmts` is the result of pglast for `query` (`none`: a syntax error),
`parseStmt` is `_pglast_parse_query`, `isSet` says whether a parsed statement is a set query.
The check of `accept_set_query` looks at the type of the query *text* (parser.py 2333), which is never a set query. -/
def parseQuery {S σ τ : Type} (parseStmt : Option S → σ → Option τ) (o : Options S) (query : Txt)
    (stmts : Option (List (Stmt σ))) : Option (Parsed τ) := do
  if query.isEmpty then none
  else
    let ss ← stmts
    let (cmds, rest) ← parseSets ss
    match rest with
    | [s] =>
      let (e, q) ← unwrap s
      let parsed ← parseStmt (chooseSchema o) q
      let textIsSetQuery := false
      if !o.acceptSet && textIsSetQuery then none
      else
        let hint ← if o.includeHints then hintBlock query cmds else some none
        some ⟨parsed, hint, e⟩
    | _ => none

end PB.PText
