import Verif.Model.Expr

/-!
Model of the translation of expressions from the syntax trees of PostgreSQL's parser (postbound/parser.py:644-1195).

The syntax trees contain what the parser of PostgreSQL (pglast) provides: names of operators, functions and types are lists of strings, optional members are optional. Columns and stars
already have their tables, see `Model/Namespace`; subqueries are already translated. Constants are NULL, integers and strings. A result of `none` stands for an exception.
-/

namespace PB.PExp

open PB.Qal (Tab Col Val MathOp LogOp CompOp Quant Dir Expr)

/-- The members `kind` of A_Expr nodes whose `rexpr` is an expression. -/
inductive AKind where
  | op | like | ilike | distinct | notDistinct | opAny | opAll
  | nullif | similar
deriving DecidableEq, Repr

/-- The members `kind` of A_Expr nodes whose `rexpr` is a list. -/
inductive LKind where
  | inList | between | notBetween | betweenSym | notBetweenSym
deriving DecidableEq, Repr

/-- The members `boolop` of BoolExpr nodes. -/
inductive BoolOp where
  | andExpr | orExpr | notExpr
deriving DecidableEq, Repr

/-- The members `subLinkType` of SubLink nodes. -/
inductive LinkKind where
  | existsLink | exprLink | anyLink | allLink | arrayLink
deriving DecidableEq, Repr

mutual

/-- Expression nodes. -/
inductive RE (Q : Type) : Type where
  | colRef (c : Col)
  | star (t : Option Tab)
  | const (v : Val)
  | aexpr (kind : AKind) (name : List String) (l : REo Q) (r : RE Q)
  | alist (kind : LKind) (name : List String) (l : RE Q) (items : REs Q)
  | bool (op : BoolOp) (args : REs Q)
  | nullTest (isNull : Bool) (arg : RE Q)
  /-- a function call without OVER: name, arguments, `agg_star`, `agg_distinct`, `agg_order`, `agg_filter` -/
  | call (name : List String) (args : REs Q) (star distinct : Bool) (order : REs Q) (filter : REo Q)
  /-- a function call with OVER: in addition PARTITION BY, ORDER BY with its directions and the frame, if it is not the default -/
  | over (name : List String) (args : REs Q) (star distinct : Bool) (filter : REo Q) (part order : REs Q) (dirs : List Dir) (frame : Option String)
  | coalesce (args : REs Q)
  /-- `typmods` and whether there are `arrayBounds` -/
  | cast (arg : RE Q) (names : List String) (mods : REs Q) (arr : Bool)
  | case (arg : REo Q) (whens thens : REs Q) (dflt : REo Q)
  | link (kind : LinkKind) (oper : Option (List String)) (test : REo Q) (q : Q)
  /-- one index of an A_Indirection node: `lidx`, `uidx` and `is_slice` -/
  | index (arg : RE Q) (lower upper : REo Q) (slice : Bool)
  | array (elems : REs Q)
  /-- other nodes: BooleanTest, MinMaxExpr, RowExpr, … -/
  | other (name : String)

/-- Lists of expressions. -/
inductive REs (Q : Type) : Type where
  | nil
  | cons (e : RE Q) (es : REs Q)

/-- Optional expressions. -/
inductive REo (Q : Type) : Type where
  | none
  | some (e : RE Q)

end

/-- The values of `_PglastOperatorMap`. -/
inductive SqlOp where
  | logical (o : LogOp)
  | compound (o : CompOp)
  | math (o : MathOp)
deriving DecidableEq, Repr

/-- `_PglastOperatorMap` (postbound/parser.py:677-699). -/
def operatorMap : List (String × SqlOp) :=
  [("=", .logical .eq), ("<", .logical .lt), ("<=", .logical .le), (">", .logical .gt), (">=", .logical .ge), ("<>", .logical .ne), ("!=", .logical .ne),
   ("AND_EXPR", .compound .and), ("OR_EXPR", .compound .or), ("NOT_EXPR", .compound .not), ("+", .math .add), ("-", .math .sub), ("*", .math .mul), ("/", .math .div),
   ("%", .math .mod), ("||", .math .concat), ("@>", .logical .contains), ("<@", .logical .containedBy), ("&&", .logical .overlaps),
   ("AEXPR_DISTINCT", .logical .distinctFrom), ("AEXPR_NOT_DISTINCT", .logical .notDistinctFrom)]

/-- `_pglast_parse_operator` (postbound/parser.py:703-724). -/
def parseOperator : List String → Option SqlOp
  | [s] => operatorMap.lookup s
  | _ => none

/-- `_PglastTypeMap` (postbound/parser.py:727-736). -/
def typeMap : List (String × String) :=
  [("bpchar", "char"), ("serial8", "bigserial"), ("int4", "integer"), ("int2", "smallint"), ("int8", "bigint"), ("float4", "real"), ("float8", "double precision"),
   ("boolean", "bool")]

/-- `_pglast_parse_type` (postbound/parser.py:740-761). -/
def parseType (names : List String) : Option String :=
  if names.length > 2 then none else names.getLast?.map fun t => (typeMap.lookup t).getD t

/-- `AggregateFunctions` (postbound/qal/_qal.py:770-792). -/
def aggregates : List String := ["COUNT", "SUM", "MIN", "MAX", "AVG", "EVERY", "CORR", "STDDEV", "ANY_VALUE", "ARRAY_AGG", "BIT_AND", "BIT_OR", "BIT_XOR", "BOOL_AND", "BOOL_OR",
  "BOOL_XOR", "STRING_AGG", "JSON_AGG", "XML_AGG"]

variable {Q : Type}

/-- `FunctionExpression.__init__` (postbound/qal/_qal.py:885-910). -/
def mkFunc (name : String) (args : List (Expr Q)) (distinct : Bool) (filter : Option (Expr Q)) : Option (Expr Q) :=
  if name = "" then none
  else if name.toUpper ∉ aggregates ∧ (distinct = true ∨ filter.isSome) then none
  else some (.func name.toUpper args distinct filter)

/-- `".".join(…)` (postbound/parser.py:1009-1011, 1038-1040). -/
def joinName (l : List String) : String := ".".intercalate l

/-- `_pglast_parse_predicate` (postbound/parser.py:1667-1695) for the translated expression. -/
def asPred (e : Expr Q) : Expr Q := if e.isPred then e else .unary e none

/-- `CompoundPredicate.__init__` (postbound/qal/_qal.py:3246-3259). -/
def mkCompound (op : CompOp) (cs : List (Expr Q)) : Option (Expr Q) := match op with
  | .not => if cs.length = 1 then some (.compound .not cs) else none
  | o => if cs.length < 2 then none else some (.compound o cs)

/-- The operators of BoolExpr nodes in `_PglastOperatorMap` (postbound/parser.py:685-687, 984). -/
def boolOp : BoolOp → CompOp
  | .andExpr => .and
  | .orExpr => .or
  | .notExpr => .not

/-- A_Expr nodes (postbound/parser.py:852-904, 943-980). Quantified predicates with an operator that is no comparison are not modelled (`none`). -/
def mkAExpr (kind : AKind) (name : List String) (l : Option (Expr Q)) (r : Expr Q) : Option (Expr Q) := match kind with
  | .op => match parseOperator name, l with
    | none, _ => none
    | some (.math o), none => some (.math o r [])
    | some _, none => none
    | some (.logical o), some l => some (.binary o l r)
    | some (.compound _), some _ => none
    | some (.math o), some l => some (.math o l [r])
  | .like => l.bind fun l => name.head?.map fun n => .binary (if n = "~~" then .like else .notLike) l r
  | .ilike => l.bind fun l => name.head?.map fun n => .binary (if n = "~~*" then .ilike else .notILike) l r
  | .distinct => l.map fun l => .binary .distinctFrom l r
  | .notDistinct => l.map fun l => .binary .notDistinctFrom l r
  | .opAny => match parseOperator name, l with
    | some (.logical o), some l => some (.binary o l (.quant .any r))
    | _, _ => none
  | .opAll => match parseOperator name, l with
    | some (.logical o), some l => some (.binary o l (.quant .all r))
    | _, _ => none
  | .nullif | .similar => none

/-- A_Expr nodes with lists (postbound/parser.py:906-941). -/
def mkAList (kind : LKind) (name : List String) (l : Expr Q) (items : List (Expr Q)) : Option (Expr Q) := match kind with
  | .between => match items with
    | [a, b] => some (.between l a b)
    | _ => none
  | .inList =>
    if items = [] then none
    else match name.head? with
      | some n => if n = "=" then some (.inP l items) else if n = "<>" then some (.compound .not [.inP l items]) else none
      | none => none
  | _ => none

/-- SubLink nodes (postbound/parser.py:1112-1142). With `operName`, which is a list, the lookup of the operator raises a TypeError. -/
def mkLink (kind : LinkKind) (oper : Option (List String)) (test : Option (Expr Q)) (q : Q) : Option (Expr Q) := match kind with
  | .existsLink => some (.unary (.subq q) (some .existsOp))
  | .exprLink => some (.subq q)
  | .anyLink => match oper with
    | none => test.map fun t => .inP t [.subq q]
    | some _ => none
  | _ => none

/-- A_Indirection nodes (postbound/parser.py:1144-1184) with `ArrayAccessExpression.__init__` (postbound/qal/_qal.py:1126-1150). -/
def mkIndex (a : Expr Q) (lower upper : Option (Expr Q)) (slice : Bool) : Option (Expr Q) :=
  if slice then (if lower.isNone ∧ upper.isNone then none else some (.arrGet a none lower upper))
  else upper.map fun u => .arrGet a (some u) none none

mutual

/-- `_pglast_parse_expression` (postbound/parser.py:811-1195). -/
def parse : RE Q → Option (Expr Q)
  | .colRef c => some (.col c)
  | .star t => some (.star t)
  | .const v => some (.static v)
  | .aexpr kind name l r => (parse r).bind fun r' => (parseO l).bind fun l' => mkAExpr kind name l' r'
  | .alist kind name l items => (parse l).bind fun l' => (parseL items).bind fun is => mkAList kind name l' is
  | .bool op args => (parsePs args).bind fun cs => mkCompound (boolOp op) cs
  | .nullTest isNull arg => (parse arg).map fun e => .binary (if isNull then .isOp else .isNot) e (.static .null)
  | .call name args star distinct _ filter => (parseP filter).bind fun f =>
    if star then mkFunc (joinName name) [.star none] distinct f
    else (parseL args).bind fun as => mkFunc (joinName name) as distinct f
  | .over name args _ _ filter part order dirs _ => (parseL args).bind fun as => (mkFunc (joinName name) as false none).bind fun fn => (parseL part).bind fun p =>
    (parseL order).bind fun o => (parseP filter).map fun f => .window fn p o dirs f
  | .coalesce args => (parseL args).bind fun as => mkFunc "coalesce" as false none
  | .cast arg names mods arr => (parse arg).bind fun e => (parseType names).bind fun ty => (parseL mods).map fun ps => .cast e ty ps arr
  | .case arg whens thens dflt => (parsePs whens).bind fun ws => (parseL thens).bind fun ts => (parseO arg).bind fun a => (parseO dflt).bind fun d =>
    if ws = [] then none else some (.case ws ts a d)
  | .link kind oper test q => (parseO test).bind fun t => mkLink kind oper t q
  | .index arg lower upper slice => (parse arg).bind fun a => (parseO lower).bind fun l => (parseO upper).bind fun u => mkIndex a l u slice
  | .array elems => (parseL elems).map .array
  | .other _ => none

/-- Lists of expressions. -/
def parseL : REs Q → Option (List (Expr Q))
  | .nil => some []
  | .cons e es => (parse e).bind fun x => (parseL es).map fun xs => x :: xs

/-- Lists of predicates (postbound/parser.py:786-788, 985-988). -/
def parsePs : REs Q → Option (List (Expr Q))
  | .nil => some []
  | .cons e es => (parse e).bind fun x => (parsePs es).map fun xs => asPred x :: xs

/-- Optional expressions. -/
def parseO : REo Q → Option (Option (Expr Q))
  | .none => some none
  | .some e => (parse e).map some

/-- Optional predicates (postbound/parser.py:1013-1018, 1067-1072). -/
def parseP : REo Q → Option (Option (Expr Q))
  | .none => some none
  | .some e => (parse e).map fun x => some (asPred x)

end

/-- `_pglast_parse_where`, `_pglast_parse_having`, join conditions (postbound/parser.py:1667-1721, 1757-1780). -/
def parseCondition (e : RE Q) : Option (Expr Q) := (parse e).map asPred

end PB.PExp
