import Verif.Model.ParseExpr

/-!
Properties of the translation of expressions from the syntax trees of PostgreSQL's parser (C159, C160).
-/

set_option linter.unusedSimpArgs false
set_option linter.unusedVariables false
set_option linter.unusedSectionVars false
set_option linter.unnecessarySimpa false
set_option linter.unnecessarySeqFocus false
set_option linter.dupNamespace false

namespace PB.PExpProps

open PB.Qal (Tab Col Val MathOp LogOp CompOp Quant Dir Expr)
open PB.PExp

variable {Q V : Type}

/-! ### Specification -/

/-- An interpretation of SQL expressions: the values of columns, constants and subqueries and the operations of PostgreSQL, with the names under which it knows them. Nothing is assumed
about the operations. -/
structure Sql (Q V : Type) where
  col : Col → V
  star : Option Tab → V
  const : Val → V
  /-- prefix operators -/
  op1 : String → V → V
  /-- infix operators; LIKE, NOT LIKE, ILIKE and NOT ILIKE are the operators `~~`, `!~~`, `~~*` and `!~~*` -/
  op2 : String → V → V → V
  distinctFrom : V → V → V
  notDistinctFrom : V → V → V
  /-- `a op ANY (array)` and `a op ALL (array)` -/
  quant : Quant → String → V → V → V
  /-- `a op ANY (subquery)` and `a op ALL (subquery)` -/
  quantSub : Quant → String → V → Q → V
  between : V → V → V → V
  inList : V → List V → V
  inSub : V → Q → V
  existsSub : Q → V
  scalar : Q → V
  conj : List V → V
  disj : List V → V
  neg : V → V
  isNull : V → V
  isNotNull : V → V
  /-- functions: name, arguments, DISTINCT, ORDER BY, FILTER -/
  call : String → List V → Bool → List V → Option V → V
  /-- functions with the argument `*` -/
  callStar : String → Bool → List V → Option V → V
  /-- window functions: name, arguments, `*`, DISTINCT, PARTITION BY, ORDER BY, directions, FILTER, frame -/
  window : String → List V → Bool → Bool → List V → List V → List Dir → Option V → Option String → V
  coalesce : List V → V
  /-- casts: PostgreSQL's name of the type, modifiers, array -/
  castTo : V → String → List V → Bool → V
  caseWhen : Option V → List V → List V → Option V → V
  index : V → V → V
  slice : V → Option V → Option V → V
  array : List V → V
  other : String → V

/-- The last part of a name with an optional schema. -/
def baseName : List String → String
  | [] => ""
  | [s] => s
  | _ :: t => baseName t

/-- Parts of a name separated by dots. -/
def dotted : List String → String
  | [] => ""
  | [s] => s
  | s :: t => s ++ "." ++ dotted t

mutual

/-- The value of an expression of the syntax tree. -/
def meaning (m : Sql Q V) : RE Q → V
  | .colRef c => m.col c
  | .star t => m.star t
  | .const v => m.const v
  | .aexpr .op name .none r => m.op1 (baseName name) (meaning m r)
  | .aexpr .op name (.some l) r => m.op2 (baseName name) (meaning m l) (meaning m r)
  | .aexpr .like name l r => m.op2 (baseName name) (meaningD m l) (meaning m r)
  | .aexpr .ilike name l r => m.op2 (baseName name) (meaningD m l) (meaning m r)
  | .aexpr .distinct _ l r => m.distinctFrom (meaningD m l) (meaning m r)
  | .aexpr .notDistinct _ l r => m.notDistinctFrom (meaningD m l) (meaning m r)
  | .aexpr .opAny name l r => m.quant .any (baseName name) (meaningD m l) (meaning m r)
  | .aexpr .opAll name l r => m.quant .all (baseName name) (meaningD m l) (meaning m r)
  | .aexpr .nullif _ l r => m.call "nullif" [meaningD m l, meaning m r] false [] none
  | .aexpr .similar _ l r => m.op2 "~" (meaningD m l) (meaning m r)
  | .alist .inList name l items => if baseName name = "=" then m.inList (meaning m l) (meanings m items) else m.neg (m.inList (meaning m l) (meanings m items))
  | .alist .between _ l (.cons a (.cons b .nil)) => m.between (meaning m l) (meaning m a) (meaning m b)
  | .alist _ _ l items => m.call "between" (meaning m l :: meanings m items) false [] none
  | .bool .andExpr args => m.conj (meanings m args)
  | .bool .orExpr args => m.disj (meanings m args)
  | .bool .notExpr (.cons e _) => m.neg (meaning m e)
  | .bool .notExpr .nil => m.neg (m.conj [])
  | .nullTest true e => m.isNull (meaning m e)
  | .nullTest false e => m.isNotNull (meaning m e)
  | .call name _ true distinct order filter => m.callStar (dotted name) distinct (meanings m order) (meaningO m filter)
  | .call name args false distinct order filter => m.call (dotted name) (meanings m args) distinct (meanings m order) (meaningO m filter)
  | .over name args star distinct filter part order dirs frame =>
    m.window (dotted name) (meanings m args) star distinct (meanings m part) (meanings m order) dirs (meaningO m filter) frame
  | .coalesce args => m.coalesce (meanings m args)
  | .cast e names mods arr => m.castTo (meaning m e) (baseName names) (meanings m mods) arr
  | .case arg whens thens dflt => m.caseWhen (meaningO m arg) (meanings m whens) (meanings m thens) (meaningO m dflt)
  | .link .existsLink _ _ q => m.existsSub q
  | .link .exprLink _ _ q => m.scalar q
  | .link .anyLink none t q => m.inSub (meaningD m t) q
  | .link .anyLink (some o) t q => m.quantSub .any (baseName o) (meaningD m t) q
  | .link .allLink o t q => m.quantSub .all (baseName (o.getD [])) (meaningD m t) q
  | .link .arrayLink _ _ q => m.array [m.scalar q]
  | .index a _ (.some u) false => m.index (meaning m a) (meaning m u)
  | .index a _ .none false => meaning m a
  | .index a l u true => m.slice (meaning m a) (meaningO m l) (meaningO m u)
  | .array es => m.array (meanings m es)
  | .other n => m.other n

/-- The values of a list of expressions. -/
def meanings (m : Sql Q V) : REs Q → List V
  | .nil => []
  | .cons e es => meaning m e :: meanings m es

/-- The value of an optional expression. -/
def meaningO (m : Sql Q V) : REo Q → Option V
  | .none => none
  | .some e => some (meaning m e)

/-- The value of an expression that must be present. -/
def meaningD (m : Sql Q V) : REo Q → V
  | .none => m.const .null
  | .some e => meaning m e

end

/-- The symbols of arithmetic operators. -/
def mathSymbol : MathOp → String
  | .add => "+" | .sub => "-" | .mul => "*" | .div => "/" | .mod => "%" | .concat => "||"

/-- The symbols of logical operators. -/
def symbol : LogOp → String
  | .eq => "=" | .ne => "<>" | .lt => "<" | .le => "<=" | .gt => ">" | .ge => ">=" | .like => "~~" | .notLike => "!~~" | .ilike => "~~*" | .notILike => "!~~*"
  | .contains => "@>" | .containedBy => "<@" | .overlaps => "&&"
  | .inOp => "IN" | .existsOp => "EXISTS" | .isOp => "IS" | .isNot => "IS NOT" | .between => "BETWEEN" | .distinctFrom => "IS DISTINCT FROM" | .notDistinctFrom => "IS NOT DISTINCT FROM"

/-- The names of types in SQL text for which PostgreSQL has another name. -/
def textTypes : List (String × String) :=
  [("char", "bpchar"), ("character", "bpchar"), ("nchar", "bpchar"), ("int", "int4"), ("integer", "int4"), ("smallint", "int2"), ("bigint", "int8"), ("real", "float4"),
   ("float", "float8"), ("double precision", "float8"), ("decimal", "numeric"), ("dec", "numeric"), ("boolean", "bool"), ("character varying", "varchar"), ("bigserial", "serial8")]

/-- PostgreSQL's name and modifiers for a type in SQL text: `char` and `bit` are `char(1)` and `bit(1)`, and the precision of an interval is the second modifier. -/
def textType (m : Sql Q V) (ty : String) (mods : List V) : String × List V :=
  let t := (textTypes.lookup ty).getD ty
  if (t = "bpchar" ∧ ty ≠ "bpchar") ∨ t = "bit" then (t, match mods with
    | [] => [m.const (.num 1)]
    | l => l)
  else if t = "interval" then (t, match mods with
    | [] => []
    | l => m.const (.num 32767) :: l)
  else (t, mods)

/-- The arguments `(*)`. -/
def starOnly : List (Expr Q) → Bool
  | [.star none] => true
  | _ => false

/-- Arithmetic: prefix operators without second operand, otherwise from left to right. -/
def mathValue (m : Sql Q V) (op : MathOp) (a : V) : List V → V
  | [] => m.op1 (mathSymbol op) a
  | bs => bs.foldl (m.op2 (mathSymbol op)) a

/-- Functions; names are case-insensitive. -/
def funcValue (m : Sql Q V) (n : String) (star : Bool) (args : List V) (d : Bool) (f : Option V) : V :=
  if n.toLower = "coalesce" then m.coalesce args
  else if star then m.callStar n.toLower d [] f
  else m.call n.toLower args d [] f

/-- Windows; `fn` is the function and `args` are the values of its arguments. -/
def windowValue (m : Sql Q V) (fn : Expr Q) (args p o : List V) (dirs : List Dir) (f : Option V) : V :=
  match fn with
  | .func n es d _ => m.window n.toLower (if starOnly es then [] else args) (starOnly es) d p o dirs f none
  | _ => m.other "window"

/-- Binary predicates; `va` and `vb` are the values of the operands, where the value of a quantifier is the value of its operand. -/
def binaryValue (m : Sql Q V) (op : LogOp) (va : V) (b : Expr Q) (vb : V) : V :=
  match op, b with
  | o, .quant q (.subq s) => m.quantSub q (symbol o) va s
  | o, .quant q _ => m.quant q (symbol o) va vb
  | .distinctFrom, _ => m.distinctFrom va vb
  | .notDistinctFrom, _ => m.notDistinctFrom va vb
  | .isOp, .static .null => m.isNull va
  | .isNot, .static .null => m.isNotNull va
  | o, _ => m.op2 (symbol o) va vb

/-- IN with a list or a subquery. -/
def inValue (m : Sql Q V) (ve : V) (es : List (Expr Q)) (vs : List V) : V :=
  match es with
  | [.subq q] => m.inSub ve q
  | _ => m.inList ve vs

/-- EXISTS and boolean expressions. -/
def unaryValue (m : Sql Q V) (e : Expr Q) (op : Option LogOp) (v : V) : V :=
  match op, e with
  | some .existsOp, .subq q => m.existsSub q
  | _, _ => v

/-- AND, OR and NOT. -/
def compoundValue (m : Sql Q V) : CompOp → List V → V
  | .and, l => m.conj l
  | .or, l => m.disj l
  | .not, [v] => m.neg v
  | .not, l => m.neg (m.conj l)

mutual

/-- The value of a translated expression: the meaning of its SQL text. -/
def value (m : Sql Q V) : Expr Q → V
  | .static v => m.const v
  | .star t => m.star t
  | .cast e ty ps arr => m.castTo (value m e) (textType m ty (values m ps)).1 (textType m ty (values m ps)).2 arr
  | .math op a bs => mathValue m op (value m a) (values m bs)
  | .col c => m.col c
  | .func n args d f => funcValue m n (starOnly args) (values m args) d (valueO m f)
  | .array es => m.array (values m es)
  | .arrGet a (some i) _ _ => m.index (value m a) (value m i)
  | .arrGet a none l u => m.slice (value m a) (valueO m l) (valueO m u)
  | .subq q => m.scalar q
  | .window fn p o dirs f => windowValue m fn (argValues m fn) (values m p) (values m o) dirs (valueO m f)
  | .case w t s e => m.caseWhen (valueO m s) (values m w) (values m t) (valueO m e)
  | .quant _ e => value m e
  | .binary op a b => binaryValue m op (value m a) b (value m b)
  | .between e l u => m.between (value m e) (value m l) (value m u)
  | .inP e vs => inValue m (value m e) vs (values m vs)
  | .unary e op => unaryValue m e op (value m e)
  | .compound op cs => compoundValue m op (values m cs)

/-- The values of a list of expressions. -/
def values (m : Sql Q V) : List (Expr Q) → List V
  | [] => []
  | e :: es => value m e :: values m es

/-- The value of an optional expression. -/
def valueO (m : Sql Q V) : Option (Expr Q) → Option V
  | none => none
  | some e => some (value m e)

/-- The values of the arguments of a function. -/
def argValues (m : Sql Q V) : Expr Q → List V
  | .func _ args _ _ => values m args
  | _ => []

end

/-- A scalar subquery. -/
def isScalar : RE Q → Bool
  | .link .exprLink _ _ _ => true
  | _ => false

/-- A single scalar subquery. -/
def singleScalar : REs Q → Bool
  | .cons e .nil => isScalar e
  | _ => false

/-- The argument `*`. -/
def starArg : REs Q → Bool
  | .cons (.star none) .nil => true
  | _ => false

/-- Strings that are in the table of operators of the program but are not names of operators in syntax trees; PostgreSQL replaces `!=` by `<>`. -/
def noOperators : List (List String) := [["!="], ["AEXPR_DISTINCT"], ["AEXPR_NOT_DISTINCT"]]

/-- A type without schema or of the system catalog, with the name that PostgreSQL uses for it. Not covered: `bpchar` and `bit` without length and intervals with modifiers. -/
def TypeOk (names : List String) (mods : REs Q) : Prop := ∃ t, (names = [t] ∨ names = ["pg_catalog", t]) ∧ t ∉ textTypes.map Prod.fst ∧ ((t = "bpchar" ∨ t = "bit") → mods ≠ .nil) ∧
  (t = "interval" → mods = .nil)

mutual

/-- Syntax trees as PostgreSQL creates them, without the constructs for which the translation is wrong: aggregates with ORDER BY, window functions with `*`, DISTINCT or a frame, functions with
upper-case letters in their name, some types. -/
def Ok : RE Q → Prop
  | .colRef _ | .star _ | .const _ | .other _ => True
  | .aexpr .op name l r => name ∉ noOperators ∧ OkO l ∧ Ok r
  | .aexpr .like name l r => (name = ["~~"] ∨ name = ["!~~"]) ∧ OkO l ∧ Ok r
  | .aexpr .ilike name l r => (name = ["~~*"] ∨ name = ["!~~*"]) ∧ OkO l ∧ Ok r
  | .aexpr .opAny name l r => name ∉ noOperators ∧ isScalar r = false ∧ OkO l ∧ Ok r
  | .aexpr .opAll name l r => name ∉ noOperators ∧ isScalar r = false ∧ OkO l ∧ Ok r
  | .aexpr _ _ l r => OkO l ∧ Ok r
  | .alist .inList name l items => (name = ["="] ∨ name = ["<>"]) ∧ singleScalar items = false ∧ Ok l ∧ OkL items
  | .alist _ _ l items => Ok l ∧ OkL items
  | .bool _ args => OkL args
  | .nullTest _ e => Ok e
  | .call name args _ _ order filter => order = .nil ∧ (dotted name).toUpper.toLower = dotted name ∧ dotted name ≠ "coalesce" ∧ starArg args = false ∧ OkL args ∧ OkO filter
  | .over name args star distinct filter part order _ frame =>
    star = false ∧ distinct = false ∧ frame = none ∧ (dotted name).toUpper.toLower = dotted name ∧ starArg args = false ∧ OkL args ∧ OkO filter ∧ OkL part ∧ OkL order
  | .coalesce args => OkL args
  | .cast e names mods _ => TypeOk names mods ∧ Ok e ∧ OkL mods
  | .case arg whens thens dflt => OkO arg ∧ OkL whens ∧ OkL thens ∧ OkO dflt
  | .link _ _ t _ => OkO t
  | .index a l u _ => Ok a ∧ OkO l ∧ OkO u
  | .array es => OkL es

def OkL : REs Q → Prop
  | .nil => True
  | .cons e es => Ok e ∧ OkL es

def OkO : REo Q → Prop
  | .none => True
  | .some e => Ok e

end

/-! ### The translation keeps the meaning -/

theorem joinName_eq : ∀ l : List String, joinName l = dotted l
  | [] => rfl
  | [s] => by simp [joinName, dotted]
  | s :: t :: l => by
    have := joinName_eq (t :: l)
    unfold joinName at *
    rw [dotted, ← this, String.intercalate_cons_cons]
    simp

theorem lookup_mem {α β : Type} [DecidableEq α] (k : α) (v : β) : ∀ l : List (α × β), l.lookup k = some v → (k, v) ∈ l
  | [], h => by simp at h
  | (a, b) :: l, h => by
    rw [List.lookup_cons] at h
    by_cases hk : k = a
    · subst hk
      simp at h
      subst h
      exact List.mem_cons_self
    · have hb : (k == a) = false := by simpa using hk
      rw [hb] at h
      exact List.mem_cons_of_mem _ (lookup_mem k v l h)

/-- Plain binary operators. -/
def plainOp : LogOp → Bool
  | .distinctFrom | .notDistinctFrom | .isOp | .isNot => false
  | _ => true

theorem operator_logical {s : String} {o : LogOp} (h : operatorMap.lookup s = some (.logical o)) (hs : [s] ∉ noOperators) : symbol o = s ∧ plainOp o = true := by
  have := lookup_mem s _ _ h
  simp [operatorMap] at this
  simp [noOperators] at hs
  rcases this with ⟨rfl, rfl⟩ | ⟨rfl, rfl⟩ | ⟨rfl, rfl⟩ | ⟨rfl, rfl⟩ | ⟨rfl, rfl⟩ | ⟨rfl, rfl⟩ | ⟨rfl, rfl⟩ | ⟨rfl, rfl⟩ | ⟨rfl, rfl⟩ | ⟨rfl, rfl⟩ | ⟨rfl, rfl⟩ | ⟨rfl, rfl⟩ <;> simp_all [symbol, plainOp]

theorem operator_math {s : String} {o : MathOp} (h : operatorMap.lookup s = some (.math o)) : mathSymbol o = s := by
  have := lookup_mem s _ _ h
  simp [operatorMap] at this
  rcases this with ⟨rfl, rfl⟩ | ⟨rfl, rfl⟩ | ⟨rfl, rfl⟩ | ⟨rfl, rfl⟩ | ⟨rfl, rfl⟩ | ⟨rfl, rfl⟩ <;> rfl

/-- Not a quantifier. -/
def notQuant : Expr Q → Bool
  | .quant _ _ => false
  | _ => true

theorem value_binary (m : Sql Q V) (o : LogOp) (a b : Expr Q) (ho : plainOp o = true) (hb : notQuant b = true) : value m (.binary o a b) = m.op2 (symbol o) (value m a) (value m b) := by
  rw [value]
  generalize value m b = vb
  unfold binaryValue
  split <;> simp_all [plainOp, notQuant]

theorem value_distinct (m : Sql Q V) (a b : Expr Q) (hb : notQuant b = true) : value m (.binary .distinctFrom a b) = m.distinctFrom (value m a) (value m b) := by
  rw [value]
  generalize value m b = vb
  unfold binaryValue
  split <;> simp_all [notQuant]

theorem value_notDistinct (m : Sql Q V) (a b : Expr Q) (hb : notQuant b = true) : value m (.binary .notDistinctFrom a b) = m.notDistinctFrom (value m a) (value m b) := by
  rw [value]
  generalize value m b = vb
  unfold binaryValue
  split <;> simp_all [notQuant]

/-- Not a subquery. -/
def notSubq : Expr Q → Bool
  | .subq _ => false
  | _ => true

theorem value_quant (m : Sql Q V) (o : LogOp) (q : Quant) (a b : Expr Q) (hb : notSubq b = true) :
    value m (.binary o a (.quant q b)) = m.quant q (symbol o) (value m a) (value m b) := by
  rw [value, value]
  generalize value m b = vb
  unfold binaryValue
  split <;> simp_all [notSubq]

theorem value_asPred (m : Sql Q V) (e : Expr Q) : value m (asPred e) = value m e := by
  unfold asPred
  split
  · rfl
  · rw [value]
    rfl

theorem mkFunc_eq {name : String} {args : List (Expr Q)} {d : Bool} {f : Option (Expr Q)} {e : Expr Q} (h : mkFunc name args d f = some e) : e = .func name.toUpper args d f := by
  unfold mkFunc at h
  split at h
  · simp at h
  · split at h
    · simp at h
    · simpa using h.symm

/-- Results are never quantifiers, and subqueries only for scalar subqueries. -/
theorem parse_shape (r : RE Q) (e : Expr Q) (h : parse r = some e) : notQuant e = true ∧ (isScalar r = false → notSubq e = true) ∧ (e = .star none → r = .star none) := by
  cases r with
  | colRef c => simp [parse] at h; subst h; simp [notQuant, notSubq]
  | star t => simp [parse] at h; subst h; simp [notQuant, notSubq]
  | const v => simp [parse] at h; subst h; simp [notQuant, notSubq]
  | aexpr k n l r =>
    simp only [parse, Option.bind_eq_some_iff] at h
    obtain ⟨r', _, l', _, h⟩ := h
    unfold mkAExpr at h
    repeat' split at h
    all_goals first
      | (simp at h; done)
      | (simp at h; subst h; simp [notQuant, notSubq]; done)
      | (simp only [Option.bind_eq_some_iff, Option.map_eq_some_iff] at h
         obtain ⟨_, _, _, _, rfl⟩ := h
         simp [notQuant, notSubq]; done)
      | (simp only [Option.map_eq_some_iff] at h
         obtain ⟨_, _, rfl⟩ := h
         simp [notQuant, notSubq])
  | alist k n l items =>
    simp only [parse, Option.bind_eq_some_iff] at h
    obtain ⟨r', _, l', _, h⟩ := h
    unfold mkAList at h
    repeat' split at h
    all_goals first
      | (simp at h; done)
      | (simp at h; subst h; simp [notQuant, notSubq])
  | bool op args =>
    simp only [parse, Option.bind_eq_some_iff] at h
    obtain ⟨l, _, h⟩ := h
    unfold mkCompound at h
    repeat' split at h
    all_goals first
      | (simp at h; done)
      | (simp at h; subst h; simp [notQuant, notSubq])
  | nullTest i a =>
    simp only [parse, Option.map_eq_some_iff] at h
    obtain ⟨_, _, rfl⟩ := h
    simp [notQuant, notSubq]
  | call n args star d o f =>
    simp only [parse, Option.bind_eq_some_iff] at h
    obtain ⟨f', _, h⟩ := h
    split at h
    · obtain rfl := mkFunc_eq h; simp [notQuant, notSubq]
    · obtain ⟨as, _, h⟩ := Option.bind_eq_some_iff.1 h
      obtain rfl := mkFunc_eq h; simp [notQuant, notSubq]
  | over n args star d f p o dirs fr =>
    simp only [parse, Option.bind_eq_some_iff, Option.map_eq_some_iff] at h
    obtain ⟨_, _, _, _, _, _, _, _, _, _, rfl⟩ := h
    simp [notQuant, notSubq]
  | coalesce args =>
    simp only [parse, Option.bind_eq_some_iff] at h
    obtain ⟨as, _, h⟩ := h
    obtain rfl := mkFunc_eq h; simp [notQuant, notSubq]
  | cast a n ms arr =>
    simp only [parse, Option.bind_eq_some_iff, Option.map_eq_some_iff] at h
    obtain ⟨_, _, _, _, _, _, rfl⟩ := h
    simp [notQuant, notSubq]
  | case a w t d =>
    simp only [parse, Option.bind_eq_some_iff] at h
    obtain ⟨_, _, _, _, _, _, _, _, h⟩ := h
    split at h
    · simp at h
    · simp at h; subst h; simp [notQuant, notSubq]
  | link k o t q =>
    simp only [parse, Option.bind_eq_some_iff] at h
    obtain ⟨t', _, h⟩ := h
    cases k with
    | existsLink => simp [mkLink] at h; subst h; simp [notQuant, notSubq]
    | exprLink => simp [mkLink] at h; subst h; simp [notQuant, isScalar]
    | anyLink =>
      cases o with
      | none =>
        simp only [mkLink, Option.map_eq_some_iff] at h
        obtain ⟨_, _, rfl⟩ := h
        simp [notQuant, notSubq]
      | some o => simp [mkLink] at h
    | allLink => simp [mkLink] at h
    | arrayLink => simp [mkLink] at h
  | index a l u s =>
    simp only [parse, Option.bind_eq_some_iff] at h
    obtain ⟨_, _, _, _, _, _, h⟩ := h
    unfold mkIndex at h
    split at h
    · split at h
      · simp at h
      · simp at h; subst h; simp [notQuant, notSubq]
    · simp only [Option.map_eq_some_iff] at h
      obtain ⟨_, _, rfl⟩ := h
      simp [notQuant, notSubq]
  | array es =>
    simp only [parse, Option.map_eq_some_iff] at h
    obtain ⟨_, _, rfl⟩ := h
    simp [notQuant, notSubq]
  | other n => simp [parse] at h

theorem starOnly_parse {args : REs Q} {l : List (Expr Q)} (h : parseL args = some l) (ha : starArg args = false) : starOnly l = false := by
  cases args with
  | nil => simp [parseL] at h; subst h; rfl
  | cons e es =>
    simp only [parseL, Option.bind_eq_some_iff, Option.map_eq_some_iff] at h
    obtain ⟨x, hx, xs, hxs, rfl⟩ := h
    by_contra hc
    rw [Bool.not_eq_false] at hc
    unfold starOnly at hc
    split at hc
    · rename_i heq
      simp only [List.cons.injEq] at heq
      obtain ⟨rfl, rfl⟩ := heq
      have := (parse_shape e _ hx).2.2 rfl
      subst this
      cases es with
      | nil => simp [starArg] at ha
      | cons e' es' =>
        simp only [parseL, Option.bind_eq_some_iff, Option.map_eq_some_iff] at hxs
        obtain ⟨_, _, _, _, h⟩ := hxs
        simp at h
    · simp at hc

theorem value_inP (m : Sql Q V) (e : Expr Q) {items : REs Q} {l : List (Expr Q)} (h : parseL items = some l) (ha : singleScalar items = false) :
    value m (.inP e l) = m.inList (value m e) (values m l) := by
  have : ∀ q, l ≠ [.subq q] := by
    rintro q rfl
    cases items with
    | nil => simp [parseL] at h
    | cons e es =>
      simp only [parseL, Option.bind_eq_some_iff, Option.map_eq_some_iff] at h
      obtain ⟨x, hx, xs, hxs, heq⟩ := h
      simp only [List.cons.injEq] at heq
      obtain ⟨rfl, rfl⟩ := heq
      cases es with
      | cons e' es' =>
        simp only [parseL, Option.bind_eq_some_iff, Option.map_eq_some_iff] at hxs
        obtain ⟨_, _, _, _, h⟩ := hxs
        simp at h
      | nil =>
        have := (parse_shape e _ hx).2.1 (by simpa [singleScalar] using ha)
        simp [notSubq] at this
  rw [value]
  unfold inValue
  split
  · rename_i q; exact absurd rfl (this q)
  · rfl

theorem value_type (m : Sql Q V) {names : List String} {mods : REs Q} (h : TypeOk names mods) {ty : String} (hty : parseType names = some ty) {ps : List (Expr Q)}
    (hp : parseL mods = some ps) : textType m ty (values m ps) = (baseName names, values m ps) := by
  obtain ⟨t, hn, ht, hb, hi⟩ := h
  have hbase : baseName names = t := by rcases hn with rfl | rfl <;> rfl
  have hty' : ty = (typeMap.lookup t).getD t := by rcases hn with rfl | rfl <;> simpa [parseType] using hty.symm
  rw [hbase]
  have hne : mods ≠ .nil → ∃ v l, values m ps = v :: l := by
    intro hm
    cases mods with
    | nil => exact absurd rfl hm
    | cons e es =>
      simp only [parseL, Option.bind_eq_some_iff, Option.map_eq_some_iff] at hp
      obtain ⟨x, _, xs, _, rfl⟩ := hp
      exact ⟨_, _, rfl⟩
  have hnil : mods = .nil → ps = [] := by
    rintro rfl
    simpa [parseL] using hp.symm
  cases hl : typeMap.lookup t with
  | some ty' =>
    rw [hl] at hty'
    simp at hty'
    subst hty'
    have := lookup_mem t _ _ hl
    simp [typeMap] at this
    rcases this with ⟨rfl, rfl⟩ | ⟨rfl, rfl⟩ | ⟨rfl, rfl⟩ | ⟨rfl, rfl⟩ | ⟨rfl, rfl⟩ | ⟨rfl, rfl⟩ | ⟨rfl, rfl⟩ | ⟨rfl, rfl⟩
    · obtain ⟨v, l, hv⟩ := hne (hb (.inl rfl))
      rw [hv]
      simp [textType, textTypes, List.lookup]
    all_goals first
      | (simp [textType, textTypes, List.lookup]; done)
      | exact absurd ht (by simp [textTypes])
  | none =>
    rw [hl] at hty'
    simp at hty'
    subst hty'
    have hlk : textTypes.lookup ty = none := by
      cases h : textTypes.lookup ty with
      | none => rfl
      | some v => exact absurd (List.mem_map_of_mem (f := Prod.fst) (lookup_mem ty v _ h)) ht
    simp only [textType, hlk, Option.getD_none]
    split
    · rename_i hc
      rcases hc with hc | hc
      · exact absurd hc.1 hc.2
      · obtain ⟨v, l, hv⟩ := hne (hb (.inr hc))
        rw [hv]
    · split
      · rename_i hc
        rw [hnil (hi hc)]
        simp [values]
      · rfl

theorem foldl_one (f : V → V → V) (a b : V) : [b].foldl f a = f a b := rfl

mutual

theorem parse_meaning (m : Sql Q V) : ∀ (r : RE Q) {e : Expr Q}, Ok r → parse r = some e → value m e = meaning m r
  | .colRef c, e, ho, h => by simp [parse] at h; subst h; simp [value, mathValue, funcValue, windowValue, binaryValue, inValue, unaryValue, compoundValue, argValues, values, meaning]
  | .star t, e, ho, h => by simp [parse] at h; subst h; simp [value, mathValue, funcValue, windowValue, binaryValue, inValue, unaryValue, compoundValue, argValues, values, meaning]
  | .const v, e, ho, h => by simp [parse] at h; subst h; simp [value, mathValue, funcValue, windowValue, binaryValue, inValue, unaryValue, compoundValue, argValues, values, meaning]
  | .other n, e, ho, h => by simp [parse] at h
  | .aexpr k name l r, e, ho, h => by
    simp only [parse, Option.bind_eq_some_iff] at h
    obtain ⟨r', hr, l', hl, h⟩ := h
    have hq := (parse_shape r r' hr).1
    have ihr : Ok r → value m r' = meaning m r := fun hok => parse_meaning m r hok hr
    have ihl : OkO l → valueO m l' = meaningO m l := fun hok => parseO_meaning m l hok hl
    have ihd : OkO l → ∀ x, l' = some x → value m x = meaningD m l := by
      intro hok x hx
      subst hx
      cases l with
      | none => simp [parseO] at hl
      | some e0 =>
        have := ihl hok
        simpa [valueO, meaningO, meaningD] using this
    cases k with
    | op =>
      simp only [Ok] at ho
      obtain ⟨hn, hol, hor⟩ := ho
      have hname : ∀ o, parseOperator name = some o → ∃ s, name = [s] ∧ operatorMap.lookup s = some o := by
        intro o ho
        unfold parseOperator at ho
        split at ho
        · exact ⟨_, rfl, ho⟩
        · simp at ho
      simp only [mkAExpr] at h
      split at h
      · simp at h
      · rename_i o hop
        simp at h
        subst h
        obtain ⟨s, rfl, hs⟩ := hname _ hop
        cases l with
        | some e0 => simp [parseO] at hl
        | none => simp [value, mathValue, funcValue, windowValue, binaryValue, inValue, unaryValue, compoundValue, argValues, values, meaning, baseName, operator_math hs, ihr hor]
      · simp at h
      · rename_i o x hop
        simp at h
        subst h
        obtain ⟨s, rfl, hs⟩ := hname _ hop
        obtain ⟨h1, h2⟩ := operator_logical hs hn
        cases l with
        | none => simp [parseO] at hl
        | some e0 =>
          have := ihd hol x rfl
          simp only [meaningD] at this
          rw [value_binary m o x r' h2 hq, h1, this, ihr hor]
          simp [meaning, baseName]
      · simp at h
      · rename_i o x hop
        simp at h
        subst h
        obtain ⟨s, rfl, hs⟩ := hname _ hop
        cases l with
        | none => simp [parseO] at hl
        | some e0 =>
          have := ihd hol x rfl
          simp only [meaningD] at this
          simp only [value, values, mathValue, foldl_one, operator_math hs, meaning, baseName, this, ihr hor]
    | like =>
      simp only [Ok] at ho
      obtain ⟨hn, hol, hor⟩ := ho
      simp only [mkAExpr, Option.bind_eq_some_iff, Option.map_eq_some_iff] at h
      obtain ⟨x, hx, n, hnn, rfl⟩ := h
      rcases hn with rfl | rfl
      all_goals
        simp at hnn
        subst hnn
        rw [value_binary m _ x r' (by simp [plainOp]) hq, ihd hol x hx, ihr hor]
        simp [symbol, meaning, baseName]
    | ilike =>
      simp only [Ok] at ho
      obtain ⟨hn, hol, hor⟩ := ho
      simp only [mkAExpr, Option.bind_eq_some_iff, Option.map_eq_some_iff] at h
      obtain ⟨x, hx, n, hnn, rfl⟩ := h
      rcases hn with rfl | rfl
      all_goals
        simp at hnn
        subst hnn
        rw [value_binary m _ x r' (by simp [plainOp]) hq, ihd hol x hx, ihr hor]
        simp [symbol, meaning, baseName]
    | distinct =>
      simp only [Ok] at ho
      simp only [mkAExpr, Option.map_eq_some_iff] at h
      obtain ⟨x, hx, rfl⟩ := h
      rw [value_distinct m x r' hq, ihd ho.1 x hx, ihr ho.2]
      simp [meaning]
    | notDistinct =>
      simp only [Ok] at ho
      simp only [mkAExpr, Option.map_eq_some_iff] at h
      obtain ⟨x, hx, rfl⟩ := h
      rw [value_notDistinct m x r' hq, ihd ho.1 x hx, ihr ho.2]
      simp [meaning]
    | opAny =>
      simp only [Ok] at ho
      obtain ⟨hn, hsc, hol, hor⟩ := ho
      simp only [mkAExpr] at h
      split at h
      · rename_i o x hop
        simp at h
        subst h
        unfold parseOperator at hop
        split at hop
        · obtain ⟨h1, h2⟩ := operator_logical hop hn
          rw [value_quant m _ _ x r' ((parse_shape r r' hr).2.1 hsc), h1, ihd hol x rfl, ihr hor]
          simp [meaning, baseName]
        · simp at hop
      · simp at h
    | opAll =>
      simp only [Ok] at ho
      obtain ⟨hn, hsc, hol, hor⟩ := ho
      simp only [mkAExpr] at h
      split at h
      · rename_i o x hop
        simp at h
        subst h
        unfold parseOperator at hop
        split at hop
        · obtain ⟨h1, h2⟩ := operator_logical hop hn
          rw [value_quant m _ _ x r' ((parse_shape r r' hr).2.1 hsc), h1, ihd hol x rfl, ihr hor]
          simp [meaning, baseName]
        · simp at hop
      · simp at h
    | nullif => simp [mkAExpr] at h
    | similar => simp [mkAExpr] at h
  | .alist k name l items, e, ho, h => by
    simp only [parse, Option.bind_eq_some_iff] at h
    obtain ⟨l', hl, is, his, h⟩ := h
    have ihl : Ok l → value m l' = meaning m l := fun hok => parse_meaning m l hok hl
    have ihi : OkL items → values m is = meanings m items := fun hok => parseL_meaning m items hok his
    cases k with
    | inList =>
      simp only [Ok] at ho
      obtain ⟨hn, hs, hol, hoi⟩ := ho
      simp only [mkAList] at h
      split at h
      · simp at h
      · rcases hn with rfl | rfl
        · simp at h
          subst h
          rw [value_inP m l' his hs, ihl hol, ihi hoi]
          simp [meaning, baseName]
        · simp at h
          subst h
          rw [value, values, value_inP m l' his hs, ihl hol, ihi hoi]
          simp [compoundValue, values, meaning, baseName]
    | between =>
      simp only [Ok] at ho
      simp only [mkAList] at h
      split at h
      · rename_i a b
        simp at h
        subst h
        have := ihi ho.2
        cases items with
        | nil => simp [parseL] at his
        | cons i1 is1 => cases is1 with
          | nil => simp [values, meanings] at this
          | cons i2 is2 => cases is2 with
            | cons => simp [values, meanings] at this
            | nil =>
              simp only [values, meanings, List.cons.injEq, and_true] at this
              simp [value, mathValue, funcValue, windowValue, binaryValue, inValue, unaryValue, compoundValue, argValues, values, meaning, ihl ho.1, this.1, this.2]
      · simp at h
    | notBetween => simp [mkAList] at h
    | betweenSym => simp [mkAList] at h
    | notBetweenSym => simp [mkAList] at h
  | .bool op args, e, ho, h => by
    simp only [Ok] at ho
    simp only [parse, Option.bind_eq_some_iff] at h
    obtain ⟨cs, hcs, h⟩ := h
    have ih := parsePs_meaning m args ho hcs
    cases op with
    | andExpr =>
      simp only [boolOp, mkCompound] at h
      split at h
      · simp at h
      · simp at h; subst h; simp [value, mathValue, funcValue, windowValue, binaryValue, inValue, unaryValue, compoundValue, argValues, values, meaning, ih]
    | orExpr =>
      simp only [boolOp, mkCompound] at h
      split at h
      · simp at h
      · simp at h; subst h; simp [value, mathValue, funcValue, windowValue, binaryValue, inValue, unaryValue, compoundValue, argValues, values, meaning, ih]
    | notExpr =>
      simp only [boolOp, mkCompound] at h
      split at h
      · rename_i hlen
        simp at h
        subst h
        obtain ⟨c, rfl⟩ := List.length_eq_one_iff.1 hlen
        cases args with
        | nil => simp [parsePs] at hcs
        | cons e1 es1 =>
          simp only [values, meanings, List.cons.injEq] at ih
          simp [value, mathValue, funcValue, windowValue, binaryValue, inValue, unaryValue, compoundValue, argValues, values, meaning, ih.1]
      · simp at h
  | .nullTest b a, e, ho, h => by
    simp only [Ok] at ho
    simp only [parse, Option.map_eq_some_iff] at h
    obtain ⟨x, hx, rfl⟩ := h
    have := parse_meaning m a ho hx
    cases b <;> simp [value, mathValue, funcValue, windowValue, binaryValue, inValue, unaryValue, compoundValue, argValues, values, meaning, this]
  | .call name args star d order filter, e, ho, h => by
    simp only [Ok] at ho
    obtain ⟨rfl, hlow, hco, hsa, hoa, hof⟩ := ho
    simp only [parse, Option.bind_eq_some_iff] at h
    obtain ⟨f, hf, h⟩ := h
    have ihf := parseP_meaning m filter hof hf
    cases star with
    | true =>
      simp only [if_true] at h
      obtain rfl := mkFunc_eq h
      rw [joinName_eq]
      simp [value, mathValue, funcValue, windowValue, binaryValue, inValue, unaryValue, compoundValue, argValues, values, meaning, hlow, hco, starOnly, ihf, meanings]
    | false =>
      simp only [Bool.false_eq_true, if_false, Option.bind_eq_some_iff] at h
      obtain ⟨as, has, h⟩ := h
      obtain rfl := mkFunc_eq h
      rw [joinName_eq]
      simp [value, mathValue, funcValue, windowValue, binaryValue, inValue, unaryValue, compoundValue, argValues, values, meaning, hlow, hco, starOnly_parse has hsa, ihf, parseL_meaning m args hoa has, meanings]
  | .over name args star d filter part order dirs fr, e, ho, h => by
    simp only [Ok] at ho
    obtain ⟨rfl, rfl, rfl, hlow, hsa, hoa, hof, hop, hoo⟩ := ho
    simp only [parse, Option.bind_eq_some_iff, Option.map_eq_some_iff] at h
    obtain ⟨as, has, fn, hfn, p, hp, o, hoo', f, hf, rfl⟩ := h
    obtain rfl := mkFunc_eq hfn
    rw [joinName_eq]
    simp [value, mathValue, funcValue, windowValue, binaryValue, inValue, unaryValue, compoundValue, argValues, values, meaning, hlow, starOnly_parse has hsa, parseL_meaning m args hoa has, parseL_meaning m part hop hp, parseL_meaning m order hoo hoo', parseP_meaning m filter hof hf]
  | .coalesce args, e, ho, h => by
    simp only [Ok] at ho
    simp only [parse, Option.bind_eq_some_iff] at h
    obtain ⟨as, has, h⟩ := h
    obtain rfl := mkFunc_eq h
    have : ("coalesce".toUpper).toLower = "coalesce" := by decide +kernel
    simp [value, mathValue, funcValue, windowValue, binaryValue, inValue, unaryValue, compoundValue, argValues, values, meaning, this, parseL_meaning m args ho has]
  | .cast a names mods arr, e, ho, h => by
    simp only [Ok] at ho
    obtain ⟨hty, hoa, hom⟩ := ho
    simp only [parse, Option.bind_eq_some_iff, Option.map_eq_some_iff] at h
    obtain ⟨x, hx, ty, ht, ps, hps, rfl⟩ := h
    have := value_type m hty ht hps
    rw [value, this, parse_meaning m a hoa hx, parseL_meaning m mods hom hps, meaning]
  | .case a w t d, e, ho, h => by
    simp only [Ok] at ho
    obtain ⟨h1, h2, h3, h4⟩ := ho
    simp only [parse, Option.bind_eq_some_iff] at h
    obtain ⟨ws, hws, ts, hts, a', ha, d', hd, h⟩ := h
    split at h
    · simp at h
    · simp at h
      subst h
      simp [value, mathValue, funcValue, windowValue, binaryValue, inValue, unaryValue, compoundValue, argValues, values, meaning, parsePs_meaning m w h2 hws, parseL_meaning m t h3 hts, parseO_meaning m a h1 ha, parseO_meaning m d h4 hd]
  | .link k o t q, e, ho, h => by
    simp only [Ok] at ho
    simp only [parse, Option.bind_eq_some_iff] at h
    obtain ⟨t', ht, h⟩ := h
    have ih := parseO_meaning m t ho ht
    cases k with
    | existsLink => simp [mkLink] at h; subst h; simp [value, mathValue, funcValue, windowValue, binaryValue, inValue, unaryValue, compoundValue, argValues, values, meaning]
    | exprLink => simp [mkLink] at h; subst h; simp [value, mathValue, funcValue, windowValue, binaryValue, inValue, unaryValue, compoundValue, argValues, values, meaning]
    | anyLink =>
      cases o with
      | none =>
        simp only [mkLink, Option.map_eq_some_iff] at h
        obtain ⟨x, hx, rfl⟩ := h
        subst hx
        cases t with
        | none => simp [parseO] at ht
        | some e0 =>
          simp [valueO, meaningO] at ih
          simp [value, mathValue, funcValue, windowValue, binaryValue, inValue, unaryValue, compoundValue, argValues, values, meaning, meaningD, ih]
      | some o => simp [mkLink] at h
    | allLink => simp [mkLink] at h
    | arrayLink => simp [mkLink] at h
  | .index a l u s, e, ho, h => by
    simp only [Ok] at ho
    obtain ⟨h1, h2, h3⟩ := ho
    simp only [parse, Option.bind_eq_some_iff] at h
    obtain ⟨a', ha, l', hl, u', hu, h⟩ := h
    have iha := parse_meaning m a h1 ha
    have ihl := parseO_meaning m l h2 hl
    have ihu := parseO_meaning m u h3 hu
    unfold mkIndex at h
    split at h
    · rename_i hs
      subst hs
      split at h
      · simp at h
      · simp at h
        subst h
        simp [value, mathValue, funcValue, windowValue, binaryValue, inValue, unaryValue, compoundValue, argValues, values, meaning, iha, ihl, ihu]
    · rename_i hs
      rw [Bool.not_eq_true] at hs
      subst hs
      simp only [Option.map_eq_some_iff] at h
      obtain ⟨x, hx, rfl⟩ := h
      subst hx
      cases u with
      | none => simp [parseO] at hu
      | some e0 =>
        simp [valueO, meaningO] at ihu
        simp [value, mathValue, funcValue, windowValue, binaryValue, inValue, unaryValue, compoundValue, argValues, values, meaning, iha, ihu]
  | .array es, e, ho, h => by
    simp only [Ok] at ho
    simp only [parse, Option.map_eq_some_iff] at h
    obtain ⟨l, hl, rfl⟩ := h
    simp [value, mathValue, funcValue, windowValue, binaryValue, inValue, unaryValue, compoundValue, argValues, values, meaning, parseL_meaning m es ho hl]

theorem parseL_meaning (m : Sql Q V) : ∀ (rs : REs Q) {l : List (Expr Q)}, OkL rs → parseL rs = some l → values m l = meanings m rs
  | .nil, l, ho, h => by simp [parseL] at h; subst h; simp [values, meanings]
  | .cons r rs, l, ho, h => by
    simp only [parseL, Option.bind_eq_some_iff, Option.map_eq_some_iff] at h
    obtain ⟨x, hx, xs, hxs, rfl⟩ := h
    simp only [OkL] at ho
    simp [values, meanings, parse_meaning m r ho.1 hx, parseL_meaning m rs ho.2 hxs]

theorem parsePs_meaning (m : Sql Q V) : ∀ (rs : REs Q) {l : List (Expr Q)}, OkL rs → parsePs rs = some l → values m l = meanings m rs
  | .nil, l, ho, h => by simp [parsePs] at h; subst h; simp [values, meanings]
  | .cons r rs, l, ho, h => by
    simp only [parsePs, Option.bind_eq_some_iff, Option.map_eq_some_iff] at h
    obtain ⟨x, hx, xs, hxs, rfl⟩ := h
    simp only [OkL] at ho
    simp [values, meanings, value_asPred, parse_meaning m r ho.1 hx, parsePs_meaning m rs ho.2 hxs]

theorem parseO_meaning (m : Sql Q V) : ∀ (r : REo Q) {o : Option (Expr Q)}, OkO r → parseO r = some o → valueO m o = meaningO m r
  | .none, o, ho, h => by simp [parseO] at h; subst h; simp [valueO, meaningO]
  | .some r, o, ho, h => by
    simp only [parseO, Option.map_eq_some_iff] at h
    obtain ⟨x, hx, rfl⟩ := h
    simp only [OkO] at ho
    simp [valueO, meaningO, parse_meaning m r ho hx]

theorem parseP_meaning (m : Sql Q V) : ∀ (r : REo Q) {o : Option (Expr Q)}, OkO r → parseP r = some o → valueO m o = meaningO m r
  | .none, o, ho, h => by simp [parseP] at h; subst h; simp [valueO, meaningO]
  | .some r, o, ho, h => by
    simp only [parseP, Option.map_eq_some_iff] at h
    obtain ⟨x, hx, rfl⟩ := h
    simp only [OkO] at ho
    simp [valueO, meaningO, value_asPred, parse_meaning m r ho hx]

end

/-- **C159.** A translated expression has the value of the expression in PostgreSQL's syntax tree, whatever the operators and functions compute. -/
theorem C159_meaning_partial (m : Sql Q V) (r : RE Q) (e : Expr Q) (hr : Ok r) (h : parse r = some e) : value m e = meaning m r := parse_meaning m r hr h

/-- **C159.** The same for conditions in WHERE, HAVING and ON, which are also predicates after the translation. -/
theorem C159_condition_partial (m : Sql Q V) (r : RE Q) (e : Expr Q) (hr : Ok r) (h : parseCondition r = some e) : e.isPred = true ∧ value m e = meaning m r := by
  unfold parseCondition at h
  rw [Option.map_eq_some_iff] at h
  obtain ⟨x, hx, rfl⟩ := h
  refine ⟨?_, by rw [value_asPred]; exact parse_meaning m r hr hx⟩
  unfold asPred
  split
  · assumption
  · rfl

/-- Column 1 of table 0 and the constant 5. -/
def c1 : RE Unit := .colRef ⟨some 0, 1⟩
def five : RE Unit := .const (.num 5)

/-- `NOT (c IN (5, c)) AND (c + 5 > ANY (ARRAY[5]) OR CAST(c AS varchar(5)) LIKE '...' ) AND count(*) FILTER (WHERE c IS NOT NULL) = - 5`. -/
def sample : RE Unit := .bool .andExpr (.cons (.alist .inList ["<>"] c1 (.cons five (.cons c1 .nil))) (.cons
  (.bool .orExpr (.cons (.aexpr .opAny [">"] (.some (.aexpr .op ["+"] (.some c1) five)) (.array (.cons five .nil)))
    (.cons (.aexpr .like ["~~"] (.some (.cast c1 ["pg_catalog", "varchar"] (.cons five .nil) false)) (.const (.str "a%"))) .nil)))
  (.cons (.aexpr .op ["="] (.some (.call ["count"] .nil true false .nil (.some (.nullTest false c1)))) (.aexpr .op ["-"] .none five)) .nil)))

example : Ok sample ∧ (parse sample).isSome = true := by
  refine ⟨?_, by decide +kernel⟩
  have h1 : (dotted ["count"]).toUpper.toLower = dotted ["count"] := by decide +kernel
  simp [sample, Ok, OkL, OkO, noOperators, isScalar, singleScalar, starArg, c1, five, h1, dotted]
  exact ⟨⟨"varchar", .inr rfl, by simp [textTypes], by simp, by simp⟩, by decide +kernel⟩

/-- An interpretation that only sees the number of modifiers of casts, the type names, the numbers of sort keys, `*`, DISTINCT, the presence of frames and the names of functions. -/
def probe : Sql Unit (List String) where
  col _ := []
  star _ := []
  const _ := []
  op1 _ _ := []
  op2 _ _ _ := []
  distinctFrom _ _ := []
  notDistinctFrom _ _ := []
  quant _ _ _ _ := []
  quantSub _ _ _ _ := []
  between _ _ _ := []
  inList _ _ := []
  inSub _ _ := []
  existsSub _ := []
  scalar _ := []
  conj _ := []
  disj _ := []
  neg _ := []
  isNull _ := []
  isNotNull _ := []
  call n args d order _ := n :: (if d then "distinct" else "all") :: (order.map fun _ => "order") ++ (args.map fun _ => "arg")
  callStar n _ _ _ := [n, "star"]
  window n args star d _ _ _ _ frame := n :: (if star then "star" else "args") :: (if d then "distinct" else "all") :: (frame.getD "default") :: (args.map fun _ => "arg")
  coalesce _ := []
  castTo _ t mods _ := t :: mods.map fun _ => "modifier"
  caseWhen _ _ _ _ := []
  index _ _ := []
  slice _ _ _ := []
  array _ := []
  other _ := []

/-- **C159 is false in general**: the order of the rows for an aggregate is not part of the result, so `string_agg(x, ',' ORDER BY y)` becomes `string_agg(x, ',')`. -/
theorem C159_aggregate_order_violated : (∀ (name : List String) (args : REs Q) (star d : Bool) (o : REs Q) (f : REo Q),
      parse (.call name args star d o f) = parse (.call name args star d .nil f)) ∧
    ∃ e, parse (.call ["string_agg"] (.cons c1 (.cons five .nil)) false false (.cons c1 .nil) .none) = some e ∧
      value probe e ≠ meaning probe (.call ["string_agg"] (.cons c1 (.cons five .nil)) false false (.cons c1 .nil) .none) := by
  refine ⟨fun _ _ _ _ _ _ => by simp only [parse], ⟨_, by with_unfolding_all rfl, ?_⟩⟩
  decide +kernel

/-- **C159 is false in general**: for window functions, `*`, DISTINCT and the frame are not part of the result: `count(*) OVER (…)` becomes `count() OVER (…)`, and all frames become the default
frame. -/
theorem C159_window_violated : (∀ (name : List String) (args : REs Q) (star d : Bool) (f : REo Q) (p o : REs Q) (dirs : List Dir) (fr : Option String),
      parse (.over name args star d f p o dirs fr) = parse (.over name args false false f p o dirs none)) ∧
    (∃ e, parse (.over ["count"] .nil true false .none .nil .nil [] none) = some e ∧ value probe e ≠ meaning probe (.over ["count"] .nil true false .none .nil .nil [] none)) ∧
    (∃ e, parse (.over ["sum"] (.cons c1 .nil) false true .none .nil .nil [] none) = some e ∧
      value probe e ≠ meaning probe (.over ["sum"] (.cons c1 .nil) false true .none .nil .nil [] none)) ∧
    ∃ e, parse (.over ["sum"] (.cons c1 .nil) false false .none .nil .nil [] (some "ROWS 1 PRECEDING")) = some e ∧
      value probe e ≠ meaning probe (.over ["sum"] (.cons c1 .nil) false false .none .nil .nil [] (some "ROWS 1 PRECEDING")) := by
  refine ⟨fun _ _ _ _ _ _ _ _ _ => by simp only [parse], ⟨_, by with_unfolding_all rfl, ?_⟩, ⟨_, by with_unfolding_all rfl, ?_⟩, ⟨_, by with_unfolding_all rfl, ?_⟩⟩ <;> decide +kernel

/-- **C159 is false in general**: a cast to `bpchar` without length becomes a cast to `char`, that is to `char(1)`; PostgreSQL also uses `bpchar` without length for comparisons. -/
theorem C159_bpchar_violated : (∀ (m : Sql Q V) (a : RE Q) (e : Expr Q), parse (.cast a ["pg_catalog", "bpchar"] .nil false) = some e → Ok a → value m e = m.castTo (meaning m a) "bpchar" [m.const (.num 1)] false) ∧
    ∃ e, parse (.cast c1 ["pg_catalog", "bpchar"] .nil false) = some e ∧ value probe e ≠ meaning probe (.cast c1 ["pg_catalog", "bpchar"] .nil false) := by
  constructor
  · intro m a e h ha
    simp only [parse, Option.bind_eq_some_iff, Option.map_eq_some_iff] at h
    obtain ⟨x, hx, ty, hty, ps, hps, rfl⟩ := h
    simp [parseL] at hps
    subst hps
    have : ty = "char" := by simpa [parseType, typeMap, List.lookup] using hty.symm
    subst this
    rw [value, parse_meaning m a ha hx]
    simp [textType, textTypes, List.lookup, values]
  · exact ⟨_, by with_unfolding_all rfl, by decide +kernel⟩

/-- **C159 is false in general**: `interval(3)` has the modifiers 32767 (all fields) and 3 in the syntax tree; the text of the result is `interval(32767, 3)`. -/
theorem C159_interval_violated : ∃ e, parse (.cast c1 ["pg_catalog", "interval"] (.cons (.const (.num 32767)) (.cons (.const (.num 3)) .nil)) false) = some e ∧
    value probe e ≠ meaning probe (.cast c1 ["pg_catalog", "interval"] (.cons (.const (.num 32767)) (.cons (.const (.num 3)) .nil)) false) :=
  ⟨_, by with_unfolding_all rfl, by decide +kernel⟩

/-- **C159 is false in general**: a type is translated without its schema. -/
theorem C159_type_schema_violated (s s' t : String) (a : RE Q) (mods : REs Q) (arr : Bool) : parse (.cast a [s, t] mods arr) = parse (.cast a [s', t] mods arr) := by
  simp [parse, parseType]

/-- **C159 is false in general**: names of functions become upper-case, which loses the difference between quoted names. -/
theorem C159_quoted_function_violated : parse (.call ["myFunc"] (.cons c1 .nil) false false .nil .none) = parse (.call ["myfunc"] (.cons c1 .nil) false false .nil .none) ∧
    meaning probe (.call ["myFunc"] (.cons c1 .nil) false false .nil .none) ≠ meaning probe (.call ["myfunc"] (.cons c1 .nil) false false .nil .none) := by
  constructor
  · have h : (joinName ["myFunc"]).toUpper = (joinName ["myfunc"]).toUpper := by decide +kernel
    have h1 : joinName ["myFunc"] ≠ "" := by decide +kernel
    have h2 : joinName ["myfunc"] ≠ "" := by decide +kernel
    simp only [parse, mkFunc, h, h1, h2, if_false]
  · decide +kernel

/-! ### Which expressions are accepted -/

/-- Operators with two operands that yield truth values. The last two cannot occur in syntax trees. -/
def comparisons : List String := ["=", "<", "<=", ">", ">=", "<>", "!=", "@>", "<@", "&&", "AEXPR_DISTINCT", "AEXPR_NOT_DISTINCT"]

/-- Arithmetic operators and concatenation. -/
def arithmetic : List String := ["+", "-", "*", "/", "%", "||"]

/-- The aggregate functions that may have DISTINCT and FILTER. -/
def knownAggregates : List String := ["COUNT", "SUM", "MIN", "MAX", "AVG", "EVERY", "CORR", "STDDEV", "ANY_VALUE", "ARRAY_AGG", "BIT_AND", "BIT_OR", "BIT_XOR", "BOOL_AND", "BOOL_OR",
  "BOOL_XOR", "STRING_AGG", "JSON_AGG", "XML_AGG"]

/-- Functions: DISTINCT and FILTER only for the known aggregates. -/
def FuncOk (name : List String) (modified : Prop) : Prop := dotted name ≠ "" ∧ (modified → (dotted name).toUpper ∈ knownAggregates)

mutual

/-- The expressions that can be translated. -/
def Supported : RE Q → Prop
  | .colRef _ | .star _ | .const _ => True
  | .other _ => False
  | .aexpr .op name .none r => Supported r ∧ ∃ s ∈ arithmetic, name = [s]
  | .aexpr .op name (.some l) r => Supported l ∧ Supported r ∧ ∃ s ∈ arithmetic ++ comparisons, name = [s]
  | .aexpr .nullif _ _ _ | .aexpr .similar _ _ _ => False
  | .aexpr _ _ .none _ => False
  | .aexpr .like name (.some l) r | .aexpr .ilike name (.some l) r => Supported l ∧ Supported r ∧ name ≠ []
  | .aexpr .distinct _ (.some l) r | .aexpr .notDistinct _ (.some l) r => Supported l ∧ Supported r
  | .aexpr .opAny name (.some l) r | .aexpr .opAll name (.some l) r => Supported l ∧ Supported r ∧ ∃ s ∈ comparisons, name = [s]
  | .alist .between _ l items => Supported l ∧ SupportedL items ∧ ∃ a b, items = .cons a (.cons b .nil)
  | .alist .inList name l items => Supported l ∧ SupportedL items ∧ items ≠ .nil ∧ ∃ t, name = "=" :: t ∨ name = "<>" :: t
  | .alist _ _ _ _ => False
  | .bool .notExpr args => SupportedL args ∧ ∃ a, args = .cons a .nil
  | .bool _ args => SupportedL args ∧ ∃ a b l, args = .cons a (.cons b l)
  | .nullTest _ e => Supported e
  | .call name args star distinct _ filter => FuncOk name (distinct = true ∨ filter ≠ .none) ∧ (star = false → SupportedL args) ∧ SupportedO filter
  | .over name args _ _ filter part order _ _ => dotted name ≠ "" ∧ SupportedL args ∧ SupportedL part ∧ SupportedL order ∧ SupportedO filter
  | .coalesce args => SupportedL args
  | .cast e names mods _ => Supported e ∧ SupportedL mods ∧ (names.length = 1 ∨ names.length = 2)
  | .case arg whens thens dflt => SupportedO arg ∧ SupportedL whens ∧ SupportedL thens ∧ SupportedO dflt ∧ whens ≠ .nil
  | .link .existsLink _ t _ | .link .exprLink _ t _ => SupportedO t
  | .link .anyLink oper t _ => SupportedO t ∧ oper = none ∧ t ≠ .none
  | .link _ _ _ _ => False
  | .index a l u true => Supported a ∧ SupportedO l ∧ SupportedO u ∧ (l ≠ .none ∨ u ≠ .none)
  | .index a l u false => Supported a ∧ SupportedO l ∧ SupportedO u ∧ u ≠ .none
  | .array es => SupportedL es

def SupportedL : REs Q → Prop
  | .nil => True
  | .cons e es => Supported e ∧ SupportedL es

def SupportedO : REo Q → Prop
  | .none => True
  | .some e => Supported e

end

theorem isSome_bind {α β : Type} (o : Option α) (f : α → Option β) : (o.bind f).isSome = true ↔ ∃ x, o = some x ∧ (f x).isSome = true := by
  cases o <;> simp

theorem isSome_iff {α : Type} (o : Option α) : o.isSome = true ↔ ∃ x, o = some x := Option.isSome_iff_exists

theorem operator_arith (s : String) : (∃ o, operatorMap.lookup s = some (.math o)) ↔ s ∈ arithmetic := by
  constructor
  · rintro ⟨o, h⟩
    rw [← operator_math h]
    cases o <;> simp [mathSymbol, arithmetic]
  · intro h
    simp [arithmetic] at h
    rcases h with rfl | rfl | rfl | rfl | rfl | rfl <;> simp [operatorMap, List.lookup]

theorem operator_comp (s : String) : (∃ o, operatorMap.lookup s = some (.logical o)) ↔ s ∈ comparisons := by
  constructor
  · rintro ⟨o, h⟩
    have := lookup_mem s _ _ h
    simp [operatorMap] at this
    simp [comparisons]
    tauto
  · intro h
    simp [comparisons] at h
    rcases h with rfl | rfl | rfl | rfl | rfl | rfl | rfl | rfl | rfl | rfl | rfl | rfl <;> simp [operatorMap, List.lookup]

theorem mkFunc_isSome (name : List String) (args : List (Expr Q)) (d : Bool) (f : Option (Expr Q)) : (mkFunc (joinName name) args d f).isSome = true ↔ FuncOk name (d = true ∨ f ≠ none) := by
  rw [joinName_eq]
  unfold mkFunc FuncOk
  have : knownAggregates = aggregates := rfl
  rw [this]
  by_cases h : dotted name = ""
  · simp [h]
  · simp only [h, if_false, not_false_eq_true, true_and, ne_eq]
    by_cases h2 : (dotted name).toUpper ∈ aggregates
    · simp [h2]
    · cases d <;> cases f <;> simp [h2]

theorem parseL_nil {rs : REs Q} {l : List (Expr Q)} (h : parseL rs = some l) : l = [] ↔ rs = .nil := by
  cases rs with
  | nil => simp [parseL] at h; simp [h]
  | cons r rs =>
    simp only [parseL, Option.bind_eq_some_iff, Option.map_eq_some_iff] at h
    obtain ⟨_, _, _, _, rfl⟩ := h
    simp

theorem parsePs_nil {rs : REs Q} {l : List (Expr Q)} (h : parsePs rs = some l) : l = [] ↔ rs = .nil := by
  cases rs with
  | nil => simp [parsePs] at h; simp [h]
  | cons r rs =>
    simp only [parsePs, Option.bind_eq_some_iff, Option.map_eq_some_iff] at h
    obtain ⟨_, _, _, _, rfl⟩ := h
    simp

theorem parseL_two {rs : REs Q} {l : List (Expr Q)} (h : parseL rs = some l) : (∃ a b, l = [a, b]) ↔ ∃ a b, rs = .cons a (.cons b .nil) := by
  cases rs with
  | nil => simp [parseL] at h; subst h; simp
  | cons r rs =>
    simp only [parseL, Option.bind_eq_some_iff, Option.map_eq_some_iff] at h
    obtain ⟨x, _, xs, hxs, rfl⟩ := h
    cases rs with
    | nil => simp [parseL] at hxs; subst hxs; simp
    | cons r2 rs =>
      simp only [parseL, Option.bind_eq_some_iff, Option.map_eq_some_iff] at hxs
      obtain ⟨y, _, ys, hys, rfl⟩ := hxs
      have := parseL_nil hys
      simp [this]

theorem parsePs_length {rs : REs Q} {l : List (Expr Q)} (h : parsePs rs = some l) : (l.length = 1 ↔ ∃ a, rs = .cons a .nil) ∧ (¬ l.length < 2 ↔ ∃ a b t, rs = .cons a (.cons b t)) := by
  cases rs with
  | nil => simp [parsePs] at h; subst h; simp
  | cons r rs =>
    simp only [parsePs, Option.bind_eq_some_iff, Option.map_eq_some_iff] at h
    obtain ⟨x, _, xs, hxs, rfl⟩ := h
    cases rs with
    | nil => simp [parsePs] at hxs; subst hxs; simp
    | cons r2 rs =>
      simp only [parsePs, Option.bind_eq_some_iff, Option.map_eq_some_iff] at hxs
      obtain ⟨y, _, ys, hys, rfl⟩ := hxs
      simp

theorem parseO_none {r : REo Q} {o : Option (Expr Q)} (h : parseO r = some o) : o = none ↔ r = .none := by
  cases r with
  | none => simp [parseO] at h; simp [← h]
  | some r =>
    simp only [parseO, Option.map_eq_some_iff] at h
    obtain ⟨_, _, rfl⟩ := h
    simp

theorem parseP_none {r : REo Q} {o : Option (Expr Q)} (h : parseP r = some o) : o = none ↔ r = .none := by
  cases r with
  | none => simp [parseP] at h; simp [← h]
  | some r =>
    simp only [parseP, Option.map_eq_some_iff] at h
    obtain ⟨_, _, rfl⟩ := h
    simp

theorem head_cases (name : List String) (l : Expr Q) (items : List (Expr Q)) (hi : items ≠ []) : (mkAList .inList name l items).isSome = true ↔ ∃ t, name = "=" :: t ∨ name = "<>" :: t := by
  cases name with
  | nil => simp [mkAList, hi]
  | cons n t =>
    by_cases h1 : n = "="
    · subst h1; simp [mkAList, hi]
    · by_cases h2 : n = "<>"
      · subst h2; simp [mkAList, hi]
      · simp [mkAList, hi, h1, h2]

theorem parseOperator_iff (name : List String) (o : SqlOp) : parseOperator name = some o ↔ ∃ s, name = [s] ∧ operatorMap.lookup s = some o := by
  unfold parseOperator
  split
  · simp
  · rename_i h
    constructor
    · intro h; simp at h
    · rintro ⟨s, rfl, _⟩; exact absurd rfl (h s)

theorem op1_iff (name : List String) (r : Expr Q) : (mkAExpr .op name none r).isSome = true ↔ ∃ s ∈ arithmetic, name = [s] := by
  have : (mkAExpr .op name none r).isSome = true ↔ ∃ o, parseOperator name = some (.math o) := by
    cases h : parseOperator name with
    | none => simp [mkAExpr, h]
    | some o => cases o <;> simp [mkAExpr, h]
  rw [this]
  constructor
  · rintro ⟨o, ho⟩
    obtain ⟨s, rfl, hs⟩ := (parseOperator_iff _ _).1 ho
    exact ⟨s, (operator_arith s).1 ⟨o, hs⟩, rfl⟩
  · rintro ⟨s, hs, rfl⟩
    obtain ⟨o, ho⟩ := (operator_arith s).2 hs
    exact ⟨o, (parseOperator_iff _ _).2 ⟨s, rfl, ho⟩⟩

theorem op2_iff (name : List String) (l r : Expr Q) : (mkAExpr .op name (some l) r).isSome = true ↔ ∃ s ∈ arithmetic ++ comparisons, name = [s] := by
  have : (mkAExpr .op name (some l) r).isSome = true ↔ (∃ o, parseOperator name = some (.math o)) ∨ ∃ o, parseOperator name = some (.logical o) := by
    cases h : parseOperator name with
    | none => simp [mkAExpr, h]
    | some o => cases o <;> simp [mkAExpr, h]
  rw [this]
  constructor
  · rintro (⟨o, ho⟩ | ⟨o, ho⟩)
    · obtain ⟨s, rfl, hs⟩ := (parseOperator_iff _ _).1 ho
      exact ⟨s, List.mem_append_left _ ((operator_arith s).1 ⟨o, hs⟩), rfl⟩
    · obtain ⟨s, rfl, hs⟩ := (parseOperator_iff _ _).1 ho
      exact ⟨s, List.mem_append_right _ ((operator_comp s).1 ⟨o, hs⟩), rfl⟩
  · rintro ⟨s, hs, rfl⟩
    rcases List.mem_append.1 hs with hs | hs
    · obtain ⟨o, ho⟩ := (operator_arith s).2 hs
      exact .inl ⟨o, (parseOperator_iff _ _).2 ⟨s, rfl, ho⟩⟩
    · obtain ⟨o, ho⟩ := (operator_comp s).2 hs
      exact .inr ⟨o, (parseOperator_iff _ _).2 ⟨s, rfl, ho⟩⟩

theorem quant_iff (k : AKind) (hk : k = .opAny ∨ k = .opAll) (name : List String) (l r : Expr Q) : (mkAExpr k name (some l) r).isSome = true ↔ ∃ s ∈ comparisons, name = [s] := by
  have : (mkAExpr k name (some l) r).isSome = true ↔ ∃ o, parseOperator name = some (.logical o) := by
    rcases hk with rfl | rfl <;>
    · cases h : parseOperator name with
      | none => simp [mkAExpr, h]
      | some o => cases o <;> simp [mkAExpr, h]
  rw [this]
  constructor
  · rintro ⟨o, ho⟩
    obtain ⟨s, rfl, hs⟩ := (parseOperator_iff _ _).1 ho
    exact ⟨s, (operator_comp s).1 ⟨o, hs⟩, rfl⟩
  · rintro ⟨s, hs, rfl⟩
    obtain ⟨o, ho⟩ := (operator_comp s).2 hs
    exact ⟨o, (parseOperator_iff _ _).2 ⟨s, rfl, ho⟩⟩

theorem exists_some_and {α : Type} {o : Option α} {p q : Prop} (ho : o.isSome = true ↔ p) {f : α → Prop} (hf : ∀ x, o = some x → (f x ↔ q)) : (∃ x, o = some x ∧ f x) ↔ p ∧ q := by
  rw [← ho]
  constructor
  · rintro ⟨x, hx, h⟩
    exact ⟨by simp [hx], (hf x hx).1 h⟩
  · rintro ⟨hp, hq⟩
    obtain ⟨x, hx⟩ := Option.isSome_iff_exists.1 hp
    exact ⟨x, hx, (hf x hx).2 hq⟩

mutual

theorem parse_isSome : ∀ r : RE Q, (parse r).isSome = true ↔ Supported r
  | .colRef c => by simp [parse, Supported]
  | .star t => by simp [parse, Supported]
  | .const v => by simp [parse, Supported]
  | .other n => by simp [parse, Supported]
  | .aexpr k name l r => by
    have ihr := parse_isSome r
    cases l with
    | none =>
      have : parse (.aexpr k name .none r) = (parse r).bind fun r' => mkAExpr k name none r' := by simp [parse, parseO]
      rw [this, isSome_bind]
      cases k with
      | op => simp only [Supported]; exact exists_some_and ihr fun x _ => op1_iff name x
      | opAny =>
        simp only [Supported, iff_false]
        rintro ⟨x, _, h⟩
        simp only [mkAExpr] at h
        split at h <;> simp_all
      | opAll =>
        simp only [Supported, iff_false]
        rintro ⟨x, _, h⟩
        simp only [mkAExpr] at h
        split at h <;> simp_all
      | _ => simp [Supported, mkAExpr]
    | some l =>
      have ihl := parse_isSome l
      have : parse (.aexpr k name (.some l) r) = (parse r).bind fun r' => (parse l).bind fun l' => mkAExpr k name (some l') r' := by
        simp only [parse, parseO]
        cases parse l <;> simp
      rw [this, isSome_bind]
      simp only [isSome_bind]
      cases k with
      | op =>
        simp only [Supported]
        rw [exists_some_and ihr fun x _ => exists_some_and ihl fun y _ => op2_iff name y x]
        tauto
      | like =>
        simp only [Supported]
        rw [exists_some_and ihr fun x _ => exists_some_and (q := name ≠ []) ihl fun y _ => by cases name <;> simp [mkAExpr]]
        tauto
      | ilike =>
        simp only [Supported]
        rw [exists_some_and ihr fun x _ => exists_some_and (q := name ≠ []) ihl fun y _ => by cases name <;> simp [mkAExpr]]
        tauto
      | distinct =>
        simp only [Supported]
        rw [exists_some_and ihr fun x _ => exists_some_and (q := True) ihl fun y _ => by simp [mkAExpr]]
        tauto
      | notDistinct =>
        simp only [Supported]
        rw [exists_some_and ihr fun x _ => exists_some_and (q := True) ihl fun y _ => by simp [mkAExpr]]
        tauto
      | opAny =>
        simp only [Supported]
        rw [exists_some_and ihr fun x _ => exists_some_and ihl fun y _ => quant_iff .opAny (.inl rfl) name y x]
        tauto
      | opAll =>
        simp only [Supported]
        rw [exists_some_and ihr fun x _ => exists_some_and ihl fun y _ => quant_iff .opAll (.inr rfl) name y x]
        tauto
      | nullif => simp [Supported, mkAExpr]
      | similar => simp [Supported, mkAExpr]
  | .alist k name l items => by
    have ihl := parse_isSome l
    have ihi := parseL_isSome items
    simp only [parse, isSome_bind]
    cases k with
    | between =>
      simp only [Supported]
      refine exists_some_and ihl fun x _ => exists_some_and ihi fun is his => ?_
      rw [← parseL_two his]
      simp only [mkAList]
      split
      · simp
      · rename_i h
        simp only [Option.isSome_none, Bool.false_eq_true, false_iff]
        rintro ⟨a, b, rfl⟩
        exact h a b rfl
    | inList =>
      simp only [Supported]
      refine exists_some_and ihl fun x _ => exists_some_and ihi fun is his => ?_
      by_cases hi : is = []
      · have := (parseL_nil his).1 hi
        subst hi
        simp [mkAList, this]
      · rw [head_cases name x is hi]
        have := mt (parseL_nil his).2 hi
        simp [this]
    | notBetween => simp [Supported, mkAList]
    | betweenSym => simp [Supported, mkAList]
    | notBetweenSym => simp [Supported, mkAList]
  | .bool op args => by
    have ih := parsePs_isSome args
    simp only [parse, isSome_bind]
    cases op with
    | notExpr =>
      simp only [Supported]
      refine exists_some_and ih fun l hl => ?_
      rw [← (parsePs_length hl).1]
      simp only [boolOp, mkCompound]
      split <;> simp_all
    | andExpr =>
      simp only [Supported]
      refine exists_some_and ih fun l hl => ?_
      rw [← (parsePs_length hl).2]
      simp only [boolOp, mkCompound]
      split <;> simp_all
    | orExpr =>
      simp only [Supported]
      refine exists_some_and ih fun l hl => ?_
      rw [← (parsePs_length hl).2]
      simp only [boolOp, mkCompound]
      split <;> simp_all
  | .nullTest b a => by
    have ih := parse_isSome a
    simp [parse, Supported, ih]
  | .call name args star d order filter => by
    have iha := parseL_isSome args
    have ihf := parseP_isSome filter
    simp only [parse, isSome_bind, Supported]
    cases star with
    | true =>
      simp only [if_true]
      rw [exists_some_and (q := FuncOk name (d = true ∨ filter ≠ .none)) ihf fun f hf => by rw [mkFunc_isSome, ne_eq, ne_eq, parseP_none hf]]
      simp
      tauto
    | false =>
      simp only [Bool.false_eq_true, if_false, isSome_bind]
      rw [exists_some_and ihf fun f hf => exists_some_and (q := FuncOk name (d = true ∨ filter ≠ .none)) iha fun as _ => by rw [mkFunc_isSome, ne_eq, ne_eq, parseP_none hf]]
      simp
      tauto
  | .over name args star d filter part order dirs fr => by
    have iha := parseL_isSome args
    have ihf := parseP_isSome filter
    have ihp := parseL_isSome part
    have iho := parseL_isSome order
    simp only [parse, isSome_bind, Supported, Option.isSome_map]
    rw [exists_some_and iha fun as _ => exists_some_and (p := dotted name ≠ "") (by rw [mkFunc_isSome]; simp [FuncOk]) fun fn _ =>
      exists_some_and ihp fun p _ => exists_some_and iho fun o _ => ihf]
    tauto
  | .coalesce args => by
    have ih := parseL_isSome args
    simp only [parse, isSome_bind, Supported]
    rw [exists_some_and (q := True) ih fun as _ => by simp [mkFunc]]
    simp
  | .cast a names mods arr => by
    have iha := parse_isSome a
    have ihm := parseL_isSome mods
    simp only [parse, isSome_bind, Supported, Option.isSome_map]
    rw [exists_some_and iha fun x _ => exists_some_and (p := names.length = 1 ∨ names.length = 2) (by
      unfold parseType
      rcases names with _ | ⟨a, _ | ⟨b, _ | ⟨c, t⟩⟩⟩ <;> simp) fun ty _ => ihm]
    tauto
  | .case a w t d => by
    have iha := parseO_isSome a
    have ihw := parsePs_isSome w
    have iht := parseL_isSome t
    have ihd := parseO_isSome d
    simp only [parse, isSome_bind, Supported]
    rw [exists_some_and ihw fun ws hws => exists_some_and iht fun ts _ => exists_some_and iha fun x _ => exists_some_and (q := w ≠ .nil) ihd fun y _ => by
      rw [ne_eq, ← parsePs_nil hws]
      split <;> simp_all]
    tauto
  | .link k o t q => by
    have ih := parseO_isSome t
    simp only [parse, isSome_bind]
    cases k with
    | existsLink =>
      simp only [Supported]
      rw [exists_some_and (q := True) ih fun x _ => by simp [mkLink]]
      simp
    | exprLink =>
      simp only [Supported]
      rw [exists_some_and (q := True) ih fun x _ => by simp [mkLink]]
      simp
    | anyLink =>
      simp only [Supported]
      refine exists_some_and ih fun x hx => ?_
      rw [ne_eq, ← parseO_none hx]
      cases o <;> cases x <;> simp [mkLink]
    | allLink => simp [Supported, mkLink]
    | arrayLink => simp [Supported, mkLink]
  | .index a l u s => by
    have iha := parse_isSome a
    have ihl := parseO_isSome l
    have ihu := parseO_isSome u
    simp only [parse, isSome_bind]
    cases s with
    | true =>
      simp only [Supported]
      refine exists_some_and iha fun x _ => exists_some_and ihl fun y hy => exists_some_and ihu fun z hz => ?_
      rw [ne_eq, ne_eq, ← parseO_none hy, ← parseO_none hz]
      cases y <;> cases z <;> simp [mkIndex]
    | false =>
      simp only [Supported]
      refine exists_some_and iha fun x _ => exists_some_and ihl fun y hy => exists_some_and ihu fun z hz => ?_
      rw [ne_eq, ← parseO_none hz]
      cases z <;> simp [mkIndex]
  | .array es => by
    have ih := parseL_isSome es
    simp [parse, Supported, ih]

theorem parseL_isSome : ∀ rs : REs Q, (parseL rs).isSome = true ↔ SupportedL rs
  | .nil => by simp [parseL, SupportedL]
  | .cons r rs => by
    have h1 := parse_isSome r
    have h2 := parseL_isSome rs
    simp only [parseL, isSome_bind, SupportedL, Option.isSome_map]
    exact exists_some_and h1 fun _ _ => h2

theorem parsePs_isSome : ∀ rs : REs Q, (parsePs rs).isSome = true ↔ SupportedL rs
  | .nil => by simp [parsePs, SupportedL]
  | .cons r rs => by
    have h1 := parse_isSome r
    have h2 := parsePs_isSome rs
    simp only [parsePs, isSome_bind, SupportedL, Option.isSome_map]
    exact exists_some_and h1 fun _ _ => h2

theorem parseO_isSome : ∀ r : REo Q, (parseO r).isSome = true ↔ SupportedO r
  | .none => by simp [parseO, SupportedO]
  | .some r => by
    have h1 := parse_isSome r
    simp [parseO, SupportedO, h1]

theorem parseP_isSome : ∀ r : REo Q, (parseP r).isSome = true ↔ SupportedO r
  | .none => by simp [parseP, SupportedO]
  | .some r => by
    have h1 := parse_isSome r
    simp [parseP, SupportedO, h1]

end

/-- **C160.** Exactly the supported expressions are translated; all others raise an error. -/
theorem C160_accepted (r : RE Q) : ((parse r).isSome = true ↔ Supported r) ∧ ((parseCondition r).isSome = true ↔ Supported r) := by
  refine ⟨parse_isSome r, ?_⟩
  rw [← parse_isSome r]
  simp [parseCondition]

example : Supported sample := (C160_accepted sample).1.1 (by decide +kernel)

/-- NOT BETWEEN, BETWEEN SYMMETRIC, `> ALL (SELECT …)`, ARRAY(SELECT …) and NULLIF are not supported. -/
example : ¬ Supported (.alist .notBetween ["NOT BETWEEN"] c1 (.cons five (.cons five .nil))) ∧ ¬ Supported (.alist .betweenSym ["BETWEEN SYMMETRIC"] c1 (.cons five (.cons five .nil))) ∧
    ¬ Supported (.link .allLink (some [">"]) (.some c1) ()) ∧ ¬ Supported (.link .anyLink (some ["="]) (.some c1) ()) ∧ ¬ Supported (.link .arrayLink none .none ()) ∧
    ¬ Supported (.aexpr .nullif ["="] (.some c1) five) := by
  simp [Supported]

end PB.PExpProps
