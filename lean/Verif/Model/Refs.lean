import Mathlib.Data.String.Basic

/-!
Model of identifiers, `TableReference` and `ColumnReference` (postbound/_core.py:470-1158) and of the
JSON (de-)serialisation of references (postbound/parser.py:2379-2429).

`str.lower` is a parameter `norm : String → String` (Unicode case folding is not modelled); nothing
but its being a function is used.
-/

namespace PB

/-- The attributes of a `TableReference` (postbound/_core.py:694-697). The cached normalised names,
the hash value and the SQL text are functions of these. -/
structure TableRef where
  schema : String
  fullName : String
  als : String
  virt : Bool
  deriving DecidableEq, Repr

inductive RefError where
  | valueError
  | stateError
  deriving DecidableEq, Repr

namespace TableRef

/-- `TableReference.__init__` (postbound/_core.py:681-725): the two `ValueError` guards and the attributes. -/
def create (fullName als : String) (virt : Bool) (schema : String) : Except RefError TableRef :=
  if fullName = "" ∧ als = "" then .error .valueError
  else if schema ≠ "" ∧ fullName = "" then .error .valueError
  else .ok ⟨schema, fullName, als, virt⟩

/-- `identifier` (postbound/_core.py:699, 791-803). -/
def identifier (t : TableRef) : String := if t.als ≠ "" then t.als else t.fullName

/-- the tuple that is hashed (postbound/_core.py:705-711). -/
def hashKey (norm : String → String) (t : TableRef) : String × String × String :=
  (norm t.fullName, norm t.als, norm t.schema)

/-- `__eq__` (postbound/_core.py:905-911). -/
def beq (norm : String → String) (a b : TableRef) : Bool :=
  norm a.fullName == norm b.fullName && norm a.als == norm b.als &&
    norm a.schema == norm b.schema

/-- `__lt__` (postbound/_core.py:897-900). -/
def lt (norm : String → String) (a b : TableRef) : Bool :=
  decide (norm a.identifier < norm b.identifier)

/-- `drop_alias` (postbound/_core.py:823-839). -/
def dropAlias (t : TableRef) : Except RefError TableRef :=
  if t.virt then .error .stateError else create t.fullName "" false t.schema

/-- `with_alias` (postbound/_core.py:841-861); note that `schema` is not passed on. -/
def withAlias (t : TableRef) (als : String) : Except RefError TableRef :=
  if t.fullName = "" then .error .stateError else create t.fullName als t.virt ""

/-- `make_virtual` (postbound/_core.py:863-873). -/
def makeVirtual (t : TableRef) : Except RefError TableRef :=
  create t.fullName t.als true t.schema

/-- `update` (postbound/_core.py:875-887). An omitted keyword argument is `none` for the first three;
the default of `schema` is the empty string, `some ""`. -/
def update (t : TableRef) (fullName als : Option String) (virt : Option Bool)
    (schema : Option String) : Except RefError TableRef :=
  create (fullName.getD t.fullName) (als.getD t.als) (virt.getD t.virt) (schema.getD t.schema)

/-- The default value of the `schema` argument of `update` (postbound/_core.py:881). -/
def updateDefaultSchema : Option String := some ""

end TableRef

/-- The attributes of a `ColumnReference` (postbound/_core.py:1003-1009). -/
structure ColRef where
  name : String
  table : Option TableRef
  deriving DecidableEq, Repr

namespace ColRef

/-- Equality of optional tables (`None == None`, `None != table`). -/
def tabEq (norm : String → String) : Option TableRef → Option TableRef → Bool
  | none, none => true
  | some a, some b => TableRef.beq norm a b
  | _, _ => false

/-- `ColumnReference.__eq__` (postbound/_core.py:1137-1142). -/
def beq (norm : String → String) (a b : ColRef) : Bool :=
  norm a.name == norm b.name && tabEq norm a.table b.table

/-- the tuple that is hashed (postbound/_core.py:1009). -/
def hashKey (norm : String → String) (a : ColRef) : String × Option (String × String × String) :=
  (norm a.name, a.table.map (TableRef.hashKey norm))

/-- `ColumnReference.__lt__` (postbound/_core.py:1123-1132). -/
def lt (norm : String → String) (a b : ColRef) : Bool :=
  if tabEq norm a.table b.table then decide (norm a.name < norm b.name)
  else match a.table with
    | none => true
    | some ta => match b.table with
      | none => false
      | some tb => TableRef.lt norm ta tb

end ColRef

/-! ### JSON -/

/-- A JSON object whose values are strings/booleans: enough for references. -/
abbrev JObj := List (String × (String ⊕ Bool))

/-- `json_data.get(key, "")` for a string entry. -/
def JObj.getStr (o : JObj) (k : String) : String :=
  match o.lookup k with
  | some (.inl s) => s
  | _ => ""

/-- `json_data.get(key, False)` for a boolean entry. -/
def JObj.getBool (o : JObj) (k : String) : Bool :=
  match o.lookup k with
  | some (.inr b) => b
  | _ => false

/-- `TableReference.__json__` (postbound/_core.py:889-895). -/
def TableRef.toJson (t : TableRef) : JObj :=
  [("full_name", .inl t.fullName), ("alias", .inl t.als), ("virtual", .inr t.virt),
   ("schema", .inl t.schema)]

/-- `load_table_json` (postbound/parser.py:2379-2400) on a non-empty object; the schema is read from the
key `schemaname` (a missing key gives `None`, which `TableReference.__init__` turns into `""`). -/
def loadTableJson (o : JObj) : Except RefError TableRef :=
  TableRef.create (o.getStr "full_name") (o.getStr "alias") (o.getBool "virtual")
    (o.getStr "schemaname")

/-- `ColumnReference.__json__` (postbound/_core.py:1120-1121) as a pair of the two entries. -/
def ColRef.toJson (c : ColRef) : String × Option JObj := (c.name, c.table.map TableRef.toJson)

/-- `load_column_json` (postbound/parser.py:2411-2429). -/
def loadColumnJson (j : String × Option JObj) : Except RefError ColRef :=
  match j.2 with
  | none => if j.1 = "" then .error .valueError else .ok ⟨j.1, none⟩
  | some o => do
    let t ← loadTableJson o
    if j.1 = "" then .error .valueError else .ok ⟨j.1, some t⟩

/-! ### Quoting -/

/-- First character class of `_IdentifierPattern` (postbound/_core.py:470). -/
def identStart (c : Char) : Bool := ('a' ≤ c && c ≤ 'z') || c == '_'

/-- Remaining character class of `_IdentifierPattern` (postbound/_core.py:470). -/
def identRest (c : Char) : Bool :=
  ('a' ≤ c && c ≤ 'z') || ('0' ≤ c && c ≤ '9') || c == '_' || c == '$'

/-- `_IdentifierPattern.fullmatch` (postbound/_core.py:470). -/
def matchesIdent : List Char → Bool
  | [] => false
  | c :: cs => identStart c && cs.all identRest

/-- `quote` (postbound/_core.py:581-603). `isKeyword` stands for `identifier.upper() in SqlKeywords`
(postbound/_core.py:482-577). -/
def quoteIdent (isKeyword : List Char → Bool) (s : List Char) : List Char :=
  if s.isEmpty then []
  else if matchesIdent s && !isKeyword s then s else '"' :: (s ++ ['"'])

end PB
