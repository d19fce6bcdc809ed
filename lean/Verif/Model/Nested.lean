import Mathlib.Data.List.Basic

/-! Model of nested table sequences (postbound/opt/_helpers.py). -/

namespace PB.Nested

/-- Tables (postbound/_core.py:681-697). -/
structure Table where
  fullName : String
  alia : String
  virt : Bool
  schema : String
deriving DecidableEq

/-- `NestedTableSequence` (postbound/opt/_helpers.py:255-257), with lists of any length. -/
inductive Seq
  | table (t : Table)
  | seq (l : List Seq)

/-- JSON values: objects with the fields that are looked up, lists and others. -/
inductive Json
  | obj (fullName alia : Option String) (virt : Option Bool) (schema : Option String)
  | list (l : List Json)
  | other

/-- `TableReference(full_name, alias)` (postbound/_core.py:681-697); `none` is a `ValueError`. -/
def mkTable (fullName alia : String) : Option Table :=
  if fullName = "" ∧ alia = "" then none else some ⟨fullName, alia, false, ""⟩

mutual
/-- `parse_nested_table_sequence` (postbound/opt/_helpers.py:280-306); `none` is an exception. -/
def parse : Json → Option Seq
  | .list l => (parseAll l).map .seq
  | .obj none _ _ _ => none
  | .obj (some n) a _ _ => (mkTable n (a.getD "")).map .table
  | .other => none

/-- The list comprehension (postbound/opt/_helpers.py:301). -/
def parseAll : List Json → Option (List Seq)
  | [] => some []
  | j :: l => match parse j with
    | none => none
    | some s => (parseAll l).map (s :: ·)
end

/-- `TableReference.__json__` (postbound/_core.py:889-895). -/
def tableJson (t : Table) : Json := .obj (some t.fullName) (some t.alia) (some t.virt) (some t.schema)

mutual
/-- `to_json` of a nested sequence and `json.loads` of its result (postbound/util/jsonize.py:59-67): tuples and lists become lists. -/
def toJson : Seq → Json
  | .table t => tableJson t
  | .seq l => .list (toJsonAll l)

/-- The elements of a list. -/
def toJsonAll : List Seq → List Json
  | [] => []
  | s :: l => toJson s :: toJsonAll l
end

/-- Join trees without annotations (postbound/_qep.py `JoinTree`). -/
inductive Tree
  | scan (t : Table)
  | join (outer inner : Tree)
deriving DecidableEq

/-- `jointree_from_sequence` (postbound/opt/_helpers.py:630-639); `none` is the error of unpacking a list that does not have two elements. -/
def fromSeq : Seq → Option Tree
  | .table t => some (.scan t)
  | .seq [o, i] => match fromSeq o with
    | none => none
    | some o => (fromSeq i).map (.join o)
  | .seq _ => none

end PB.Nested
