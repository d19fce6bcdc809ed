import Verif.Model.PlanText

/-! Model of the outline of a query: `SqlQuery.ast` and `SetQuery.ast` (postbound/qal/_qal.py:8268-8387, 9139-9149, 9972-9982). -/

namespace PB.QueryAst
open PB.PlanText (Text join)

/-- The objects that `_create_ast` distinguishes (postbound/qal/_qal.py:8272-8387), each with the parts that are read there and with
some that are not. Classes that are treated alike carry their names; `text` is the text of an object. -/
inductive Item
  /-- conjunctions and disjunctions -/
  | compound (op : Text) (cs : List Item)
  | negation (c : Item)
  | unary (op : Option Text) (c : Item)
  | binary (op : Text) (l r : Item)
  /-- BETWEEN and IN predicates with the result of `iterexpressions` -/
  | pred (cls : Text) (es : List Item)
  | col (text : Text)
  | cast (ty : Text) (params : List Item) (arr : Bool) (c : Item)
  | quant (q : Text) (c : Item)
  | func (name : Text) (distinct : Bool) (filter : Option Item) (args : List Item)
  /-- all other expressions with the result of `iterchildren` -/
  | expr (cls text : Text) (cs : List Item)
  | where_ (p : Item)
  | having (p : Item)
  | table (name : Text)
  | joined (ty : Text) (cond : Option Item) (l r : Item)
  | subquery (name : Option Text) (q : Item)
  | values
  | fnTable (f : Item)
  | from_ (cls : Text) (items : List Item)
  | ctes (qs : List Item)
  /-- all other clauses with the result of `iterexpressions` -/
  | clause (cls : Text) (es : List Item)
  | valuesCte
  | withQuery (name : Text) (q : Item)
  | setQuery (op : Text) (rest : List Item) (l r : Item)
  | query (cls : Text) (clauses : List Item)

/-- The characters of a text. -/
@[irreducible] def chars (s : String) : Text := s.toList

/-- Names of the classes (`type(item).__name__`, postbound/qal/_qal.py:8271). -/
def cCompound : Text := chars "CompoundPredicate"
@[inherit_doc cCompound] def cUnary : Text := chars "UnaryPredicate"
@[inherit_doc cCompound] def cBinary : Text := chars "BinaryPredicate"
@[inherit_doc cCompound] def cColumn : Text := chars "ColumnExpression"
@[inherit_doc cCompound] def cCast : Text := chars "CastExpression"
@[inherit_doc cCompound] def cQuant : Text := chars "QuantifierExpression"
@[inherit_doc cCompound] def cFunc : Text := chars "FunctionExpression"
@[inherit_doc cCompound] def cWhere : Text := chars "Where"
@[inherit_doc cCompound] def cTable : Text := chars "DirectTableSource"
@[inherit_doc cCompound] def cJoin : Text := chars "JoinTableSource"
@[inherit_doc cCompound] def cSubquery : Text := chars "SubqueryTableSource"
@[inherit_doc cCompound] def cValues : Text := chars "ValuesTableSource"
@[inherit_doc cCompound] def cCtes : Text := chars "CommonTableExpression"
@[inherit_doc cCompound] def cValuesCte : Text := chars "ValuesWithQuery"
@[inherit_doc cCompound] def cWith : Text := chars "WithQuery"
@[inherit_doc cCompound] def cSet : Text := chars "SetQuery"

/-- `f"{item_str} [{x}]"`. -/
def tag (cls x : Text) : Text := cls ++ ' ' :: '[' :: (x ++ [']'])

/-- `f"{prefix}+-{item_str}"`. -/
def leaf (ind : Nat) (label : Text) : Text := List.replicate ind ' ' ++ '+' :: '-' :: label

/-- `f"{prefix}+-{item_str}\n{child_str}"` with `"\n".join(children)`. -/
def node (ind : Nat) (label : Text) (kids : List Text) : Text := leaf ind label ++ '\n' :: join ['\n'] kids

mutual
/-- `_create_ast` (postbound/qal/_qal.py:8268-8387). `none`: an exception. `Having` has no attribute `predicate`
(postbound/qal/_qal.py:8336-8338, 7308-7317), and no case matches a `FunctionTableSource` (postbound/qal/_qal.py:8386-8387). -/
def create (ind : Nat) : Item → Option Text
  | .compound op cs => (createAll (ind + 2) cs).map (node ind (tag cCompound op))
  | .negation c => (create (ind + 2) c).map fun t => node ind (tag cCompound ['N', 'O', 'T']) [t]
  | .unary (some op) c => (create (ind + 2) c).map fun t => node ind (tag cUnary op) [t]
  | .unary none c => (create (ind + 2) c).map fun t => node ind cUnary [t]
  | .binary op l r => (create (ind + 2) l).bind fun a => (create (ind + 2) r).map fun b => node ind (tag cBinary op) [a, b]
  | .pred cls es => (createAll (ind + 2) es).map (node ind cls)
  | .col text => some (List.replicate ind ' ' ++ '+' :: ' ' :: tag cColumn text)
  | .cast ty _ arr c => (create (ind + 2) c).map fun t => node ind (tag cCast (if arr then ty ++ ['[', ']'] else ty)) [t]
  | .quant q c => (create (ind + 2) c).map fun t => node ind (tag cQuant q) [t]
  | .func name _ _ args => (createAll (ind + 2) args).map (node ind (tag cFunc name))
  | .expr cls text [] => some (leaf ind (tag cls text))
  | .expr cls _ (c :: cs) => (create (ind + 2) c).bind fun t => (createAll (ind + 2) cs).map fun ts => node ind cls (t :: ts)
  | .where_ p => (create (ind + 2) p).map fun t => node ind cWhere [t]
  | .having _ => none
  | .table name => some (leaf ind (tag cTable name))
  | .joined _ _ l r => (create (ind + 2) l).bind fun a => (create (ind + 2) r).map fun b => node ind cJoin [a, b]
  | .subquery (some name) q => (create (ind + 2) q).map fun t => node ind (tag cSubquery name) [t]
  | .subquery none q => (create (ind + 2) q).map fun t => node ind cSubquery [t]
  | .values => some (leaf ind cValues)
  | .fnTable _ => none
  | .from_ cls items => (createAll (ind + 2) items).map (node ind cls)
  | .ctes qs => (createAll (ind + 2) qs).map (node ind cCtes)
  | .clause cls es => (createAll (ind + 2) es).map (node ind cls)
  | .valuesCte => some (leaf ind cValuesCte)
  | .withQuery name q => (create (ind + 2) q).map fun t => node ind (tag cWith name) [t]
  | .setQuery _ _ l r => (create (ind + 2) l).bind fun a => (create (ind + 2) r).map fun b => node ind cSet [a, b]
  | .query cls clauses => (createAll (ind + 2) clauses).map (node ind cls)

/-- The list comprehensions over children (for example postbound/qal/_qal.py:8275-8277). -/
def createAll (ind : Nat) : List Item → Option (List Text)
  | [] => some []
  | c :: cs => (create ind c).bind fun t => (createAll ind cs).map fun ts => t :: ts
end

/-- `SqlQuery.ast` and `SetQuery.ast` (postbound/qal/_qal.py:9139-9149, 9972-9982). -/
def ast (q : Item) : Option Text := create 0 q

end PB.QueryAst
