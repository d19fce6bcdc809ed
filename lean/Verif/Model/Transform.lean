import Verif.Model.Pred

/-! Model of the query transformations of postbound/transform.py that work on predicates and expressions. An exception
is modelled by `none`. Sets of predicates are iterated in an arbitrary order, which is a parameter (`ord`). -/

namespace PB.Transform
open PB PB.Qal PB.Qal.Expr

variable {Q : Type}

/-! ### Flattening of conjunctions -/

/-- What a flattened nested conjunction contributes to the set of its parent (postbound/transform.py:158-162). The
children of a NOT are a single predicate, which cannot be iterated. -/
def contribution : Expr Q → Option (List (Expr Q))
  | .compound .not _ => none
  | .compound _ cs => some cs
  | e => some [e]

/-- `isinstance(p, CompoundPredicate) and p.operation == And` (postbound/transform.py:147-150, 154-157) -/
def isAnd : Expr Q → Bool
  | .compound .and _ => true
  | _ => false

mutual
/-- `flatten_and_predicate` (postbound/transform.py:125-169). The set of predicates is the deduplicated list in the
order `ord`. -/
def flattenAnd [DecidableEq Q] (ord : List (Expr Q) → List (Expr Q)) : Expr Q → Option (Expr Q)
  | .compound .and cs => (flattenParts ord cs).bind fun ps => createAnd (ord ps.dedup)
  | e => some e
/-- The loop over the children in `flatten_and_predicate` (postbound/transform.py:152-164) -/
def flattenParts [DecidableEq Q] (ord : List (Expr Q) → List (Expr Q)) : List (Expr Q) → Option (List (Expr Q))
  | [] => some []
  | c :: cs =>
    (if isAnd c then (flattenAnd ord c).bind contribution else some [c]).bind fun ps =>
      (flattenParts ord cs).map fun qs => ps ++ qs
end

/-! ### Explicit joins -/

/-- The table sources of an `ExplicitSqlQuery` as distinguished by `explicit_to_implicit`
(postbound/transform.py:199-215): a table, an inner join with its condition, anything else. -/
inductive Source (Q : Type) where
  | direct (t : Tab)
  | inner (l r : Source Q) (cond : Expr Q)
  | other

/-- The loop of `explicit_to_implicit` (postbound/transform.py:192-215). The working set is a stack, its top comes
first. The result are the tables and the additional predicates. -/
def implicitLoop : List (Source Q) → Option (List Tab × List (Expr Q))
  | [] => some ([], [])
  | .direct t :: ws => (implicitLoop ws).map fun r => (t :: r.1, r.2)
  | .inner l r c :: ws => (implicitLoop (r :: l :: ws)).map fun x => (x.1, c :: x.2)
  | .other :: _ => none
termination_by ws => (ws.map sizeOf).sum
decreasing_by all_goals simp; omega

/-- `explicit_to_implicit` (postbound/transform.py:172-238): the tables of the FROM clause and the WHERE predicate of
the result. The other clauses are copied. -/
def explicitToImplicit [DecidableEq Q] (ord : List (Expr Q) → List (Expr Q)) (from_ : List (Source Q))
    (where_ : Option (Expr Q)) : Option (List Tab × Expr Q) :=
  (implicitLoop from_.reverse).bind fun r =>
    (createAnd (where_.toList ++ r.2)).bind fun p => (flattenAnd ord p).map fun f => (r.1, f)

/-! ### Fragments -/

/-- `CompoundPredicate.__init__` (postbound/qal/_qal.py:3246-3259) -/
def mkCompound (op : CompOp) (cs : List (Expr Q)) : Option (Expr Q) :=
  match op, cs with
  | _, [] => none
  | .not, _ :: _ :: _ => none
  | .and, [_] => none
  | .or, [_] => none
  | op, cs => some (.compound op cs)

/-- Merging the parts of a compound predicate that remain (postbound/transform.py:283-292, 824-830): none at all,
a single one, or a new compound predicate. -/
def collapse (op : CompOp) : List (Expr Q) → Option (Option (Expr Q))
  | [] => some none
  | [p] => some (some p)
  | ps => (mkCompound op ps).map some

mutual
/-- `_get_predicate_fragment` (postbound/transform.py:241-292). The outer `none` is an exception: the child of a NOT
cannot be iterated. -/
def fragment (ops : QOps Q) (ts : Finset Tab) : Expr Q → Option (Option (Expr Q))
  | .compound op cs =>
    if op = .not then none else (fragments ops ts cs).bind fun fs => collapse op fs.reduceOption
  | e => some (if e.tables ops ⊆ ts then some e else none)
/-- The fragments of the children of a compound predicate (postbound/transform.py:279-282) -/
def fragments (ops : QOps Q) (ts : Finset Tab) : List (Expr Q) → Option (List (Option (Expr Q)))
  | [] => some []
  | c :: cs => (fragment ops ts c).bind fun f => (fragments ops ts cs).map fun fs => f :: fs
end

/-! ### Removing and replacing predicates -/

mutual
/-- `remove_predicate` (postbound/transform.py:789-830) for a predicate that is not None. `eq` is the equality of
predicates with the predicate to remove; inner `none` is Python's `None`, outer `none` an exception. -/
def removePred (eq : Expr Q → Bool) : Expr Q → Option (Option (Expr Q))
  | .compound op cs =>
    if eq (.compound op cs) then some none
    else if op = .not then
      (removePreds eq cs).bind fun rs => match rs with
        | [some c] => (mkCompound .not [c]).map some
        | [none] => some none
        | _ => none
    else (removePreds eq cs).bind fun rs => collapse op rs.reduceOption
  | e => some (if eq e then none else some e)
/-- The updated children of a compound predicate (postbound/transform.py:816-823) -/
def removePreds (eq : Expr Q → Bool) : List (Expr Q) → Option (List (Option (Expr Q)))
  | [] => some []
  | c :: cs => (removePred eq c).bind fun f => (removePreds eq cs).map fun fs => f :: fs
end

mutual
/-- `_perform_predicate_replacement` (postbound/transform.py:1236-1278) -/
def replacePred (eq : Expr Q → Bool) (new : Expr Q) : Expr Q → Option (Expr Q)
  | .compound op cs =>
    if eq (.compound op cs) then some new else (replacePreds eq new cs).bind fun cs' => mkCompound op cs'
  | e => some (if eq e then new else e)
/-- The updated children of a compound predicate (postbound/transform.py:1262-1275) -/
def replacePreds (eq : Expr Q → Bool) (new : Expr Q) : List (Expr Q) → Option (List (Expr Q))
  | [] => some []
  | c :: cs => (replacePred eq new c).bind fun f => (replacePreds eq new cs).map fun fs => f :: fs
end

/-! ### Equivalence classes -/

/-- The WHERE predicate created by `add_ec_predicates` (postbound/transform.py:641-669) for a query whose predicates
are those of its WHERE clause (no CTEs, no explicit joins). `classes` are the equivalence classes of the joins in
their (arbitrary) iteration order. -/
def addEcPredicates (qp : QueryPreds Q) (classes : List (List Col)) : Option (Expr Q) :=
  createAnd (generatePredicates classes ++ qp.filters)

/-! ### Renaming of columns -/

mutual
/-- `rename_columns_in_expression` and `rename_columns_in_predicate` (postbound/transform.py:1429-1598, 1618-1693).
`ren` is the renaming in subqueries (`rename_columns_in_query`). -/
def renameE (ren : Q → Option Q) (ρ : Dict Col Col) : Expr Q → Option (Expr Q)
  | .static v => some (.static v)
  | .star t => some (.star t)
  | .col c => some (.col ((Dict.get? ρ c).getD c))
  | .cast e ty ps arr => (renameE ren ρ e).bind fun e' => (renameL ren ρ ps).map fun ps' => .cast e' ty ps' arr
  | .math op a bs =>
    (renameE ren ρ a).bind fun a' => if bs.length ≤ 1 then (renameL ren ρ bs).map fun bs' => .math op a' bs' else none
  | .arrGet a i l u =>
    (renameE ren ρ a).bind fun a' => (renameO ren ρ i).bind fun i' => (renameO ren ρ l).bind fun l' =>
      (renameO ren ρ u).map fun u' => .arrGet a' i' l' u'
  | .func n args d _ => (renameL ren ρ args).map fun args' => .func n args' d none
  | .subq q => (ren q).map .subq
  | .window fn p o ds f =>
    (renameE ren ρ fn).bind fun fn' => (renameL ren ρ p).bind fun p' => (renameL ren ρ o).bind fun o' =>
      if f.toList.all isPred then (renameO ren ρ f).map fun f' => .window fn' p' o' ds f' else none
  | .case w t s e =>
    if w.all isPred then
      (renameL ren ρ w).bind fun w' => (renameL ren ρ t).bind fun t' => (renameO ren ρ s).bind fun s' =>
        (renameO ren ρ e).map fun e' => .case w' t' s' e'
    else none
  | .quant q e => (renameE ren ρ e).map fun e' => .quant q e'
  | .array es => (renameL ren ρ es).map fun es' => .array es'
  | .binary op a b => (renameE ren ρ a).bind fun a' => (renameE ren ρ b).map fun b' => .binary op a' b'
  | .between e l u =>
    (renameE ren ρ e).bind fun e' => (renameE ren ρ l).bind fun l' => (renameE ren ρ u).map fun u' => .between e' l' u'
  | .inP e vs => (renameE ren ρ e).bind fun e' => (renameL ren ρ vs).map fun vs' => .inP e' vs'
  | .unary e op => (renameE ren ρ e).map fun e' => .unary e' op
  | .compound op cs =>
    if cs.all isPred then (renameL ren ρ cs).bind fun cs' => mkCompound op cs' else none
/-- Renaming in a list of expressions. -/
def renameL (ren : Q → Option Q) (ρ : Dict Col Col) : List (Expr Q) → Option (List (Expr Q))
  | [] => some []
  | e :: es => (renameE ren ρ e).bind fun e' => (renameL ren ρ es).map fun es' => e' :: es'
/-- Renaming in an optional expression. -/
def renameO (ren : Q → Option Q) (ρ : Dict Col Col) : Option (Expr Q) → Option (Option (Expr Q))
  | none => some none
  | some e => (renameE ren ρ e).map some
end

end PB.Transform
