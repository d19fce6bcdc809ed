import Verif.Model.Clauses
import Verif.Model.Transform

/-! Model of `replace_predicate` (postbound/transform.py:1281-1333) on entire queries. -/

namespace PB.ReplacePred
open PB.Qal PB.Clauses PB.Transform

variable {Q : Type}

/-- The content of a clause: the predicate of a WHERE or HAVING clause (postbound/qal/_qal.py:7125-7181, 7283-7340), or something else, which
`replace_predicate` passes on. -/
inductive Content (Q : Type) where
  | pred (e : Expr Q)
  | other (n : Nat)

deriving instance DecidableEq for Content

/-- `Where(replaced_predicate)` and `Having(replaced_predicate)` for a clause that is present (postbound/transform.py:1316-1330); outer `none` is an exception. -/
def newClause (eq : Expr Q → Bool) (new : Expr Q) : Option (Clause (Content Q)) → Option (Option (Clause (Content Q)))
  | some ⟨k, .pred e⟩ => (replacePred eq new e).map fun e' => some ⟨k, .pred e'⟩
  | _ => some none

/-- `replace_predicate` (postbound/transform.py:1281-1333). `eq` is the equality with `predicate_to_replace`; `none` is an exception. -/
def replacePredicate [DecidableEq Q] (eq : Expr Q → Bool) (new : Expr Q) (q : Query (Content Q)) : Option (Query (Content Q)) :=
  if (q.get .where_).isNone ∧ (q.get .having).isNone then some q
  else (newClause eq new (q.get .where_)).bind fun w => (newClause eq new (q.get .having)).bind fun h => replaceClause q (w.toList ++ h.toList)

end PB.ReplacePred
