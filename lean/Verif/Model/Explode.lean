import Verif.Model.QueryPlan

/-! Model of `explode_query_plan` (postbound/opt/_helpers.py:669-690) with the names of cardinality sources it passes on. -/

namespace PB.Explode
open PB PB.Hints PB.QP

/-- The cardinality `jointree_from_plan` reads for a `card_source` (postbound/_hints.py:1774-1778): everything but `"estimates"`
means the actual cardinality. -/
def treeSource (s : String) : CardSource := if s = "estimates" then .estimated else .actual

/-- The cardinality `parameters_from_plan` reads for a `target_cardinality` without fallback (postbound/_hints.py:1810-1819). -/
def paramSource (s : String) : CardSource :=
  if s = "estimated" then .estimated else if s = "actual" then .actual else .actualOrEstimated

/-- `explode_query_plan` (postbound/opt/_helpers.py:669-690); `none` is an exception. -/
def explode (s : String) (p : Plan) : Option (JT.Tree Card × OpAssign × Params) := do
  let t ← p.jointree (treeSource s)
  let o ← p.ops false
  some (t, o, p.params (paramSource s))

/-- The default of `card_source` (postbound/opt/_helpers.py:670). -/
def defaultSource : String := "estimated"

end PB.Explode
