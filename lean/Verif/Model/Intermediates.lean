import Verif.Model.Collections
import Verif.Model.JoinTree
import Verif.Model.Pred
import Verif.Model.Hints

/-!
Model of cardinality estimators (postbound/_stages.py:688-760) and of the estimators in postbound/opt/_cardinalities.py.

Table references are numbers. `none` is an exception.
-/

namespace PB.Intermediates

open PB PB.Coll PB.Qal

/-- One candidate of `generate_intermediates` (postbound/_stages.py:711-719). `joins` is `query.predicates().joins_tables`. -/
def candidate (joins : Finset Tab → Option Bool) (allow : Bool) (c : List Tab) : Option (List (Finset Tab)) :=
  if c.isEmpty then some []
  else if allow then some [c.toFinset]
  else (joins c.toFinset).map fun b => if b then [c.toFinset] else []

/-- `generate_intermediates` (postbound/_stages.py:688-719). `tables` is `query.tables()` in its iteration order. -/
def generate (joins : Finset Tab → Option Bool) (allow : Bool) (tables : List Tab) : Option (List (Finset Tab)) :=
  ((powerset tables).mapM (candidate joins allow)).map List.flatten

/-- One iteration of the estimation loops (postbound/_stages.py:740-742, 756-758); `add_cardinality` stores the estimate
(postbound/_hints.py:706-725). -/
def addEstimate (est : Finset Tab → Card) (d : Dict (Finset Tab) Card) (s : Finset Tab) : Dict (Finset Tab) Card :=
  if (est s).nan then d else Dict.set d s (est s)

/-- `estimate_cardinalities` (postbound/_stages.py:721-743): the cardinalities of the result. -/
def estimateAll (joins : Finset Tab → Option Bool) (allow : Bool) (tables : List Tab) (est : Finset Tab → Card) :
    Option (Dict (Finset Tab) Card) :=
  (generate joins allow tables).map fun l => l.foldl (addEstimate est) []

/-- `generate_plan_parameters` (postbound/_stages.py:745-760). -/
def planParameters {A : Type} (joins : Finset Tab → Option Bool) (allow : Bool) (tables : List Tab) (est : Finset Tab → Card)
    (order : Option (JT.Tree A)) : Option (Dict (Finset Tab) Card) :=
  match order with
  | none => estimateAll joins allow tables est
  | some t => some ((t.iternodes.map JT.Tree.tables).foldl (addEstimate est) [])

/-! ### PreciseCardinalities -/

variable {F : Type} [DecidableEq F]

/-- `PreciseCardinalities.calculate_estimate` (postbound/opt/_cardinalities.py:63-73): `f` is the count query, `exec` its result on the
current data. The flag `enable_cache` is only stored (57). -/
def precise (_enabled : Bool) (exec : F → Card) (cache : Dict F Card) (f : F) : Card × Dict F Card :=
  match Dict.get? cache f with
  | some c => (c, cache)
  | none => (exec f, Dict.set cache f (exec f))

/-- A sequence of estimates, each on the data at that time. -/
def preciseRun (enabled : Bool) (cache : Dict F Card) : List ((F → Card) × F) → List Card
  | [] => []
  | (exec, f) :: rest => (precise enabled exec cache f).1 :: preciseRun enabled (precise enabled exec cache f).2 rest

/-! ### PreComputedCardinalities -/

/-- A cell of the column of tables: a parsed set, or the JSON text that `_dump_fallback_estimate` puts into the data frame
(postbound/opt/_cardinalities.py:79-92, 288). -/
inductive Cell
  | parsed (ts : Finset Tab)
  | text (ts : Finset Tab)
deriving DecidableEq

/-- A row of the lookup table. -/
structure Row where
  label : String
  cell : Cell
  card : Card
deriving DecidableEq

/-- The settings (postbound/opt/_cardinalities.py:141-176). `live` is the fallback estimate of the database for the fragment of the
query with the given label; `none` if there is no such fragment. -/
structure Cfg where
  default : Option Card
  errorOnMissing : Bool
  live : Option (String → Finset Tab → Option Card)
  save : Bool

/-- The matching rows (postbound/opt/_cardinalities.py:187-192). -/
def samples (rows : List Row) (label : String) (ts : Finset Tab) : List Row :=
  rows.filter fun r => r.label = label && r.cell = .parsed ts

/-- `_attempt_fallback_estimate` and `_dump_fallback_estimate` without any sample (postbound/opt/_cardinalities.py:218-303). -/
def fallback (cfg : Cfg) (rows : List Row) (label : String) (ts : Finset Tab) : Option Card × List Row :=
  match cfg.default with
  | some c => (some c, rows)
  | none =>
    match cfg.live with
    | none => (some Card.unknown, rows)
    | some live =>
      match live label ts with
      | none => (some Card.unknown, rows)
      | some c => (some c, if cfg.save then rows ++ [⟨label, .text ts, c⟩] else rows)

/-- `calculate_estimate` (postbound/opt/_cardinalities.py:182-209). The result is `none` if a `ValueError` is raised. -/
def precomputed (cfg : Cfg) (rows : List Row) (label : String) (ts : Finset Tab) : Option Card × List Row :=
  match samples rows label ts with
  | [r] => (some r.card, rows)
  | _ :: _ :: _ => (none, rows)
  | [] =>
    let r := fallback cfg rows label ts
    if r.1.isNone && cfg.errorOnMissing then (none, r.2) else r

/-- Reading the file that `_dump_fallback_estimate` wrote (postbound/opt/_cardinalities.py:178-180, 303): parsed sets are written as
`{TableReference(...)}`, which is no JSON. -/
def reload (rows : List Row) : Option (List Row) :=
  rows.mapM fun r =>
    match r.cell with
    | .parsed _ => none
    | .text ts => some { r with cell := .parsed ts }

/-! ### CardinalityDistortion -/

/-- `CardinalityDistortion.calculate_estimate` (postbound/opt/_cardinalities.py:350-366), where `factor` is the factor that is used;
`round` is the identity on cardinalities (postbound/_core.py:207-209). -/
def distort (c : Card) (factor : Rat) : Card :=
  if !c.valid then Card.unknown
  else Card.ident (Card.ofFlt (Flt.mul c.get (.fin factor)))

end PB.Intermediates
