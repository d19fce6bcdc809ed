import Verif.Model.DepGraph

/-! Model of the template-based workload generator (postbound/experiments/ceb.py 55-796). Values are texts, integers or tuples. The
random number generator is a parameter, whose answers may depend on the number of draws so far; the database is a function from the
text of a query to its rows. Predicates are identified by numbers instead of names. -/

namespace PB.Ceb
open PB

abbrev Txt := List Char

/-- Values of placeholders: texts, numbers and (possibly nested) tuples. -/
inductive PVal where
  | text (t : Txt)
  | num (i : Int)
  | tup (l : List PVal)

/-- `PredicateType` (experiments/ceb.py 45); `scalar` stands for `=`, `<`, `>`, `<=`, `>=` and `<>`. -/
inductive PredType where
  | scalar | like | isIn
  deriving DecidableEq

inductive Method where
  | uniform | weighted
  deriving DecidableEq

/-- Exceptions: `SamplingError` is caught by the retry loop, the others (`StateError`, `KeyError`, `ValueError`, `AssertionError`) are
not. -/
inductive Err where
  | sampling | other
  deriving DecidableEq

/-- Where the values come from: a list of options (already made tuples, experiments/ceb.py 62-71) or a templated SQL query. -/
inductive Source where
  | options (l : List (List PVal))
  | sql (q : Txt)

/-- A placeholder of a predicate: its key, the type of the predicate, whether its column is written with a table, and whether
the type of the column is a text type. -/
structure Key where
  name : Txt
  pred : PredType
  qualified : Bool
  isText : Bool

/-- `PredicateGenerator.__init__` (experiments/ceb.py 136-198). `countCol` starts at zero. -/
structure Gen where
  keys : List Key
  source : Source
  method : Method
  inMin : Nat := 1
  inMax : Option Nat := none
  countCol : Option Nat := none
  deps : List Nat := []
  maxTries : Option Nat := none

/-- A `QueryTemplate` (experiments/ceb.py 504-526): the predicates have the numbers 0, 1, … in the order of their registration. -/
structure Template where
  base : Txt
  aliases : List Txt
  gens : List Gen

/-- The database and the random number generator (`random.choice`, `random.choices`, `random.randint`, `random.sample` and
`numpy`'s weighted choice without replacement). The first argument is the number of the draw. -/
structure Env where
  rows : Txt → List (List PVal)
  choice : Nat → List (List PVal) → List PVal
  randint : Nat → Nat → Nat → Nat
  sample : Nat → List (List PVal) → Nat → List (List PVal)
  sampleWeighted : Nat → List PVal → Nat → List PVal

/-- The selected values of each predicate (`[]` if there are none yet) and the number of draws so far. -/
structure St where
  sel : Nat → List PVal
  clock : Nat

def St.init : St := ⟨fun _ => [], 0⟩

abbrev M (α : Type) := St → Except Err α × St

/-! ### Texts of values -/

/-- `str(value)` -/
def strVal : PVal → Txt
  | .text t => t
  | .num i => (toString i).toList
  | .tup _ => []

/-- `_escape_col_value` for an element of a tuple (experiments/ceb.py 652-663 with `=`): a tuple violates the assertion. -/
def escapeElem (isText : Bool) : PVal → Except Err Txt
  | .tup _ => .error .other
  | v => if isText then .ok ('\'' :: strVal v ++ ['\'']) else .ok (strVal v)

/-- `_escape_col_value` of the elements of a tuple. -/
def escapeElems (isText : Bool) : List PVal → Except Err (List Txt)
  | [] => .ok []
  | v :: vs =>
    match escapeElem isText v with
    | .error e => .error e
    | .ok t =>
      match escapeElems isText vs with
      | .error e => .error e
      | .ok ts => .ok (t :: ts)

/-- `_escape_col_value` (experiments/ceb.py 646-663). -/
def escape (v : PVal) (pred : PredType) (isText : Bool) : Except Err Txt :=
  match v with
  | .tup l =>
    if pred = .isIn then
      match escapeElems isText l with
      | .error e => .error e
      | .ok ts => .ok ('(' :: List.intercalate [',', ' '] ts ++ [')'])
    else .error .other
  | v =>
    if isText then
      let t := if pred = .like then ['\'', '%'] ++ strVal v ++ ['%', '\''] else strVal v
      .ok ('\'' :: t ++ ['\''])
    else .ok (strVal v)

/-- `str.replace(old, new)` for a non-empty `old`. -/
def replaceAux (old new : Txt) : Nat → Txt → Txt
  | _, [] => []
  | skip + 1, _ :: s => replaceAux old new skip s
  | 0, c :: s =>
    if old.isPrefixOf (c :: s) then new ++ replaceAux old new (old.length - 1) s
    else c :: replaceAux old new 0 s

def strReplace (old new s : Txt) : Txt := replaceAux old new 0 s

/-- `f"<<{key}>>"` -/
def hole (key : Txt) : Txt := ['<', '<'] ++ key ++ ['>', '>']

/-- `_lookup_column` (experiments/ceb.py 628-644) raises for columns without a table, unless all aliases have two characters: the
keys of the dictionary are unpacked to pairs. -/
def columnRaises (aliases : List Txt) (k : Key) : Bool := !k.qualified && aliases.any fun a => a.length ≠ 2

/-- `substitute_placeholders` (experiments/ceb.py 581-600) for the values of one predicate. -/
def substitute (aliases : List Txt) : List (Key × PVal) → Txt → Except Err Txt
  | [], q => .ok q
  | (k, v) :: rest, q =>
    if columnRaises aliases k then .error .other
    else
      match escape v k.pred k.isText with
      | .error e => .error e
      | .ok t => substitute aliases rest (strReplace (hole k.name) t q)

/-- `PredicateGenerator.selected_values` (experiments/ceb.py 258-267): an error if no values have been selected, or if there are less
values than keys. -/
def selectedValues (g : Gen) (vals : List PVal) : Except Err (List (Key × PVal)) :=
  if vals.isEmpty || vals.length < g.keys.length then .error .other else .ok (g.keys.zip vals)

/-! ### Drawing values -/

/-- One draw of the random number generator. -/
def draw {α : Type} (f : Nat → α) : M α := fun st => (.ok (f st.clock), { st with clock := st.clock + 1 })

/-- `_remove_weight_col` (experiments/ceb.py 74-78). -/
def removeWeight (v : List PVal) (i : Nat) : List PVal := v.eraseIdx i

/-- `_draw_scalar_value` (experiments/ceb.py 349-384). Duplicates are not removed here for uniform sampling, since only the
probabilities depend on them; neither do the weights matter. -/
def drawScalar (env : Env) (g : Gen) (cands : List (List PVal)) : M (List PVal) := fun st =>
  match draw (fun n => env.choice n cands) st with
  | (.ok v, st) =>
    match g.method with
    | .uniform => (.ok v, st)
    | .weighted =>
      match g.countCol with
      | none => (.ok v, st)
      | some i => (.ok (removeWeight v i), st)
  | (.error e, st) => (.error e, st)

/-- `random.randint(a, b)` raises `ValueError` for empty ranges. -/
def drawInt (env : Env) (a b : Nat) : M Nat := fun st =>
  if b < a then (.error .other, st) else draw (fun n => env.randint n a b) st

/-- The largest number of values of an IN predicate (experiments/ceb.py 404-408 and 425-429). -/
def inBound (g : Gen) (n : Nat) : Nat := match g.inMax with | none => n | some m => min m n

/-- `_draw_multi_values` (experiments/ceb.py 386-442). `pop` are the distinct candidates. Uniform sampling draws from the candidate
rows (tuples), weighted sampling from their values. Rows with a weight column have two entries, so the check (390-392) rejects them; with
one entry, extracting the weights (416-419) raises `IndexError`. The number of values is drawn before that here. -/
def drawMulti (env : Env) (g : Gen) (uniq : List (List PVal) → List (List PVal)) (cands : List (List PVal)) : M (List PVal) := fun st =>
  match cands with
  | [] => (.error .other, st)
  | first :: _ =>
    if first.length ≠ 1 || (g.countCol.getD 0 ≠ 0 && first.length ≠ 2) then (.error .other, st)
    else
      let pop := uniq cands
      match drawInt env g.inMin (inBound g pop.length) st with
      | (.error e, st) => (.error e, st)
      | (.ok n, st) =>
        match g.method with
        | .uniform =>
          match draw (fun i => env.sample i pop n) st with
          | (.ok l, st) => (.ok [.tup (l.map .tup)], st)
          | (.error e, st) => (.error e, st)
        | .weighted =>
          if g.countCol.isSome then (.error .other, st)
          else
          match draw (fun i => env.sampleWeighted i (pop.filterMap List.head?) n) st with
          | (.ok l, st) => (.ok [.tup l], st)
          | (.error e, st) => (.error e, st)

/-- The loop over the dependencies (experiments/ceb.py 336-342); `choose` is `choose_predicate_values`. -/
def substituteDeps (t : Template) (choose : Nat → M Unit) (redraw : Bool) : List Nat → Txt → M Txt
  | [], q => fun st => (.ok q, st)
  | d :: rest, q => fun st =>
    match t.gens[d]? with
    | none => (.error .other, st)
    | some gd =>
      match (if redraw then choose d st else (.ok (), st)) with
      | (.error e, st) => (.error e, st)
      | (.ok (), st) =>
        match selectedValues gd (st.sel d) with
        | .error e => (.error e, st)
        | .ok vals =>
          match substitute t.aliases vals q with
          | .error e => (.error e, st)
          | .ok q => substituteDeps t choose redraw rest q st

/-- The candidates of `_next_predicate_value` (experiments/ceb.py 295-302 and 315-347). -/
def candidates (env : Env) (t : Template) (choose : Nat → M Unit) (g : Gen) (redraw : Bool) : M (List (List PVal)) := fun st =>
  match g.source with
  | .options l => (.ok l, st)
  | .sql q =>
    match substituteDeps t choose redraw g.deps q st with
    | (.error e, st) => (.error e, st)
    | (.ok q, st) => if (env.rows q).isEmpty then (.error .sampling, st) else (.ok (env.rows q), st)

/-- `self.pred_type == ["IN"]` (experiments/ceb.py 304). -/
def isInGen (g : Gen) : Bool := g.keys.map (·.pred) = [.isIn]

/-- `_next_predicate_value` (experiments/ceb.py 281-313). -/
def nextValue (env : Env) (uniq : List (List PVal) → List (List PVal)) (t : Template) (choose : Nat → M Unit) (g : Gen)
    (redraw : Bool) : M (List PVal) := fun st =>
  match candidates env t choose g redraw st with
  | (.error e, st) => (.error e, st)
  | (.ok c, st) => if isInGen g then drawMulti env g uniq c st else drawScalar env g c st

/-- `_value_passes_constraints` (experiments/ceb.py 444-456); `value` is the list of all selected values. -/
def passes (g : Gen) (value : List PVal) (k : Key) : Bool :=
  if k.pred ≠ .isIn then true
  else g.inMin ≤ value.length && value.length ≤ g.inMax.getD value.length

/-- The retry loop of `choose_predicate_values` (experiments/ceb.py 216-242). The first argument is the number of tries that are
left. -/
def tryLoop (g : Gen) (next : Bool → M (List PVal)) : Nat → Bool → M (List PVal)
  | 0, _ => fun st => (.error .sampling, st)
  | n + 1, redraw => fun st =>
    match next redraw st with
    | (.error .sampling, st) => tryLoop g next n true st
    | (.error .other, st) => (.error .other, st)
    | (.ok v, st) =>
      if g.keys.all (passes g v) then (if v.isEmpty then (.error .sampling, st) else (.ok v, st)) else tryLoop g next n true st

/-- `choose_predicate_values` (experiments/ceb.py 205-243). The first argument bounds the depth of the recursion
(`RecursionError`). -/
def choose (env : Env) (uniq : List (List PVal) → List (List PVal)) (t : Template) : Nat → Nat → M Unit
  | 0, _ => fun st => (.error .other, st)
  | f + 1, i => fun st =>
    match t.gens[i]? with
    | none => (.error .other, st)
    | some g =>
      match tryLoop g (nextValue env uniq t (choose env uniq t f) g) (g.maxTries.getD 10) false st with
      | (.error e, st) => (.error e, st)
      | (.ok v, st) => (.ok (), { st with sel := fun j => if j = i then v else st.sel j })

/-! ### Generating queries -/

/-- The loop over the predicates (experiments/ceb.py 613-614). -/
def chooseAll (env : Env) (uniq : List (List PVal) → List (List PVal)) (t : Template) (fuel : Nat) : List Nat → M Unit
  | [] => fun st => (.ok (), st)
  | i :: rest => fun st =>
    match choose env uniq t fuel i st with
    | (.error e, st) => (.error e, st)
    | (.ok (), st) => chooseAll env uniq t fuel rest st

/-- The tasks of the dependency graph (experiments/ceb.py 604-611). -/
def tasks (t : Template) : List (Nat × List Nat) := (List.range t.gens.length).map fun i => (i, ((t.gens[i]?).map (·.deps)).getD [])

/-- The substitution of all values (experiments/ceb.py 616-621). -/
def fill (aliases : List Txt) (sel : Nat → List PVal) : Nat → List Gen → Txt → Except Err Txt
  | _, [], q => .ok q
  | i, g :: gs, q =>
    match selectedValues g (sel i) with
    | .error e => .error e
    | .ok vals =>
      match substitute aliases vals q with
      | .error e => .error e
      | .ok q => fill aliases sel (i + 1) gs q

/-- `generate_raw_query` (experiments/ceb.py 602-621); unknown dependencies are a `KeyError`. -/
def generateRaw (env : Env) (uniq : List (List PVal) → List (List PVal)) (t : Template) (fuel : Nat) : M Txt := fun st =>
  if t.gens.any (fun g => g.deps.any fun d => t.gens.length ≤ d) then (.error .other, st)
  else
    match chooseAll env uniq t fuel (Dep.iter (Dep.build (tasks t))) st with
    | (.error e, st) => (.error e, st)
    | (.ok (), st) => (fill t.aliases st.sel 0 t.gens t.base, st)

/-! ### Generating workloads -/

/-- The loop for one template (experiments/ceb.py 776-794). `gen n` is the query of the n-th try; `seen` are the queries generated so
far. Yields the new queries in order, or `none` for the `SamplingError`. -/
def templateLoop (gen : Nat → Txt) (perTemplate maxTries : Nat) : Nat → Nat → Nat → List Txt → Option (List Txt)
  | 0, _, _, _ => some []
  | fuel + 1, count, tries, seen =>
    if count < perTemplate ∧ tries ≤ maxTries then
      let q := gen (tries + 1)
      if q ∈ seen then
        if tries + 1 = maxTries then none else templateLoop gen perTemplate maxTries fuel count (tries + 1) seen
      else (templateLoop gen perTemplate maxTries fuel (count + 1) (tries + 1) (q :: seen)).map (q :: ·)
    else some []

/-- `f"{template.label}-{template_idx}"` (experiments/ceb.py 790-793). -/
def queryLabel (label : Txt) (i : Nat) : Txt := label ++ '-' :: Nat.toDigits 10 i

/-- `workload_queries[query_label] = query` for the queries of a template (experiments/ceb.py 793-794). -/
def addQueries (label : Txt) : Nat → List Txt → Dict Txt Txt → Dict Txt Txt
  | _, [], d => d
  | i, q :: qs, d => addQueries label (i + 1) qs (Dict.set d (queryLabel label i) q)

/-- The loop over the templates (experiments/ceb.py 773-796); the loop for one template ends after `maxTries + 1` tries. -/
def workloadLoop (perTemplate maxTries : Nat) : List (Txt × (Nat → Txt)) → List Txt → Dict Txt Txt → Option (Dict Txt Txt)
  | [], _, d => some d
  | (label, gen) :: rest, seen, d =>
    match templateLoop gen perTemplate maxTries (maxTries + 2) 0 0 seen with
    | none => none
    | some qs => workloadLoop perTemplate maxTries rest (qs ++ seen) (addQueries label 1 qs d)

/-- `generate_raw_workload` (experiments/ceb.py 721-796), for templates that always yield a query. -/
def generateWorkload (templates : List (Txt × (Nat → Txt))) (perTemplate : Nat) : Option (Dict Txt Txt) :=
  workloadLoop perTemplate (templates.length * perTemplate * 10) templates [] []

end PB.Ceb
