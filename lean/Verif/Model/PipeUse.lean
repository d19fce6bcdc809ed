import Verif.Model.Dict

/-!
Model of the generic configuration of optimization pipelines and of their use by benchmarks: `use`, `stages`,
`learn_from_feedback`, the wrapping of single stages, the training before a benchmark, and the calls of a cardinality estimator
during the optimization of a query (postbound/_pipelines.py, postbound/bench.py).

Simplification: a component is its identity and the set of stage classes that it is an instance of. Whether a component supports a
database is given as a function, see `PB.Validation` for pre checks.
-/

namespace PB.PipeUse

open PB

/-- The stage classes (postbound/_stages.py:377-944). -/
inductive Role
  | complete | joinOrder | operators | params | cardEst | costModel | enumerator | incremental
deriving DecidableEq, Repr

/-- A component: an object and the stage classes it is derived from. -/
structure Comp where
  id : Nat
  bases : List Role
deriving DecidableEq, Repr

/-- `isinstance`: cardinality estimators are parameter generators (postbound/_stages.py:592). -/
def Comp.isA (c : Comp) (r : Role) : Bool := c.bases.contains r || (r == .params && c.bases.contains .cardEst)

/-! ### `use` and `stages` -/

/-- The components of a `TextBookOptimizationPipeline` (postbound/_pipelines.py:500-511). -/
structure TextBook where
  enumr : Comp
  cost : Comp
  card : Comp
deriving DecidableEq, Repr

/-- `TextBookOptimizationPipeline.use` (postbound/_pipelines.py:573-583). `none` is the `TypeError`. -/
def TextBook.use (p : TextBook) (c : Comp) : Option TextBook :=
  if c.isA .enumerator then some { p with enumr := c }
  else if c.isA .costModel then some { p with cost := c }
  else if c.isA .cardEst then some { p with card := c }
  else none

/-- `TextBookOptimizationPipeline.stages` (postbound/_pipelines.py:631-639). -/
def TextBook.stages (p : TextBook) : List Comp := [p.enumr, p.cost, p.card]

/-- The components of a `MultiStageOptimizationPipeline` (postbound/_pipelines.py:721-727). -/
structure Multi where
  join : Option Comp := none
  ops : Option Comp := none
  par : Option Comp := none
deriving DecidableEq, Repr

/-- `MultiStageOptimizationPipeline.use` (postbound/_pipelines.py:884-899). -/
def Multi.use (p : Multi) (c : Comp) : Option Multi :=
  if c.isA .joinOrder then some { p with join := some c }
  else if c.isA .operators then some { p with ops := some c }
  else if c.isA .params then some { p with par := some c }
  else none

/-- `MultiStageOptimizationPipeline.stages` (postbound/_pipelines.py:1023-1031). -/
def Multi.stages (p : Multi) : List Comp := p.join.toList ++ p.ops.toList ++ p.par.toList

/-- The components of an `IncrementalOptimizationPipeline` (postbound/_pipelines.py:1083-1086). -/
structure Incr where
  gen : Option Comp := none
  steps : List Comp := []
deriving DecidableEq, Repr

/-- `_ensure_pipeline_integrity` for the database of the pipeline (postbound/_pipelines.py:1204-1260). -/
def Incr.intact (ok : Comp → Bool) (p : Incr) (gen extra : Option Comp) : Bool :=
  (gen.or p.gen).all ok && extra.all ok && p.steps.all ok

/-- `IncrementalOptimizationPipeline.use` (postbound/_pipelines.py:1130-1135, 1137-1156, 1158-1169). `none` is any exception. -/
def Incr.use (ok : Comp → Bool) (p : Incr) (c : Comp) : Option Incr :=
  if c.isA .complete then if p.intact ok (some c) none then some { p with gen := some c } else none
  else if c.isA .incremental then if p.intact ok none (some c) then some { p with steps := p.steps ++ [c] } else none
  else none

/-- `IncrementalOptimizationPipeline.stages` (postbound/_pipelines.py:1185-1190). -/
def Incr.stages (p : Incr) : List Comp := p.gen.toList ++ p.steps

/-- `IntegratedOptimizationPipeline.use` (postbound/_pipelines.py:376-397): no test of the type. -/
def integratedUse (_ : Option Comp) (c : Comp) : Option (Option Comp) := some (some c)

/-- `IntegratedOptimizationPipeline.stages` (postbound/_pipelines.py:448-451). -/
def integratedStages (p : Option Comp) : List Comp :=
  match p with
  | none => []
  | some c => [c]

/-- A history of calls: a call that raises an exception leaves the pipeline unchanged. -/
def uses {P : Type} (use : P → Comp → Option P) (p : P) (cs : List Comp) : P := cs.foldl (fun p c => (use p c).getD p) p

/-! ### Single stages as pipelines -/

/-- A pipeline that was created for a stage. -/
inductive Pipe
  | integrated (alg : Option Comp)
  | multi (p : Multi)
  | textBook (p : TextBook)
deriving DecidableEq, Repr

/-- The stages of a pipeline. -/
def Pipe.stages : Pipe → List Comp
  | .integrated a => integratedStages a
  | .multi p => p.stages
  | .textBook p => p.stages

/-- The exceptions of `_wrap_optimization_stage`. -/
inductive WrapErr
  | noDatabase | unsupportedSystem | typeError
deriving DecidableEq, Repr

/-- The default components of the textbook pipeline (postbound/_pipelines.py:490-508): the enumerator depends on whether the database
is a Postgres database. -/
structure Defaults where
  pgEnum : Comp
  enumr : Comp
  cost : Comp
  card : Comp

/-- `TextBookOptimizationPipeline(target_db)` (postbound/_pipelines.py:490-511). -/
def TextBook.new (df : Defaults) (isPg : Bool) : TextBook := ⟨if isPg then df.pgEnum else df.enumr, df.cost, df.card⟩

/-- `build`: all stages have to support the database (postbound/_pipelines.py:399-432, 585-620, 935-973). -/
def buildPipe (ok : Comp → Bool) (p : Pipe) : Except WrapErr Pipe :=
  if p.stages.all ok then .ok p else .error .unsupportedSystem

/-- `_wrap_optimization_stage` (postbound/bench.py:327-349): `db` is the current database of the pool, if there is one
(postbound/db/_db.py:3271-3288). -/
def wrap {D : Type} (df : Defaults) (isPg : D → Bool) (ok : D → Comp → Bool) (db : Option D) (c : Comp) : Except WrapErr (D × Pipe) :=
  match db with
  | none => .error .noDatabase
  | some d =>
    if c.isA .complete then
      match integratedUse none c with
      | none => .error .typeError
      | some a => (buildPipe (ok d) (.integrated a)).map (d, ·)
    else if c.isA .joinOrder || c.isA .operators || c.isA .params then
      match ({} : Multi).use c with
      | none => .error .typeError
      | some p => (buildPipe (ok d) (.multi p)).map (d, ·)
    else if c.isA .enumerator || c.isA .costModel then
      match (TextBook.new df (isPg d)).use c with
      | none => .error .typeError
      | some p => (buildPipe (ok d) (.textBook p)).map (d, ·)
    else .error .typeError

/-! ### Feedback -/

/-- A stage that can learn: its name, whether its class uses online feedback, and the method. -/
structure Learner (σ F M : Type) where
  name : String
  online : Bool
  learn : F → σ → σ × M

/-- The states of the stage objects, the metrics, and the calls. -/
structure LState (σ F M : Type) where
  heap : Nat → σ
  metrics : Dict String M := []
  log : List (Nat × F) := []

variable {σ F M : Type}

/-- One iteration of `learn_from_feedback` (postbound/_pipelines.py:295-301). -/
def learnStep (obj : Nat → Learner σ F M) (f : F) (s : LState σ F M) (i : Nat) : LState σ F M :=
  if !(obj i).online then s
  else
    let r := (obj i).learn f (s.heap i)
    ⟨fun j => if j = i then r.1 else s.heap j, Dict.set s.metrics (obj i).name r.2, s.log ++ [(i, f)]⟩

/-- `learn_from_feedback` (postbound/_pipelines.py:273-302). -/
def learnFromFeedback (obj : Nat → Learner σ F M) (stages : List Nat) (heap : Nat → σ) (f : F) : LState σ F M :=
  stages.foldl (learnStep obj f) { heap }

/-- `requires_online_training` (postbound/_pipelines.py:269-271). -/
def requiresOnline (obj : Nat → Learner σ F M) (stages : List Nat) : Bool := stages.any fun i => (obj i).online

/-! ### Training before a benchmark -/

/-- The kinds of training. -/
inductive Kind
  | data | workload | samples
deriving DecidableEq, Repr

/-- A stage object: which kinds of training its class requires, whether a kind is completed in a state, and what training does. -/
structure Trainee (σ : Type) where
  requires : Kind → Bool
  done : Kind → σ → Bool
  fit : Kind → σ → σ

/-- The training data of a benchmark: nothing, the same samples for all stages, or a repository that has samples for some stages. -/
inductive Samples
  | none | data | repository (has : Nat → Bool)

/-- Whether a stage obtains samples (postbound/_pipelines.py:247-255). -/
def Samples.provides : Samples → Nat → Bool
  | .none, _ => false
  | .data, _ => true
  | .repository has, i => has i

/-- `requires_*_training` of a pipeline (postbound/_pipelines.py:179-181, 201-203, 225-227). -/
def required (obj : Nat → Trainee σ) (k : Kind) (stages : List Nat) : Bool := stages.any fun i => (obj i).requires k

/-- `sample_fit_completed` (postbound/_pipelines.py:262-267). -/
def sampleFitCompleted (obj : Nat → Trainee σ) (stages : List Nat) (h : Nat → σ) : Bool :=
  stages.all fun i => !(obj i).requires .samples || (obj i).done .samples (h i)

/-- The loops of `train_on_database`, `train_on_workload` and `train_on_samples` (postbound/_pipelines.py:183-260): the flag is false if
samples are missing. The calls are recorded. -/
def trainAll (obj : Nat → Trainee σ) (k : Kind) (provides : Nat → Bool) : List Nat → (Nat → σ) × List (Kind × Nat) → ((Nat → σ) × List (Kind × Nat)) × Bool
  | [], s => (s, true)
  | i :: is, s =>
    if !(obj i).requires k || (obj i).done k (s.1 i) then trainAll obj k provides is s
    else if provides i then
      trainAll obj k provides is (fun j => if j = i then (obj i).fit k (s.1 i) else s.1 j, s.2 ++ [(k, i)])
    else (s, false)

/-- The training of `execute_workload` (postbound/bench.py:1145-1162): the flag is false if a `ValueError` is raised. -/
def prepare (obj : Nat → Trainee σ) (samples : Samples) (stages : List Nat) (h : Nat → σ) : ((Nat → σ) × List (Kind × Nat)) × Bool :=
  let s0 : (Nat → σ) × List (Kind × Nat) := (h, [])
  let s1 := if required obj .data stages then (trainAll obj .data (fun _ => true) stages s0).1 else s0
  let s2 := if required obj .workload stages then (trainAll obj .workload (fun _ => true) stages s1).1 else s1
  if required obj .samples stages then
    match samples with
    | .none => (s2, sampleFitCompleted obj stages s2.1)
    | _ => trainAll obj .samples samples.provides stages s2
  else (s2, true)

/-! ### Cardinality estimators in a multi-stage pipeline -/

/-- What is called on the parameter generator of a multi-stage pipeline during the optimization of a query. -/
inductive Event (Q : Type)
  | initialize (q : Q)
  | generate (q : Q)
  | cleanup
deriving DecidableEq, Repr

/-- The parameter generation of `optimize_query` (postbound/_pipelines.py:1002-1014): `raises` says whether the generation raises an
exception. The result is false if it does. -/
def paramEvents {Q : Type} (isEstimator : Bool) (raises : Q → Bool) (q : Q) : List (Event Q) × Bool :=
  let pre := if isEstimator then [Event.initialize q] else []
  if raises q then (pre ++ [.generate q], false)
  else (pre ++ [.generate q] ++ (if isEstimator then [.cleanup] else []), true)

/-- The effect on the query that the estimator is prepared for (postbound/_stages.py:661-686). -/
def Event.apply {Q : Type} (s : Option Q) : Event Q → Option Q
  | .initialize q => some q
  | .generate _ => s
  | .cleanup => none

/-- The estimator after the optimization of a sequence of queries. -/
def afterQueries {Q : Type} (isEstimator : Bool) (raises : Q → Bool) (qs : List Q) (s : Option Q) : Option Q :=
  qs.foldl (fun s q => (paramEvents isEstimator raises q).1.foldl Event.apply s) s

end PB.PipeUse
