import Verif.Model.Dict
import Verif.Model.Validation

/-!
Model of the optimization pipelines (postbound/_pipelines.py) and of the training interface of optimization stages
(postbound/_stages.py:20-344).

Simplifications: stages are represented by an identifier, their pre check and the plans they create; exceptions of the stages
themselves are not modelled. A failed call leaves the pipeline in the state at the point of the exception, and the caller may go on.
-/

namespace PB.Pipelines

open PB PB.Validation

variable {Qy D Pl : Type}

/-- The exceptions that are distinguished. -/
inductive Exc
  | state | unsupportedQuery | unsupportedSystem
deriving DecidableEq, Repr

/-- The exceptions of pre checks. -/
def Exc.ofErr : Err → Exc
  | .state => .state
  | .unsupportedQuery => .unsupportedQuery
  | .unsupportedSystem => .unsupportedSystem

/-- An optimization stage: its identity, its pre check (can be `None`), the plan of a complete optimizer and the plan of an
incremental step (postbound/_stages.py:346-354, 394-408, 925-944). -/
structure Stage (Qy D Pl : Type) where
  id : Nat
  check : Option (Check Qy D)
  plan : Qy → Pl
  improve : Qy → Pl → Pl

/-- `ensure_all_passed(query)`: `SetQuery` is no subclass of `SqlQuery` (postbound/validation.py:127-155). -/
def ensureQuery (isSet : Qy → Bool) (r : Res) (q : Qy) : Option Exc :=
  (ensureAllPassed r (if isSet q then .setQuery else .sqlQuery)).map Exc.ofErr

/-- `ensure_all_passed(database)`. -/
def ensureDb (r : Res) : Option Exc := (ensureAllPassed r .database).map Exc.ofErr

/-- `ensure_all_passed()`. -/
def ensureNothing (r : Res) : Option Exc := (ensureAllPassed r .nothing).map Exc.ofErr

/-! ### Integrated pipelines -/

/-- The state of an `IntegratedOptimizationPipeline` (postbound/_pipelines.py:333-341). -/
structure IPipe (Qy D Pl : Type) where
  db : D
  alg : Option (Stage Qy D Pl)
  built : Bool

/-- A new pipeline (postbound/_pipelines.py:333-341). -/
def IPipe.new (d : D) : IPipe Qy D Pl := ⟨d, none, false⟩

/-- The configuration calls. -/
inductive ICall (Qy D Pl : Type)
  | setDb (d : D)
  | use (s : Stage Qy D Pl)
  | build

/-- `build` (postbound/_pipelines.py:399-432). -/
def IPipe.build (p : IPipe Qy D Pl) : IPipe Qy D Pl × Option Exc :=
  match p.alg with
  | none => (p, some .state)
  | some s =>
    match s.check with
    | none => ({ p with built := true }, none)
    | some c =>
      match ensureNothing (c.onDb p.db) with
      | some e => (p, some e)
      | none => ({ p with built := true }, none)

/-- The setters and `build` (postbound/_pipelines.py:360-363, 376-397, 399-432). -/
def IPipe.call (p : IPipe Qy D Pl) : ICall Qy D Pl → IPipe Qy D Pl × Option Exc
  | .setDb d => ({ p with db := d, built := false }, none)
  | .use s => ({ p with alg := some s }, none)
  | .build => p.build

/-- A history of calls. -/
def IPipe.run (p : IPipe Qy D Pl) (calls : List (ICall Qy D Pl)) : IPipe Qy D Pl := calls.foldl (fun p c => (p.call c).1) p

/-- `query_execution_plan` (postbound/_pipelines.py:434-446). -/
def IPipe.optimize (p : IPipe Qy D Pl) (q : Qy) : Except Exc Pl :=
  if !p.built then .error .state
  else
    match p.alg with
    | none => .error .state
    | some s =>
      match s.check.bind fun c => ensureNothing (c.onQuery q) with
      | some e => .error e
      | none => .ok (s.plan q)

/-! ### Text book pipelines -/

/-- The state of a `TextBookOptimizationPipeline` (postbound/_pipelines.py:490-511). -/
structure TPipe (Qy D Pl : Type) where
  db : D
  card : Option (Stage Qy D Pl)
  cost : Option (Stage Qy D Pl)
  enum : Option (Stage Qy D Pl)
  check : Check Qy D
  built : Bool

/-- A new pipeline with its default stages (postbound/_pipelines.py:490-511). -/
def TPipe.new (d : D) (card cost enum : Stage Qy D Pl) : TPipe Qy D Pl := ⟨d, some card, some cost, some enum, .empty, false⟩

/-- The configuration calls. -/
inductive TCall (Qy D Pl : Type)
  | setCard (s : Option (Stage Qy D Pl))
  | setCost (s : Option (Stage Qy D Pl))
  | setEnum (s : Option (Stage Qy D Pl))
  | build

/-- `build` (postbound/_pipelines.py:585-620). `ord` is the iteration order of sets of checks. -/
def TPipe.build (ord : List (Check Qy D) → List (Check Qy D)) (p : TPipe Qy D Pl) : TPipe Qy D Pl × Option Exc :=
  match p.card, p.cost, p.enum with
  | some a, some b, some c =>
    let check := mergeChecks ord ([a.check, b.check, c.check].filterMap id) []
    match ensureDb (check.onDb p.db) with
    | some e => ({ p with check }, some e)
    | none => ({ p with check, built := true }, none)
  | _, _, _ => (p, some .state)

/-- The setters and `build` (postbound/_pipelines.py:516-571, 585-620). -/
def TPipe.call (ord : List (Check Qy D) → List (Check Qy D)) (p : TPipe Qy D Pl) : TCall Qy D Pl → TPipe Qy D Pl × Option Exc
  | .setCard s => ({ p with card := s, built := false }, none)
  | .setCost s => ({ p with cost := s, built := false }, none)
  | .setEnum s => ({ p with enum := s, built := false }, none)
  | .build => p.build ord

/-- A history of calls. -/
def TPipe.run (ord : List (Check Qy D) → List (Check Qy D)) (p : TPipe Qy D Pl) (calls : List (TCall Qy D Pl)) : TPipe Qy D Pl :=
  calls.foldl (fun p c => (p.call ord c).1) p

/-- `query_execution_plan` (postbound/_pipelines.py:622-629): the stages that create the plan. -/
def TPipe.optimize (isSet : Qy → Bool) (p : TPipe Qy D Pl) (q : Qy) :
    Except Exc (Option (Stage Qy D Pl) × Option (Stage Qy D Pl) × Option (Stage Qy D Pl)) :=
  if !p.built then .error .state
  else
    match ensureQuery isSet (p.check.onQuery q) q with
    | some e => .error e
    | none => .ok (p.card, p.cost, p.enum)

/-! ### Multi-stage pipelines -/

/-- The state of a `MultiStageOptimizationPipeline` (postbound/_pipelines.py:721-727). -/
structure MPipe (Qy D Pl : Type) where
  db : D
  check : Option (Check Qy D)
  join : Option (Stage Qy D Pl)
  ops : Option (Stage Qy D Pl)
  params : Option (Stage Qy D Pl)
  built : Bool

/-- A new pipeline (postbound/_pipelines.py:721-727). -/
def MPipe.new (d : D) : MPipe Qy D Pl := ⟨d, some .empty, none, none, none, false⟩

/-- The configuration calls. -/
inductive MCall (Qy D Pl : Type)
  | setDb (d : D)
  | setCheck (c : Check Qy D)
  | setJoin (s : Stage Qy D Pl)
  | setOps (s : Stage Qy D Pl)
  | setParams (s : Stage Qy D Pl)
  | load (c : Option (Check Qy D)) (j o p : Option (Stage Qy D Pl))
  | build

/-- The checks that `build` merges (postbound/_pipelines.py:951-957); `None` is dropped by `merge_checks`. -/
def MPipe.checks (p : MPipe Qy D Pl) : List (Check Qy D) :=
  [p.check, p.join.bind (·.check), p.ops.bind (·.check), p.params.bind (·.check)].filterMap id

/-- `build` (postbound/_pipelines.py:935-973). The merged check replaces the pre check of the pipeline. -/
def MPipe.build (ord : List (Check Qy D) → List (Check Qy D)) (p : MPipe Qy D Pl) : MPipe Qy D Pl × Option Exc :=
  let check := mergeChecks ord p.checks []
  if !(check.onDb p.db).passed then ({ p with check := some check }, some .unsupportedSystem)
  else ({ p with check := some check, built := true }, none)

/-- The setters, `load_settings` and `build` (postbound/_pipelines.py:742-745, 794-882, 901-933, 935-973). -/
def MPipe.call (ord : List (Check Qy D) → List (Check Qy D)) (p : MPipe Qy D Pl) : MCall Qy D Pl → MPipe Qy D Pl × Option Exc
  | .setDb d => ({ p with db := d, built := false }, none)
  | .setCheck c => ({ p with check := some c, built := false }, none)
  | .setJoin s => ({ p with join := some s, built := false }, none)
  | .setOps s => ({ p with ops := some s, built := false }, none)
  | .setParams s => ({ p with params := some s, built := false }, none)
  | .load c j o a => ({ p with check := c.or p.check, join := j.or p.join, ops := o.or p.ops, params := a.or p.params, built := false }, none)
  | .build => p.build ord

/-- A history of calls. -/
def MPipe.run (ord : List (Check Qy D) → List (Check Qy D)) (p : MPipe Qy D Pl) (calls : List (MCall Qy D Pl)) : MPipe Qy D Pl :=
  calls.foldl (fun p c => (p.call ord c).1) p

/-- `optimize_query` (postbound/_pipelines.py:982-1021): the stages whose results are used. -/
def MPipe.optimize (p : MPipe Qy D Pl) (q : Qy) :
    Except Exc (Option (Stage Qy D Pl) × Option (Stage Qy D Pl) × Option (Stage Qy D Pl)) :=
  if !p.built then .error .state
  else
    match p.check with
    | none => .error .state
    | some c => if !(c.onQuery q).passed then .error .unsupportedQuery else .ok (p.join, p.ops, p.params)

/-! ### Incremental pipelines -/

/-- The state of an `IncrementalOptimizationPipeline` (postbound/_pipelines.py:1083-1086). -/
structure NPipe (Qy D Pl : Type) where
  db : D
  gen : Option (Stage Qy D Pl)
  steps : List (Stage Qy D Pl)

/-- A new pipeline. -/
def NPipe.new (d : D) : NPipe Qy D Pl := ⟨d, none, []⟩

/-- The configuration calls. -/
inductive NCall (Qy D Pl : Type)
  | setDb (d : D)
  | setGen (s : Option (Stage Qy D Pl))
  | add (s : Stage Qy D Pl)

/-- The check of one stage for a database. -/
def stageDb (d : D) (s : Stage Qy D Pl) : Option Exc := s.check.bind fun c => ensureDb (c.onDb d)

/-- `_ensure_pipeline_integrity` (postbound/_pipelines.py:1204-1260): the first exception. -/
def NPipe.integrity (p : NPipe Qy D Pl) (db : Option D) (gen extra : Option (Stage Qy D Pl)) : Option Exc :=
  let d := db.getD p.db
  ((gen.or p.gen).toList ++ extra.toList ++ p.steps).findSome? (stageDb d)

/-- The setters (postbound/_pipelines.py:1106-1109, 1130-1135, 1137-1156). -/
def NPipe.call (p : NPipe Qy D Pl) : NCall Qy D Pl → NPipe Qy D Pl × Option Exc
  | .setDb d =>
    match p.integrity (some d) none none with
    | some e => (p, some e)
    | none => ({ p with db := d }, none)
  | .setGen s =>
    match p.integrity none s none with
    | some e => (p, some e)
    | none => ({ p with gen := s }, none)
  | .add s =>
    match p.integrity none none (some s) with
    | some e => (p, some e)
    | none => ({ p with steps := p.steps ++ [s] }, none)

/-- A history of calls. -/
def NPipe.run (p : NPipe Qy D Pl) (calls : List (NCall Qy D Pl)) : NPipe Qy D Pl := calls.foldl (fun p c => (p.call c).1) p

/-- The check of one stage for a query. -/
def stageQuery (isSet : Qy → Bool) (q : Qy) (s : Stage Qy D Pl) : Option Exc := s.check.bind fun c => ensureQuery isSet (c.onQuery q) q

/-- `query_execution_plan` (postbound/_pipelines.py:1174-1183, 1262-1287). `native` is the optimizer of the database. -/
def NPipe.optimize (isSet : Qy → Bool) (native : D → Qy → Pl) (p : NPipe Qy D Pl) (q : Qy) : Except Exc Pl :=
  match (p.gen.toList ++ p.steps).findSome? (stageQuery isSet q) with
  | some e => .error e
  | none =>
    let init := match p.gen with
      | some s => s.plan q
      | none => native p.db q
    .ok (p.steps.foldl (fun plan s => s.improve q plan) init)

/-! ### Training -/

/-- A trainable stage object: its name, whether its class requires training, the test for completed training and the training
itself, which returns metrics. -/
structure Trainee (σ T M : Type) where
  name : String
  required : Bool
  done : σ → Bool
  fit : T → σ → σ × M

/-- The effects of training: the states of the stage objects, the metrics and the sequence of calls. -/
structure TState (σ M : Type) where
  heap : Nat → σ
  metrics : Dict String M
  log : List Nat

variable {σ T M : Type}

/-- One iteration of `train_on_database` and `train_on_workload` (postbound/_pipelines.py:194-198, 218-222). -/
def trainStep (obj : Nat → Trainee σ T M) (t : T) (s : TState σ M) (i : Nat) : TState σ M :=
  if !(obj i).required || (obj i).done (s.heap i) then s
  else
    let r := (obj i).fit t (s.heap i)
    ⟨fun j => if j = i then r.1 else s.heap j, Dict.set s.metrics (obj i).name r.2, s.log ++ [i]⟩

/-- `train_on_database` and `train_on_workload` (postbound/_pipelines.py:183-199, 205-223). -/
def train (obj : Nat → Trainee σ T M) (t : T) (stages : List Nat) (heap : Nat → σ) : TState σ M :=
  stages.foldl (trainStep obj t) ⟨heap, [], []⟩

/-- `train_on_samples` (postbound/_pipelines.py:229-260): `sample` retrieves the training data of a stage. The flag is false if
a `ValueError` is raised. -/
def trainSamples (obj : Nat → Trainee σ T M) (sample : Nat → Option T) : List Nat → TState σ M → TState σ M × Bool
  | [], s => (s, true)
  | i :: is, s =>
    if !(obj i).required || (obj i).done (s.heap i) then trainSamples obj sample is s
    else
      match sample i with
      | none => (s, false)
      | some t => trainSamples obj sample is (trainStep obj t s i)

/-! ### Stage classes -/

/-- The methods of the training interface. -/
inductive Meth
  | fitDatabase | databaseFitCompleted | fitWorkload | workloadFitCompleted | fitSamples | sampleSpec | sampleFitCompleted
  | learnFromFeedback
deriving DecidableEq, Repr

/-- A class: its implementation of each method. -/
abbrev Cls := Meth → Nat

/-- `_missing_method_impls` (postbound/_stages.py:20-43). -/
def missingImpls (child base : Cls) (methods : List Meth) : List Meth :=
  let missing := methods.filter fun m => child m = base m
  if missing.length = methods.length then [] else missing

/-- `OptimizationStage.__new__` (postbound/_stages.py:123-153): whether a stage can be created. -/
def canCreate (child base : Cls) : Bool :=
  (missingImpls child base [.fitDatabase, .databaseFitCompleted]).isEmpty &&
  (missingImpls child base [.fitWorkload, .workloadFitCompleted]).isEmpty &&
  (missingImpls child base [.fitSamples, .sampleSpec, .sampleFitCompleted]).isEmpty

/-- `requires_data_training` (postbound/_stages.py:186-198). -/
def requiresData (child base : Cls) : Bool := child .fitDatabase != base .fitDatabase

/-- `requires_workload_training` (postbound/_stages.py:229-240). -/
def requiresWorkload (child base : Cls) : Bool := child .fitWorkload != base .fitWorkload

/-- `requires_sample_training` (postbound/_stages.py:289-300). -/
def requiresSamples (child base : Cls) : Bool := child .fitSamples != base .fitSamples

/-- `uses_online_feedback` (postbound/_stages.py:330-344). -/
def usesFeedback (child base : Cls) : Bool := child .learnFromFeedback != base .learnFromFeedback

/-- Whether calling a method raises `NotImplementedError` (postbound/_stages.py:158-184, 200-227, 242-287, 302-328). -/
def raises (child base : Cls) (m : Meth) : Bool := child m == base m

end PB.Pipelines
