import Mathlib.Data.List.Basic
import Mathlib.Data.Finset.Basic

/-!
Model of the benchmarking loop (postbound/bench.py).

What the outside world does is part of the input: the outcome of the optimization of each query and the outcome of each of its
executions. The theorems quantify over all of them. Queries, points in time, durations and descriptions of the database are numbers, `R` is
the type of result sets. Exceptions of callbacks and of the writers of the progressive output are not modelled, neither are progress bars.
-/

namespace PB.Bench

/-- `ExecStatus` (postbound/bench.py:60). -/
inductive Status
  | ok | timeout | optError | execError
deriving DecidableEq, Repr

/-- `ErrorHandling` (postbound/bench.py:51). -/
inductive Action
  | raise | log | ignore
deriving DecidableEq, Repr

/-- What `_execute_query` does (postbound/bench.py:530-567): `escaped` is an exception of the checks and of the query preparation
(542-546), which happen outside of the `try` block. -/
inductive Outcome (R : Type)
  | ok (r : R) (time : Nat)
  | timeout (time : Nat)
  | failed (e : String)
  | escaped (e : String)
deriving DecidableEq, Repr

/-- One execution: the time at which it starts, the description of the database, its outcome (postbound/bench.py:933-937). -/
structure Exec (R : Type) where
  stamp : Nat
  config : Nat
  outcome : Outcome R
deriving DecidableEq, Repr

/-- What `_optimize_query` does (postbound/bench.py:492-508); `none` if there is no pipeline. -/
inductive Opt
  | none
  | ok (query : Nat) (time : Nat)
  | failed (e : String)
deriving DecidableEq, Repr

/-- One entry of a workload along with what happens to it. -/
structure Entry (R : Type) where
  label : String
  query : Nat
  opt : Opt
  execs : Nat → Exec R

/-- Exceptions. `shape`: columns of different lengths in a data frame, `empty`: concatenation of no data frames. -/
inductive Err
  | raised (e : String)
  | assertion
  | shape
  | empty
deriving DecidableEq, Repr

/-- `_BenchmarkConfig` (postbound/bench.py:352-367): the repetitions per query, the error action, whether there is a progressive output and
a callback, and whether the pipeline requires online training. -/
structure Cfg where
  reps : Nat
  action : Action
  output : Bool
  callback : Bool
  online : Bool

/-- A cell of the result column (postbound/db/_db.py:257-286): `None` becomes an empty list. Other result sets are simplified, see
`PB.Stats.simplify`. -/
inductive Cell (R : Type)
  | missing
  | emptyList
  | value (r : R)
deriving DecidableEq, Repr

/-- `simplify_result_set` (postbound/db/_db.py:257-286). -/
def simplified {R : Type} : Option R → Cell R
  | .none => .emptyList
  | some r => .value r

/-- A row of the data frame without its index (postbound/bench.py:748-782). -/
structure Row (R : Type) where
  label : String
  stamp : Option Nat
  wrep : Nat
  qrep : Nat
  query : Nat
  status : Status
  result : Cell R
  time : Option Nat
  reason : String
  config : Option Nat
  optTime : Option Nat
  optimized : Option Nat
deriving DecidableEq, Repr

/-- `_ResultSample` (postbound/bench.py:638-668). -/
structure Sample (R : Type) where
  label : String
  query : Nat
  wrep : Nat
  initialIdx : Nat
  stamps : List (Option Nat) := []
  status : List Status := []
  reasons : List String := []
  results : List (Option R) := []
  times : List (Option Nat) := []
  configs : List (Option Nat) := []
  optTime : Option Nat := .none
  optimized : Option Nat := .none

variable {R : Type}

/-- `optimization_results` (postbound/bench.py:670-679). -/
def Sample.optResults (s : Sample R) (q t : Nat) : Sample R := { s with optTime := some t, optimized := some q }

/-- `optimization_failure` (postbound/bench.py:681-691). -/
def Sample.optFailure (s : Sample R) (e : String) (reps : Nat) : Sample R :=
  { s with
    stamps := s.stamps ++ List.replicate reps .none
    status := s.status ++ List.replicate reps .optError
    reasons := s.reasons ++ List.replicate reps e
    results := s.results ++ List.replicate reps .none
    times := s.times ++ List.replicate reps .none
    configs := s.configs ++ List.replicate reps .none }

/-- `start_execution` (postbound/bench.py:693-694). -/
def Sample.start (s : Sample R) (stamp : Nat) : Sample R := { s with stamps := s.stamps ++ [some stamp] }

/-- `add_exec_sample` (postbound/bench.py:696-703). -/
def Sample.addOk (s : Sample R) (r : R) (t config : Nat) : Sample R :=
  { s with
    status := s.status ++ [.ok], reasons := s.reasons ++ [""], results := s.results ++ [some r]
    times := s.times ++ [some t], configs := s.configs ++ [some config] }

/-- `add_exec_timeout` (postbound/bench.py:705-710). -/
def Sample.addTimeout (s : Sample R) (t config : Nat) : Sample R :=
  { s with
    status := s.status ++ [.timeout], reasons := s.reasons ++ [""], results := s.results ++ [.none]
    times := s.times ++ [some t], configs := s.configs ++ [some config] }

/-- `add_exec_failure` (postbound/bench.py:712-717). -/
def Sample.addFailure (s : Sample R) (e : String) (config : Nat) : Sample R :=
  { s with
    status := s.status ++ [.execError], reasons := s.reasons ++ [e], results := s.results ++ [.none]
    times := s.times ++ [.none], configs := s.configs ++ [some config] }

/-- `num_executions` (postbound/bench.py:722-723). -/
def Sample.numExecutions (s : Sample R) : Nat := s.results.length

/-- `last_successful` (postbound/bench.py:725-726). -/
def Sample.lastSuccessful (s : Sample R) : Bool := s.status.getLast? = some .ok || s.status.getLast? = some .timeout

/-- One row of a data frame from one cell of each column. -/
def Sample.mkRow (s : Sample R) (qrep : Nat) (stamp : Option Nat) (status : Status) (result : Option R) (time : Option Nat) (reason : String)
    (config : Option Nat) : Row R :=
  ⟨s.label, stamp, s.wrep, qrep, s.query, status, simplified result, time, reason, config, s.optTime, s.optimized⟩

/-- The i-th row (postbound/bench.py:766-782). -/
def Sample.rowAt (s : Sample R) (i : Nat) : Option (Nat × Row R) :=
  s.stamps[i]?.bind fun stamp => s.status[i]?.bind fun status => s.results[i]?.bind fun result => s.times[i]?.bind fun time =>
    s.reasons[i]?.bind fun reason => s.configs[i]?.map fun config =>
      (s.initialIdx + i, s.mkRow (i + 1) stamp status result time reason config)

/-- `to_df()` (postbound/bench.py:741-784): `pd.DataFrame` requires columns of the same length, which is `n_samples` for some of them. -/
def Sample.toDf (s : Sample R) : Option (List (Nat × Row R)) :=
  if s.results.length = 0 then some []
  else if s.stamps.length = s.results.length && s.status.length = s.results.length && s.times.length = s.results.length
      && s.reasons.length = s.results.length && s.configs.length = s.results.length then
    (List.range s.results.length).mapM s.rowAt
  else .none

/-- `to_df(only_last=True)` (postbound/bench.py:742-764): no row if there is no sample. -/
def Sample.lastRow (s : Sample R) : Option (Nat × Row R) :=
  s.stamps.getLast?.bind fun stamp => s.status.getLast?.bind fun status => s.results.getLast?.bind fun result => s.times.getLast?.bind
    fun time => s.reasons.getLast?.bind fun reason => s.configs.getLast?.map fun config =>
      (s.initialIdx + s.results.length - 1, s.mkRow s.results.length stamp status result time reason config)

/-- Observable effects besides the result: the rows of the progressive output, the rows given to the callback (of which it sees the query,
the status, the result and the two times, postbound/bench.py:728-739), and the feedback for the pipeline. -/
structure Eff (R : Type) where
  written : List (Nat × Row R) := []
  called : List (Row R) := []
  learned : List (Nat × R × Nat) := []

/-- The end of `_exec_ctl_loop` (postbound/bench.py:953-957). -/
def finish (cfg : Cfg) (s : Sample R) (eff : Eff R) : Sample R × Eff R :=
  (s, { eff with
    written := if cfg.output && s.lastSuccessful then eff.written ++ s.lastRow.toList else eff.written
    called := if cfg.callback && s.lastSuccessful then eff.called ++ (s.lastRow.map Prod.snd).toList else eff.called })

/-- `_exec_ctl_loop` (postbound/bench.py:919-957). -/
def execStep (cfg : Cfg) (st : Sample R × Eff R) (x : Exec R) : (Sample R × Eff R) × Option Err :=
  match x.outcome with
  | .escaped e => ((st.1.start x.stamp, st.2), some (.raised e))
  | .ok r t => (finish cfg ((st.1.start x.stamp).addOk r t x.config) st.2, .none)
  | .timeout t => (finish cfg ((st.1.start x.stamp).addTimeout t x.config) st.2, .none)
  | .failed e =>
    match cfg.action with
    | .log => (finish cfg ((st.1.start x.stamp).addFailure e x.config) st.2, .none)
    | .raise => ((st.1.start x.stamp, st.2), some (.raised e))
    | .ignore => (finish cfg (st.1.start x.stamp) st.2, .none)

/-- A loop that ends with the first exception. -/
def forEach {S α : Type} (step : S → α → S × Option Err) (s : S) : List α → S × Option Err
  | [] => (s, .none)
  | a :: l =>
    match (step s a).2 with
    | .none => forEach step (step s a).1 l
    | some e => ((step s a).1, some e)

/-- One iteration of the loop over `to_execution_results()` (postbound/bench.py:786-800, 1011-1016). -/
def learnStep (query : Nat) (eff : Eff R) (x : Status × Option R × Option Nat) : Eff R × Option Err :=
  if x.1 = .optError || x.1 = .execError then (eff, .none)
  else
    match x.2.1 with
    | .none => (eff, some .assertion)
    | some r => ({ eff with learned := eff.learned ++ [(query, r, 1000 * x.2.2.getD 0)] }, .none)

/-- `_ExecutionResults` (postbound/bench.py:880-886) and the effects. -/
structure St (R : Type) where
  counter : Nat := 1
  wrep : Nat := 0
  samples : List (Sample R) := []
  eff : Eff R := {}

/-- The counter after `next_query` (postbound/bench.py:891-894). -/
def St.nextCounter (st : St R) : Nat := st.counter + (st.samples.getLast?.map Sample.numExecutions).getD 0

/-- The sample that `next_query` creates (postbound/bench.py:896-905). -/
def St.newSample (st : St R) (e : Entry R) : Sample R :=
  { label := e.label, query := e.query, wrep := st.wrep, initialIdx := st.nextCounter }

/-- The executions of a query (postbound/bench.py:999-1016): `query` is the optimized query if there is a pipeline. -/
def executions (cfg : Cfg) (st : St R) (s : Sample R) (query : Option Nat) (e : Entry R) : St R × Option Err :=
  match forEach (execStep cfg) (s, st.eff) ((List.range cfg.reps).map e.execs) with
  | (p, some err) => ({ st with samples := st.samples ++ [p.1], eff := p.2 }, some err)
  | (p, .none) =>
    match query with
    | .none => ({ st with samples := st.samples ++ [p.1], eff := p.2 }, .none)
    | some q =>
      if cfg.online then
        let r := forEach (learnStep q) p.2 (p.1.status.zip (p.1.results.zip p.1.times))
        ({ st with samples := st.samples ++ [p.1], eff := r.1 }, r.2)
      else ({ st with samples := st.samples ++ [p.1], eff := p.2 }, .none)

/-- The handling of failed optimizations (postbound/bench.py:984-997). -/
def optFailed (cfg : Cfg) (st : St R) (s : Sample R) (err : String) : St R × Option Err :=
  match cfg.action with
  | .log =>
    ({ st with
      samples := st.samples ++ [s]
      eff := { st.eff with written := if cfg.output then st.eff.written ++ s.lastRow.toList else st.eff.written } }, .none)
  | .raise => ({ st with samples := st.samples ++ [s] }, some (.raised err))
  | .ignore => (st, .none)

/-- One iteration of `_workload_ctl_loop` (postbound/bench.py:967-1016). -/
def queryStep (cfg : Cfg) (st : St R) (e : Entry R) : St R × Option Err :=
  match e.opt with
  | .none => executions cfg { st with counter := st.nextCounter } (st.newSample e) .none e
  | .ok q t => executions cfg { st with counter := st.nextCounter } ((st.newSample e).optResults q t) (some q) e
  | .failed err => optFailed cfg { st with counter := st.nextCounter } ((st.newSample e).optFailure err cfg.reps) err

/-- One repetition of the workload (postbound/bench.py:1213-1223); the entries are those of the possibly shuffled workload. -/
def repStep (cfg : Cfg) (st : St R) (entries : List (Entry R)) : St R × Option Err :=
  forEach (queryStep cfg) { st with wrep := st.wrep + 1 } entries

/-- `_ExecutionResults.to_df` (postbound/bench.py:913-916). -/
def St.toDf (st : St R) : Except Err (List (Nat × Row R)) :=
  if st.samples.isEmpty then .error .empty
  else
    match st.samples.mapM Sample.toDf with
    | .none => .error .shape
    | some dfs => .ok dfs.flatten

/-- How the log entry of the run is closed. -/
inductive LogEnd
  | completed
  | failed (e : Err)
deriving DecidableEq, Repr

/-- What a call of `execute_workload` does: the result or exception, the final log entry, and the effects. -/
structure Report (R : Type) where
  out : Except Err (List (Nat × Row R))
  log : LogEnd
  eff : Eff R

/-- `execute_workload` (postbound/bench.py:1212-1233) for the workloads of the repetitions. -/
def execute (cfg : Cfg) (workloads : List (List (Entry R))) : Report R :=
  match forEach (repStep cfg) {} workloads with
  | (st, some e) => ⟨.error e, .failed e, st.eff⟩
  | (st, .none) => ⟨st.toDf, .completed, st.eff⟩

/-! ### The experiment log -/

/-- Status of a log entry (postbound/bench.py:383, 430, 455). -/
inductive LogStatus
  | running | completed | failed
deriving DecidableEq, Repr

/-- An entry of the experiment log, as far as it is used (postbound/bench.py:379-393, 429-430, 454-456). -/
structure LogEntry where
  experiment : String
  start : Nat
  ended : Option Nat := none
  status : LogStatus := .running
  error : Option String := none
deriving DecidableEq, Repr

/-- The log file: missing, or a list of entries. -/
abbrev LogFile := Option (List LogEntry)

/-- `_init_benchmark_log` (postbound/bench.py:370-409), where `start` is the time of the call. -/
def initLog (experiment : String) (start : Nat) (f : LogFile) : LogFile :=
  match f with
  | none => some [{ experiment, start }]
  | some logs => some (logs ++ [{ experiment, start }])

/-- `_finalize_benchmark_log` (postbound/bench.py:412-432); the file exists. -/
def finalizeLog (experiment : String) (start now : Nat) (f : LogFile) : LogFile :=
  f.map fun logs => logs.map fun e =>
    if !(e.experiment = experiment) || !(e.start = start) then e else { e with ended := some now, status := .completed }

/-- `_failed_benchmark_log` (postbound/bench.py:435-458). -/
def failLog (experiment : String) (start now : Nat) (error : String) (f : LogFile) : LogFile :=
  f.map fun logs => logs.map fun e =>
    if !(e.experiment = experiment) || !(e.start = start) then e
    else { e with ended := some now, status := .failed, error := some error }

/-- The operations on a log file. -/
inductive LogOp
  | init (experiment : String) (start : Nat)
  | finalize (experiment : String) (start now : Nat)
  | fail (experiment : String) (start now : Nat) (error : String)
deriving DecidableEq, Repr

/-- One operation (postbound/bench.py:370-458). -/
def LogOp.apply : LogOp → LogFile → LogFile
  | .init x s, f => initLog x s f
  | .finalize x s n, f => finalizeLog x s n f
  | .fail x s n e, f => failLog x s n e f

/-- A history of operations, each of which is uninterrupted. -/
def runLog (ops : List LogOp) (f : LogFile) : LogFile := ops.foldl (fun f op => op.apply f) f

/-- The two parts of an operation of a process: reading the file, and writing it with the operation applied to what has been read
(postbound/bench.py:400-409, 422-432, 447-458). -/
inductive FileOp
  | load (proc : Nat)
  | store (proc : Nat) (op : LogOp)
deriving DecidableEq, Repr

/-- The log file and what the processes have read. -/
structure Shared where
  file : LogFile
  bufs : Nat → LogFile

/-- One part of an operation (postbound/bench.py:400-409, 422-432, 447-458). -/
def FileOp.apply (s : Shared) : FileOp → Shared
  | .load p => { s with bufs := fun q => if q = p then s.file else s.bufs q }
  | .store p op => { s with file := op.apply (s.bufs p) }

/-- A history of parts of operations of concurrent processes. -/
def runShared (ops : List FileOp) (s : Shared) : Shared := ops.foldl FileOp.apply s

end PB.Bench
