import Verif.Model.QueryExec

/-!
# Executors: timeouts and parallel queries

Models `TimeoutQueryExecutor` with its worker process and its state machine (postbound/postgres.py 3476-3879) and
`ParallelQueryExecutor` (postbound/postgres.py 3255-3473).  The server, the sessions and the texts are those of `QueryExec`.
-/

namespace PB.Exec

open PB PB.QExec

/-! ### Timeouts -/

/-- The events that the worker sends over the pipe (postgres.py 3476-3513). -/
inductive Event where
  | connected (pid : Nat)
  | ready
  | finished
  | result (o : Outcome) (runtime : Nat)
  | error (o : Outcome)

/-- What is decided outside of the program. -/
structure Env where
  /-- the process ID of the backend, or the error of the connection -/
  backend : Except Outcome Nat
  /-- the duration of the query -/
  runtime : Nat
  /-- the first event after the query has been started arrives before the timeout -/
  inTime : Bool
  /-- a query that is not finished in time: has it been committed before it is cancelled? -/
  committed : Bool
  /-- the worker process is killed after it has sent this number of events -/
  killed : Option Nat

/-- `_timeout_query_worker` after the preparation (postgres.py 3657-3695): the events and the session. -/
def workerQuery {D : Type} (S : Server D) (env : Env) (sess : Sess D) (text : String) (raw : Bool) : List Event × Sess D :=
  match runText S sess text with
  | (s, .fail e) => ([.ready, .error (.dbError e)], s)
  | (s, .ok _ none) => ([.ready, .finished, .error .driverError], s)
  | (s, .ok _ (some rows)) => ([.ready, .finished, .result (give raw (some (asRows rows))) env.runtime], s)

/-- `_timeout_query_worker` (postgres.py 3605-3700): the events that are sent and the session of the worker.  The worker opens a
connection of its own with the settings of the main connection. -/
def worker {D : Type} (S : Server D) (env : Env) (sess : Sess D) (q : QArg) (raw : Bool) : List Event × Sess D :=
  match env.backend with
  | .error e => ([.error e], sess)
  | .ok pid =>
    match q with
    | .text t => let r := workerQuery S env sess t raw; (.connected pid :: r.1, r.2)
    | .query prep body =>
      if prep = "" then let r := workerQuery S env sess body raw; (.connected pid :: r.1, r.2)
      else
        match runText S sess prep with
        | (s, .fail _) => ([.connected pid, .error .driverError], s)
        | (s, .ok _ _) => let r := workerQuery S env s body raw; (.connected pid :: r.1, r.2)

/-- How the state machine ends: with a result, with a timeout, with an error, with a `StateError`; or never. -/
inductive Status where
  | success (o : Outcome) (runtime : Nat)
  | timeout
  | failure (o : Outcome)
  | stateError
  | hang
  deriving Inhabited

/-- `_timeout_worker_await_result` (postgres.py 3577-3588): the status and the backends that are cancelled.  A pipe without
events blocks forever: the main process itself has an open handle for writing. -/
def awaitResult (pid : Nat) : List Event → Status × List Nat
  | [] => (.hang, [])
  | .result o t :: _ => (.success o t, [])
  | .error e :: _ => (.failure e, [pid])
  | _ :: _ => (.stateError, [])

/-- `_timeout_worker_run_query` (postgres.py 3551-3574); `Pipe.poll` fails if there is no event in time. -/
def runQuery (inTime : Bool) (pid : Nat) (evs : List Event) : Status × List Nat :=
  if inTime && !evs.isEmpty then
    match evs with
    | .finished :: evs => awaitResult pid evs
    | .error e :: _ => (.failure e, [pid])
    | _ => (.stateError, [])
  else (.timeout, [pid])

/-- `_timeout_worker_prep` (postgres.py 3531-3548). -/
def prepState (inTime : Bool) (pid : Nat) : List Event → Status × List Nat
  | [] => (.hang, [])
  | .ready :: evs => runQuery inTime pid evs
  | .error e :: _ => (.failure e, [pid])
  | _ :: _ => (.stateError, [])

/-- `_timeout_worker_ctl` (postgres.py 3516-3528). -/
def ctl (inTime : Bool) : List Event → Status × List Nat
  | [] => (.hang, [])
  | .connected pid :: evs => prepState inTime pid evs
  | .error e :: _ => (.failure e, [])
  | _ :: _ => (.stateError, [])

/-- What the caller of `execute_query` gets. -/
inductive Final where
  | returned (o : Outcome)
  | raised (o : Outcome)
  | timeoutError
  | stateError
  | hang

/-- The runtime that is remembered: the one of the query, the timeout or NaN. -/
inductive Runtime where
  | ns (n : Nat)
  | limit
  | nan
  deriving DecidableEq

structure TimeoutRun (D : Type) where
  final : Final
  /-- the data after the call -/
  data : D
  /-- the backends that have been cancelled -/
  cancelled : List Nat
  /-- `last_query_runtime`, if it has been changed -/
  runtime : Option Runtime

/-- The data after the worker has ended: a query that is cancelled in time has no effect. -/
def finalData {D : Type} (env : Env) (before after : D) : Status → D
  | .timeout => if env.committed then after else before
  | _ => after

/-- The look-up in the cache (postgres.py 3760-3765); it is keyed by texts, so queries are never found. -/
def cachedResult {D : Type} (st : St D) (flag : Option Bool) : QArg → Option Res
  | .text t => if flag.getD false then Dict.get? st.cache t else none
  | .query _ _ => none

/-- The events that arrive. -/
def arriving (killed : Option Nat) (evs : List Event) : List Event :=
  match killed with
  | some n => evs.take n
  | none => evs

/-- The end of `execute_query` (postgres.py 3809-3840). -/
def conclude {D : Type} (data : D) (cancelled : List Nat) : Status → TimeoutRun D
  | .success o t => ⟨.returned o, data, cancelled, some (.ns t)⟩
  | .timeout => ⟨.timeoutError, data, cancelled, some .limit⟩
  | .failure o => ⟨.raised o, data, cancelled, some .nan⟩
  | .stateError => ⟨.stateError, data, cancelled, none⟩
  | .hang => ⟨.hang, data, cancelled, none⟩

/-- `TimeoutQueryExecutor.execute_query` (postgres.py 3733-3840). -/
def timeoutExecute {D : Type} (S : Server D) (env : Env) (st : St D) (q : QArg) (flag : Option Bool) (raw : Bool) : TimeoutRun D :=
  match cachedResult st flag q with
  | some r => ⟨.returned (.raw r), st.sess.data, [], none⟩
  | none =>
    let w := worker S env st.sess q raw
    let c := ctl env.inTime (arriving env.killed w.1)
    conclude (finalData env st.sess.data w.2.data c.1) c.2 c.1

/-! ### Parallel execution -/

/-- The result of a task (postgres.py 3271-3327): rows, `None` if the statement timeout is exceeded, or an exception. -/
inductive TaskRes where
  | rows (r : List (List Val))
  | timedOut
  | error

/-- A queued query; queries are identified by texts. -/
structure Task where
  query : String
  res : TaskRes

/-- The number of threads (postgres.py 3373-3375). -/
def nThreads (requested : Option Int) (cpus : Nat) : Nat :=
  match requested with
  | some n => if n > 0 then n.toNat else cpus
  | none => cpus

/-- The thread pool: tasks that wait, tasks that are executed and tasks that are completed, in the order of their completion. -/
structure Pool where
  waiting : List Nat
  running : List Nat
  completed : List Nat
  deriving DecidableEq

/-- The steps of the pool: a free thread takes the next task, or a thread completes its task. -/
inductive Step (threads : Nat) : Pool → Pool → Prop
  | start (i : Nat) (w r c : List Nat) : r.length < threads → Step threads ⟨i :: w, r, c⟩ ⟨w, i :: r, c⟩
  | finish (i : Nat) (w r c : List Nat) : i ∈ r → Step threads ⟨w, r, c⟩ ⟨w, r.erase i, c ++ [i]⟩

/-- What the executor has collected: the results, and the arguments of the calls of `callback`. -/
structure Collected where
  results : List (String × Option (List (List Val)))
  calls : List (String × (String × Option (List (List Val))))

/-- The loop of `drain_queue` (postgres.py 3438-3446) over the tasks in the order of their completion; the flag is `false` if the
exception of a task is raised.  The result of a task is the pair of its query and its rows. -/
def drain (acc : Collected) : List Task → Collected × Bool
  | [] => (acc, true)
  | t :: ts =>
    match t.res with
    | .error => (acc, false)
    | .rows r => drain ⟨acc.results ++ [(t.query, some r)], acc.calls ++ [(t.query, (t.query, some r))]⟩ ts
    | .timedOut => drain ⟨acc.results ++ [(t.query, none)], acc.calls ++ [(t.query, (t.query, none))]⟩ ts

/-- `result_set` (postgres.py 3448-3457). -/
def resultSet (c : Collected) : Dict String (Option (List (List Val))) := Dict.ofList c.results

end PB.Exec
