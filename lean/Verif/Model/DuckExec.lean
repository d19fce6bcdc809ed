import Verif.Model.Dict

/-! Model of the timeouts and the measured runtimes of the DuckDB interface (postbound/duckdb.py:93-163, 230-234). Results
without a timeout are the subject of `Model/QueryExec`; here, queries are texts. -/

namespace PB.DuckExec

open PB

/-- `_last_query_runtime`: NaN, a duration or infinity. -/
inductive Runtime where
  | nan
  | dur (ns : Nat)
  | inf
  deriving DecidableEq, Repr

/-- What the query does, seen from the caller that waits for `timeout` seconds: it ends in time with a result or with an error; or it
is still running when the time is up, and then the interrupt ends it with an exception of DuckDB, or it ends by itself
before the interrupt reaches it. -/
inductive Run (R : Type) where
  | done (rows : R) (ns : Nat)
  | failed
  | interrupted
  | late (ns : Nat)
  | lateFailed
  deriving DecidableEq, Repr

/-- The result of a call: rows, `None`, a TimeoutError, or an exception of DuckDB (an error or an interrupt). -/
inductive Out (R : Type) where
  | rows (r : R)
  | none
  | timeoutError
  | dbError
  | interruptError
  deriving DecidableEq, Repr

/-- The state of the interface: the runtime and the query cache. -/
structure St (R : Type) where
  runtime : Runtime
  cache : Dict String R

variable {R : Type}

/-- The runtime after the worker has ended (postbound/duckdb.py:230-234): it is only set if the query has been completed. -/
def afterWorker (old : Runtime) : Run R → Runtime
  | .done _ ns => .dur ns
  | .late ns => .dur ns
  | _ => old

/-- `execute_with_timeout` (postbound/duckdb.py:138-156). The second `promise.result()` (line 151) raises the exception of the worker
again. -/
def executeWithTimeout (st : St R) (run : Run R) : Out R × St R :=
  let st' := { st with runtime := afterWorker st.runtime run }
  match run with
  | .done rows _ => (.rows rows, st')
  | .failed => (.dbError, st')
  | .interrupted => (.interruptError, st')
  | .lateFailed => (.dbError, st')
  | .late _ => (.none, { st' with runtime := .inf })

/-- A query without a timeout (postbound/duckdb.py:124-131): there is no interrupt. -/
def executePlain (st : St R) : Run R → Out R × St R
  | .done rows ns => (.rows rows, { st with runtime := .dur ns })
  | .late _ => (.none, st)
  | _ => (.dbError, st)

/-- The end of `execute_query` (postbound/duckdb.py:119-136). -/
def executeUncached (st : St R) (query : String) (cache : Bool) (timeout : Bool) (run : Run R) : Out R × St R :=
  match (if timeout then executeWithTimeout st run else executePlain st run) with
  | (.rows r, st') => (.rows r, if cache then { st' with cache := st'.cache.set query r } else st')
  | (.none, st') => (.timeoutError, st')
  | other => other

/-- `execute_query` of a text with `raw=True` (postbound/duckdb.py:93-136). Simplification: cached results are never `None`. -/
def executeQuery (st : St R) (query : String) (cache : Bool) (timeout : Bool) (run : Run R) : Out R × St R :=
  if cache then
    match st.cache.get? query with
    | some r => (.rows r, st)
    | none => executeUncached st query cache timeout run
  else executeUncached st query cache timeout run

/-- `time_query` (postbound/duckdb.py:161-163): the runtime, or the exception. -/
def timeQuery (st : St R) (query : String) (timeout : Bool) (run : Run R) : Except (Out R) Runtime × St R :=
  match executeQuery st query false timeout run with
  | (.rows _, st') => (.ok st'.runtime, st')
  | (o, st') => (.error o, st')

/-- The calls of a history. -/
inductive Call (R : Type) where
  | query (text : String) (cache timeout : Bool) (run : Run R)
  | withTimeout (run : Run R)

/-- One call. -/
def step (st : St R) : Call R → Out R × St R
  | .query t c lim run => executeQuery st t c lim run
  | .withTimeout run => executeWithTimeout st run

/-- The state after a history. -/
def runAll (st : St R) (calls : List (Call R)) : St R := calls.foldl (fun s c => (step s c).2) st

end PB.DuckExec
