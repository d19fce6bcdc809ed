import Mathlib.Data.List.Basic
import Verif.Model.DbHints

/-!
Model of the control of local Postgres servers (postbound/postgres.py:3175-3238), of operator settings of a session (postbound/postgres.py:2922-2942), of hints for the execution of queries (postbound/postgres.py:1241-1267) and of the selection of
presets (postbound/opt/presets.py:117-155).
-/

namespace PB.PgCtl
open PB PB.Hints PB.QP

/-- The environment: whether `pg_ctl` is on the path, the variable `PGDATA` (empty if it is not set), `str(Path(p).expanduser())` and the effect of commands on the servers (exit code and new state). -/
structure Sys (W : Type) where
  onPath : Bool
  env : String
  expand : String → String
  run : List String → W → Int × W

variable {W : Type}

/-- `Path(...)` is true for all paths, since `Path` has no `__bool__` (postbound/postgres.py:3186, 3213). -/
def pathTruthy (_ : String) : Bool := true

/-- `start` (postbound/postgres.py:3175-3196): whether the call succeeds (otherwise it raises an error) and the new state. -/
def start (s : Sys W) (pgdata logfile : String) (w : W) : Bool × W :=
  if s.onPath = false then (false, w)
  else
    let d := s.expand (if pgdata = "" then s.env else pgdata)
    if pathTruthy d = false then (false, w)
    else
      let r := s.run (["pg_ctl", "-D", d] ++ (if logfile = "" then [] else ["-l", logfile]) ++ ["start"]) w
      (decide (r.1 = 0), r.2)

/-- `stop` (postbound/postgres.py:3199-3218): whether the call succeeds and the new state. -/
def stop (s : Sys W) (pgdata : String) (raiseOnError : Bool) (w : W) : Bool × W :=
  if s.onPath = false then (false, w)
  else
    let d := s.expand (if pgdata = "" then s.env else pgdata)
    if pathTruthy d = false then (false, w)
    else
      let r := s.run ["pg_ctl", "-D", d, "stop"] w
      (decide (r.1 = 0) || !raiseOnError, r.2)

/-- `is_running` (postbound/postgres.py:3221-3238): the result (`none` is an exception) and the new state. -/
def isRunning (s : Sys W) (pgdata : String) (w : W) : Option Bool × W :=
  if s.onPath = false then (none, w)
  else
    let d := if pgdata = "" then s.env else pgdata
    let r := s.run (["pg_ctl"] ++ (if d = "" then [] else ["-D", d]) ++ ["status"]) w
    (some (decide (r.1 = 0)), r.2)

/-- The settings of a session that were changed. -/
abbrev Session := String → Option String

/-- `configure_operator` (postbound/postgres.py:2922-2942): the settings afterwards, `none` is an exception. -/
def configure (s : Session) (op : PhysOp) (enabled : Bool) : Option Session :=
  match DbHints.pgSetting op with
  | none => none
  | some name => some fun n => if n = name then some (if enabled then "on" else "off") else s n

/-- Several calls of `configure_operator`; errors leave the settings as they are. -/
def configureAll : Session → List (PhysOp × Bool) → Session
  | s, [] => s
  | s, c :: cs => configureAll ((configure s c.1 c.2).getD s) cs

/-- A query for execution: a text or a parsed query. -/
inductive Query (Q : Type)
  | text (s : String)
  | parsed (q : Q)

/-- `_apply_query_hints` (postbound/postgres.py:1241-1267); `hint` is `generate_hints`. -/
def applyHints {Q P J O R : Type} (hint : Q → Option P → Option J → Option O → Option R → Q) (q : Query Q) (plan : Option P) (order : Option J) (ops : Option O) (params : Option R) : Query Q :=
  match q with
  | .text s => .text s
  | .parsed q => if !(plan.isSome || order.isSome || ops.isSome || params.isSome) then .parsed q else .parsed (hint q plan order ops params)

/-- The settings of `fetch`. -/
inductive Preset
  | ues
  | native
deriving DecidableEq

/-- `fetch` (postbound/opt/presets.py:117-155) for keys of ASCII characters; `none` is an error. -/
def fetch (key : List Char) : Option Preset :=
  if key.map Char.toUpper = ['U', 'E', 'S'] then some .ues else if key = ['n', 'a', 't', 'i', 'v', 'e'] then some .native else none

end PB.PgCtl
