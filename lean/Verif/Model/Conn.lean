/-!
# The life of the connections of a database interface

Models how `PostgresInterface` opens, replaces and closes its session, how the timeout executor keeps a second session (the
watchdog) and how `reconnect` of the pool uses both (postbound/postgres.py 659-684, 704-760, 890-936, 1205-1240, 2953-2975,
3725-3731, 3766-3767, 3842-3870), together with the connection handling of the DuckDB and the MySQL interface
(postbound/duckdb.py 184-197, postbound/mysql.py 241-251).

Simplifications: the server hands out session numbers that are never used twice (process ids of Postgres can be reused after a
while); a session has the settings that were changed in it; each call of the driver either works or raises a database error, as
told by a table of faults; the server may drop any session at any time.  The worker process of a query with a timeout has its
own model (`Executors`).
-/
namespace PB.Conn

/-- Who opened a session (postgres.py 1213-1218, 3866-3869, 931): the interface itself, its timeout executor, or a client that
asked for a connection of its own. -/
inductive Kind where
  | main
  | watchdog
  | client
  deriving DecidableEq, Repr

/-- An open session of the server with the settings that were changed in it, the latest first. -/
structure Sess where
  id : Nat
  kind : Kind
  cfg : List (String × String) := []
  deriving DecidableEq, Repr

/-- The sessions of the server and the interface: `_connection`, whether the driver knows that it does not work
(`info.status`), and `_timeout_watchdog` (postgres.py 659-684, 3725-3731). -/
structure St where
  next : Nat
  sessions : List Sess
  main : Nat
  bad : Bool
  wd : Option Nat
  deriving DecidableEq, Repr

/-- Which calls of the driver raise a database error. -/
structure Faults where
  wdClose : Bool := false
  cancel : Bool := false
  curClose : Bool := false
  conClose : Bool := false
  connect : Bool := false
  deriving DecidableEq, Repr

/-- The end of a session. -/
def St.kill (s : St) (i : Nat) : St := { s with sessions := s.sessions.filter fun x => x.id ≠ i }

/-- Whether a session is open. -/
def St.alive (s : St) (i : Nat) : Bool := s.sessions.any fun x => x.id = i

/-- `psycopg.connect`: a new session with the settings of the server. -/
def St.connect (s : St) (k : Kind) : St × Nat :=
  ({ s with next := s.next + 1, sessions := s.sessions ++ [{ id := s.next, kind := k }] }, s.next)

/-- `_init_connection` (postgres.py 1205-1239): the process id of the new session, or a failure that leaves the attributes as
they were. -/
def St.init (s : St) (fails : Bool) : St × Option Nat :=
  if fails then (s, none)
  else
    let (s', i) := s.connect .main
    ({ s' with main := i, bad := false }, some i)

/-- `TimeoutQueryExecutor.close` (postgres.py 3842-3849); `none` when closing raises. -/
def St.closeWd (s : St) (fails : Bool) : Option St :=
  match s.wd with
  | none => some s
  | some w => if fails then none else some { s.kill w with wd := none }

/-- Closing the connection (postgres.py 895, 935). -/
def St.closeMain (s : St) : St := { s.kill s.main with bad := true }

/-- The `try` block of `reset_connection` (postgres.py 891-897): the first error ends it and is dropped. -/
def St.teardown (s : St) (f : Faults) : St :=
  match s.closeWd f.wdClose with
  | none => s
  | some s1 => if f.cancel || f.curClose || f.conClose then s1 else s1.closeMain

/-- `reset_connection` (postgres.py 890-898). -/
def St.reset (s : St) (f : Faults) : St × Option Nat := (s.teardown f).init f.connect

/-- `close` (postgres.py 933-936); errors are passed on. -/
def St.close (s : St) (f : Faults) : St × Bool :=
  if f.curClose || f.conClose then (s, false)
  else
    let s1 := s.closeMain
    match s1.closeWd f.wdClose with
    | none => (s1, false)
    | some s2 => (s2, true)

/-- A statement on the cursor of the interface (postgres.py 736-760): it needs an open session; a failure tells the driver. -/
def St.exec (s : St) : St × Bool :=
  if s.alive s.main then (s, true) else ({ s with bad := true }, false)

/-- A `SET` statement on the cursor (postgres.py 1153). -/
def St.set (s : St) (k v : String) : St × Bool :=
  if s.alive s.main then
    ({ s with sessions := s.sessions.map fun x => if x.id = s.main then { x with cfg := (k, v) :: x.cfg } else x }, true)
  else ({ s with bad := true }, false)

/-- `_init_watchdog` (postgres.py 3861-3869). -/
def St.initWd (s : St) (fails : Bool) : St × Bool :=
  match s.wd with
  | some _ => (s, true)
  | none =>
    if fails then (s, false)
    else
      let (s', i) := s.connect .watchdog
      ({ s' with wd := some i }, true)

/-- The start of a query with a timeout (postgres.py 3767, 3797-3806, 3851-3859): the watchdog is made ready, then the
settings are read from the session of the interface. -/
def St.timed (s : St) (f : Faults) : St × Bool :=
  match s.initWd f.connect with
  | (s1, false) => (s1, false)
  | (s1, true) => s1.exec

/-- `obtain_new_local_connection` (postgres.py 920-931). -/
def St.local (s : St) (f : Faults) : St × Option Nat :=
  if f.connect then (s, none) else let (s', i) := s.connect .client; (s', some i)

/-- `_reconnect` (postgres.py 2953-2975): the connection is replaced if the driver knows that it does not work. -/
def St.reconnect (s : St) (f : Faults) : St × Option Nat := if s.bad then s.reset f else (s, some s.main)

/-- The steps of a history; `drop` is the server ending a session. -/
inductive Op where
  | exec
  | set (k v : String)
  | timed (f : Faults)
  | «local» (f : Faults)
  | reset (f : Faults)
  | close (f : Faults)
  | reconnect (f : Faults)
  | drop (i : Nat)
  deriving DecidableEq, Repr

/-- One step. -/
def step (s : St) : Op → St
  | .exec => s.exec.1
  | .set k v => (s.set k v).1
  | .timed f => (s.timed f).1
  | .local f => (s.local f).1
  | .reset f => (s.reset f).1
  | .close f => (s.close f).1
  | .reconnect f => (s.reconnect f).1
  | .drop i => s.kill i

/-- The constructor (postgres.py 659-684) on a server with the sessions of others. -/
def create (next : Nat) (others : List Sess) : St :=
  (({ next := next, sessions := others, main := 0, bad := true, wd := none } : St).init false).1

/-- A history. -/
def run (s : St) (ops : List Op) : St := ops.foldl step s

/-! ## DuckDB -/

/-- The connections to the database file that are open, and the one that the interface uses (duckdb.py 184-197). -/
structure Duck where
  next : Nat
  handles : List Nat
  cur : Nat
  deriving DecidableEq, Repr

/-- `close` (duckdb.py 184-185); `fails` when the driver raises. -/
def Duck.close (d : Duck) (fails : Bool) : Duck × Bool :=
  if fails then (d, false) else ({ d with handles := d.handles.filter (· ≠ d.cur) }, true)

/-- `reconnect` (duckdb.py 187-188). -/
def Duck.reconnect (d : Duck) : Duck := { next := d.next + 1, handles := d.handles ++ [d.next], cur := d.next }

/-- `reset_connection` (duckdb.py 190-197): errors of closing are dropped. -/
def Duck.reset (d : Duck) (fails : Bool) : Duck := (d.close fails).1.reconnect

/-! ## MySQL -/

/-- The connection and the cursor (mysql.py 241-251): whether the connection is open, the settings of the session, the number
of the cursor and whether it is open. -/
structure My where
  isOpen : Bool
  cfg : List (String × String)
  cursor : Nat
  curOpen : Bool
  deriving DecidableEq, Repr

/-- `reset_connection` (mysql.py 241-244): the session is kept, its settings are forgotten; on a closed connection the command
raises, after the cursor was closed. -/
def My.reset (m : My) : My × Bool :=
  if m.isOpen then ({ m with cfg := [], cursor := m.cursor + 1, curOpen := true }, true)
  else ({ m with curOpen := false }, false)

/-- `close` (mysql.py 249-251). -/
def My.close (m : My) : My := { m with isOpen := false, cfg := [], curOpen := false }

end PB.Conn
