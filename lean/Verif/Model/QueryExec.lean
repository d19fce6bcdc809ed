import Verif.Model.Dict

/-!
# Execution of queries and the query cache

Models `simplify_result_set`, the encoder and decoder of the query cache, the cache of `Database`
(postbound/db/_db.py 257-371, 575-690), and `execute_query` of Postgres (postbound/postgres.py 630-635, 694-773), DuckDB
(postbound/duckdb.py 93-136) and MySQL (postbound/mysql.py 166-199, 253-270).

The database server is a parameter: it says how a text is divided into commands and how SQL commands are answered, depending
on the data and on the settings that are in force.  Each call of `Cursor.execute` is a transaction of its own
(`autocommit`, postgres.py 1219, mysql.py 113).  Queries are given by the text of their preparatory statements and the text of
everything else; both are printed by functions that are modelled in `DbHints`, `Print` and `Query`.  The plan and hint
arguments of `execute_query` on Postgres are not modelled (they only add to these texts), nor are runtimes and warnings.
-/

namespace PB.QExec

/-- The values in result sets.  `other` are the values that the JSON encoder of Python does not know, e.g. `Decimal`.  Dates and
times are given by their ISO texts, time differences by their seconds. -/
inductive Val where
  | null
  | bool (b : Bool)
  | int (i : Int)
  | float (text : String)
  | str (s : String)
  | list (vs : List Val)
  | tup (vs : List Val)
  | dict (vs : List (String × Val))
  | datetime (iso : String)
  | date (iso : String)
  | time (iso : String)
  | delta (seconds : String)
  | other (text : String)

/-- A row of a result set: a tuple, or a list if it has been loaded from the cache file. -/
structure Row where
  isList : Bool := false
  vals : List Val

/-- A row as a Python value. -/
def Row.val (r : Row) : Val := if r.isList then .list r.vals else .tup r.vals

/-- Result sets; `none` is Python's `None`. -/
abbrev Res := Option (List Row)

/-- `row[0]`; rows without columns do not occur here, see `simplify`. -/
def Row.first (r : Row) : Val := r.vals.headD .null

/-- `simplify_result_set` (db/_db.py 257-286). -/
def simplify : Res → Val
  | none => .list []
  | some [] => .list []
  | some (r :: rs) =>
    let vals := if r.vals.length = 1 then (r :: rs).map Row.first else (r :: rs).map Row.val
    match vals with
    | [v] => v
    | vs => .list vs

/-- The simplification of MySQL (mysql.py 188-199). -/
def simplifyMysql : Res → Val
  | none => .list []
  | some [] => .list []
  | some (r :: rs) =>
    let vals := if r.vals.length = 1 then (r :: rs).map Row.first else (r :: rs).map Row.val
    if vals.length > 1 then .list vals else vals.headD .null

/-! ### The server -/

abbrev Settings := Dict String String

/-- The commands that a text consists of. -/
inductive Cmd where
  | set (name val : String)
  | setLocal (name val : String)
  | sql (text : String)

/-- The answer to an SQL command: an error (of the server, or of the user) or the changed data, the row count and the result. -/
inductive Ans (D : Type) where
  | fail (server : Bool)
  | ok (data : D) (rowcount : Int) (rows : Option (List (List Val)))

structure Server (D : Type) where
  cmds : String → List Cmd
  ans : D → Settings → String → Ans D

/-- The state of the connection. -/
structure Sess (D : Type) where
  data : D
  settings : Settings

/-- What `Cursor.execute` leaves behind: an error, or the row count and the rows. -/
inductive Reply where
  | fail (server : Bool)
  | ok (rowcount : Int) (rows : Option (List (List Val)))

/-- The commands of a transaction: `cur` are the settings in force.  The reply is the one to the first command. -/
def runCmds {D : Type} (S : Server D) (sess : Sess D) (cur : Settings) : List Cmd → Sess D × Reply
  | [] => (sess, .ok (-1) none)
  | .set k v :: rest =>
    match runCmds S ⟨sess.data, sess.settings.set k v⟩ (cur.set k v) rest with
    | (s, .fail e) => (s, .fail e)
    | (s, .ok _ _) => (s, .ok (-1) none)
  | .setLocal k v :: rest =>
    match runCmds S sess (cur.set k v) rest with
    | (s, .fail e) => (s, .fail e)
    | (s, .ok _ _) => (s, .ok (-1) none)
  | .sql t :: rest =>
    match S.ans sess.data cur t with
    | .fail e => (sess, .fail e)
    | .ok d n rows =>
      match runCmds S ⟨d, sess.settings⟩ cur rest with
      | (s, .fail e) => (s, .fail e)
      | (s, .ok _ _) => (s, .ok n rows)

/-- `Cursor.execute`: a failed transaction changes nothing. -/
def runText {D : Type} (S : Server D) (sess : Sess D) (text : String) : Sess D × Reply :=
  match runCmds S sess sess.settings (S.cmds text) with
  | (_, .fail e) => (sess, .fail e)
  | (s, .ok n rows) => (s, .ok n rows)

/-! ### The interfaces -/

/-- The argument `query`: a text, or a query with its preparatory statements (empty if there are none). -/
inductive QArg where
  | text (s : String)
  | query (prep body : String)

abbrev Cache := Dict String Res

/-- The state of a database interface: `inst` is `_cache_enabled`, `file` the contents of the cache file. -/
structure St (D : Type) where
  sess : Sess D
  cache : Cache
  inst : Bool
  file : Cache

inductive Outcome where
  | raw (r : Res)
  | simple (v : Val)
  /-- `DatabaseServerError` or `DatabaseUserError` -/
  | dbError (server : Bool)
  /-- an exception of the driver -/
  | driverError

/-- `_inflate_query_cache` (db/_db.py 635-662) for a readable file. -/
def inflate {D : Type} (st : St D) : St D := if st.cache.isEmpty then { st with cache := st.file } else st

/-- `__init__` (db/_db.py 364-371). -/
def connect {D : Type} (sess : Sess D) (inst : Bool) (file : Cache) : St D :=
  if inst then inflate ⟨sess, [], inst, file⟩ else ⟨sess, [], inst, file⟩

/-- `reset_cache` (db/_db.py 575-577). -/
def resetCache {D : Type} (st : St D) : St D := { st with cache := [] }

/-- The setter of `cache_enabled` (db/_db.py 615-627). -/
def setCacheEnabled {D : Type} (st : St D) (b : Bool) : St D :=
  let st := if b && st.cache.isEmpty then inflate st else st
  { st with inst := b }

/-- `cache_enabled or (cache_enabled is None and self._cache_enabled)` (postgres.py 721, mysql.py 173). -/
def useCache (flag : Option Bool) (inst : Bool) : Bool :=
  match flag with
  | some b => b
  | none => inst

def give (raw : Bool) (r : Res) : Outcome := if raw then .raw r else .simple (simplify r)

def asRows (rows : List (List Val)) : List Row := rows.map fun vs => ⟨false, vs⟩

/-- The part of `execute_query` on Postgres that follows the preparation (postgres.py 732-773).  Reading the result of a command
without a result is an error (psycopg's `ProgrammingError`). -/
def pgFetch {D : Type} (S : Server D) (st : St D) (text : String) (caching raw : Bool) : St D × Outcome :=
  match (if caching then Dict.get? st.cache text else none) with
  | some r => (st, give raw r)
  | none =>
    match runText S st.sess text with
    | (s, .fail e) => ({ st with sess := s }, .dbError e)
    | (s, .ok n rows) =>
      let st := { st with sess := s }
      let res : Option Res := if n ≥ 0 then rows.map fun rs => some (asRows rs) else some none
      match res with
      | none => (st, .dbError false)
      | some r =>
        let st := if caching then let st := inflate st; { st with cache := st.cache.set text r } else st
        (st, give raw r)

/-- `execute_query` on Postgres without a timeout (postgres.py 694-773, 630-635). -/
def pgExecute {D : Type} (S : Server D) (st : St D) (q : QArg) (flag : Option Bool) (raw : Bool) : St D × Outcome :=
  let caching := useCache flag st.inst
  match q with
  | .text t => pgFetch S st t caching raw
  | .query prep body =>
    if prep = "" then pgFetch S st body caching raw
    else
      match runText S st.sess prep with
      | (s, .fail _) => ({ st with sess := s }, .driverError)
      | (s, .ok _ _) => pgFetch S { st with sess := s } body caching raw

/-- The part of `execute_query` on MySQL that follows the preparation (mysql.py 176-199). -/
def myFetch {D : Type} (S : Server D) (st : St D) (text : String) (caching raw : Bool) : St D × Outcome :=
  let out := fun r => if raw then Outcome.raw r else .simple (simplifyMysql r)
  match (if caching then Dict.get? st.cache text else none) with
  | some r => (st, out r)
  | none =>
    match runText S st.sess text with
    | (s, .fail _) => ({ st with sess := s }, .driverError)
    | (s, .ok _ none) => ({ st with sess := s }, .driverError)
    | (s, .ok _ (some rows)) =>
      let st := { st with sess := s }
      let r : Res := some (asRows rows)
      let st := if caching then let st := inflate st; { st with cache := st.cache.set text r } else st
      (st, out r)

/-- `execute_query` on MySQL (mysql.py 166-199, 253-270). -/
def myExecute {D : Type} (S : Server D) (st : St D) (q : QArg) (flag : Option Bool) (raw : Bool) : St D × Outcome :=
  let caching := useCache flag st.inst
  match q with
  | .text t => myFetch S st t caching raw
  | .query prep body =>
    if prep = "" then myFetch S st body caching raw
    else
      match runText S st.sess prep with
      | (s, .fail _) => ({ st with sess := s }, .driverError)
      | (s, .ok _ _) => myFetch S { st with sess := s } body caching raw

/-- The loop over the preparatory statements on DuckDB (duckdb.py 106-107); they form a single text, so it runs over the
characters. -/
def duckPrep {D : Type} (S : Server D) (sess : Sess D) : List Char → Sess D × Bool
  | [] => (sess, true)
  | c :: cs =>
    match runText S sess (String.singleton c) with
    | (s, .fail _) => (s, false)
    | (s, .ok _ _) => duckPrep S s cs

/-- The part of `execute_query` on DuckDB that follows the preparation, without a timeout (duckdb.py 114-136).  Commands without
a result yield an empty one. -/
def duckFetch {D : Type} (S : Server D) (st : St D) (text : String) (flag : Option Bool) (raw : Bool) : St D × Outcome :=
  let caching := flag.getD false
  match (if caching then Dict.get? st.cache text else none) with
  | some (some rows) => (st, give raw (some rows))
  | _ =>
    match runText S st.sess text with
    | (s, .fail _) => ({ st with sess := s }, .driverError)
    | (s, .ok _ rows) =>
      let st := { st with sess := s }
      let r : Res := some (asRows (rows.getD []))
      let st := if caching then { st with cache := st.cache.set text r } else st
      (st, give raw r)

/-- `execute_query` on DuckDB without a timeout (duckdb.py 93-136). -/
def duckExecute {D : Type} (S : Server D) (st : St D) (q : QArg) (flag : Option Bool) (raw : Bool) : St D × Outcome :=
  match q with
  | .text t => duckFetch S st t flag raw
  | .query prep body =>
    if prep = "" then duckFetch S st body flag raw
    else
      match duckPrep S st.sess prep.toList with
      | (s, false) => ({ st with sess := s }, .driverError)
      | (s, true) => duckFetch S { st with sess := s } body flag raw

/-! ### The cache file -/

inductive Json where
  | null
  | bool (b : Bool)
  | int (i : Int)
  | float (text : String)
  | str (s : String)
  | arr (vs : List Json)
  | obj (vs : List (String × Json))

mutual
/-- `json.dump` with `_DBCacheJsonEncoder` (db/_db.py 289-299); `none` is a `TypeError`. -/
def encode : Val → Option Json
  | .null => some .null
  | .bool b => some (.bool b)
  | .int i => some (.int i)
  | .float t => some (.float t)
  | .str s => some (.str s)
  | .list vs => (encodeList vs).map .arr
  | .tup vs => (encodeList vs).map .arr
  | .dict vs => (encodeDict vs).map .obj
  | .datetime s => some (.obj [("$datetime", .str s)])
  | .date s => some (.obj [("$date", .str s)])
  | .time s => some (.obj [("$time", .str s)])
  | .delta s => some (.obj [("$timedelta", .float s)])
  | .other _ => none
def encodeList : List Val → Option (List Json)
  | [] => some []
  | v :: vs =>
    match encode v, encodeList vs with
    | some j, some js => some (j :: js)
    | _, _ => none
def encodeDict : List (String × Val) → Option (List (String × Json))
  | [] => some []
  | (k, v) :: vs =>
    match encode v, encodeDict vs with
    | some j, some js => some ((k, j) :: js)
    | _, _ => none
end

/-- The value of a key in an object that has been decoded. -/
def member (k : String) (vs : List (String × Val)) : Option Val := (vs.find? fun p => p.1 == k).map (·.2)

/-- `fromisoformat` of a decoded member; `none` is an exception.  `iso` says which texts are ISO dates. -/
def fromIso (iso : String → Bool) (mk : String → Val) : Val → Option Val
  | .str s => if iso s then some (mk s) else none
  | _ => none

/-- `timedelta(seconds=…)`. -/
def fromSeconds : Val → Option Val
  | .float s => some (.delta s)
  | .int i => some (.delta (toString i))
  | _ => none

/-- `_DBCacheJsonDecoder.object_hook` (db/_db.py 307-319). -/
def objectHook (iso : String → Bool) (vs : List (String × Val)) : Option Val :=
  match member "$datetime" vs, member "$date" vs, member "$time" vs, member "$timedelta" vs with
  | some v, _, _, _ => fromIso iso .datetime v
  | none, some v, _, _ => fromIso iso .date v
  | none, none, some v, _ => fromIso iso .time v
  | none, none, none, some v => fromSeconds v
  | none, none, none, none => some (.dict vs)

mutual
/-- `json.load` with `_DBCacheJsonDecoder` (db/_db.py 302-319); `none` is an exception. -/
def decode (iso : String → Bool) : Json → Option Val
  | .null => some .null
  | .bool b => some (.bool b)
  | .int i => some (.int i)
  | .float t => some (.float t)
  | .str s => some (.str s)
  | .arr vs => (decodeList iso vs).map .list
  | .obj vs => (decodeDict iso vs).bind (objectHook iso)
def decodeList (iso : String → Bool) : List Json → Option (List Val)
  | [] => some []
  | j :: js =>
    match decode iso j, decodeList iso js with
    | some v, some vs => some (v :: vs)
    | _, _ => none
def decodeDict (iso : String → Bool) : List (String × Json) → Option (List (String × Val))
  | [] => some []
  | (k, j) :: js =>
    match decode iso j, decodeDict iso js with
    | some v, some vs => some ((k, v) :: vs)
    | _, _ => none
end

/-- A result set as a Python value. -/
def resVal : Res → Val
  | none => .null
  | some rows => .list (rows.map Row.val)

/-- The cache as a Python value. -/
def cacheVal (c : Cache) : Val := .dict (c.map fun e => (e.1, resVal e.2))

/-- The cache file; `broken` is a file with invalid JSON. -/
inductive File where
  | absent
  | broken
  | valid (j : Json)

/-- `_store_query_cache` (db/_db.py 664-673): the file has been opened for writing when the encoder fails. -/
def store (c : Cache) : File :=
  match encode (cacheVal c) with
  | some j => .valid j
  | none => .broken

/-- `_inflate_query_cache` (db/_db.py 643-661) for an empty cache: the value that becomes the cache; `none` is an exception. -/
def load (iso : String → Bool) : File → Option Val
  | .absent => some (.dict [])
  | .broken => some (.dict [])
  | .valid j => decode iso j

end PB.QExec
