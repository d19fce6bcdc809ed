import Verif.Model.Dict

/-!
# Configurations of Postgres

`PostgresSetting`, `PostgresConfiguration`, `current_configuration` and `apply_configuration` (postbound/postgres.py:89-501, 1088-1153).

Texts are lists of characters. A Postgres server is modelled as far as scripts of SET commands are concerned (`Server`, `execute`): it parses the text, validates and normalizes the values, and either
executes all commands of the text or none of them, because the text is sent as a single request. This part is no code of /repo, but the documented behaviour of Postgres.
-/

namespace PB.PgConf

/-- A text. -/
abbrev Text := List Char

/-- A literal text. -/
def lit (s : String) : Text := s.toList

/-- `sep.join(texts)`. -/
def join (sep : Text) : List Text → Text
  | [] => []
  | [t] => t
  | t :: u :: us => t ++ sep ++ join sep (u :: us)

/-- `_SignificantPostgresSettings` (postbound/postgres.py:89-199). Between `recursive_worktable_factor` and `autovacuum`, a comma is missing: the two strings are concatenated. -/
def significantNames : List String :=
  [
    "shared_buffers", "huge_pages", "huge_page_size", "temp_buffers", "max_prepared_transactions", "work_mem", "hash_mem_multiplier",
    "maintenance_work_mem", "autovacuum_work_mem", "vacuum_buffer_usage_limit", "logical_decoding_work_mem", "max_stack_depth", "shared_memory_type",
    "dynamic_shared_memory_type", "min_dynamic_shared_memory", "temp_file_limit", "max_files_per_process", "vacuum_cost_delay",
    "vacuum_cost_page_hit", "vacuum_cost_page_miss", "vacuum_cost_page_dirty", "vacuum_cost_limit", "bgwriter_delay", "bgwriter_lru_maxpages",
    "bgwriter_lru_multiplier", "bgwriter_flush_after", "backend_flush_after", "effective_io_concurrency", "maintenance_io_concurrency",
    "max_worker_processes", "max_parallel_workers_per_gather", "max_parallel_maintenance_workers", "max_parallel_workers",
    "parallel_leader_participation", "old_snapshot_threshold", "enable_async_append", "enable_bitmapscan", "enable_gathermerge", "enable_hashagg",
    "enable_hashjoin", "enable_incremental_sort", "enable_indexscan", "enable_indexonlyscan", "enable_material", "enable_memoize", "enable_mergejoin",
    "enable_nestloop", "enable_parallel_append", "enable_parallel_hash", "enable_partition_pruning", "enable_partitionwise_join",
    "enable_partitionwise_aggregate", "enable_presorted_aggregate", "enable_seqscan", "enable_sort", "enable_tidscan", "seq_page_cost",
    "random_page_cost", "cpu_tuple_cost", "cpu_index_tuple_cost", "cpu_operator_cost", "parallel_setup_cost", "parallel_tuple_cost",
    "min_parallel_table_scan_size", "min_parallel_index_scan_size", "effective_cache_size", "jit_above_cost", "jit_inline_above_cost",
    "jit_optimize_above_cost", "geqo", "geqo_threshold", "geqo_effort", "geqo_pool_size", "geqo_generations", "geqo_selection_bias", "geqo_seed",
    "default_statistics_target", "constraint_exclusion", "cursor_tuple_fraction", "from_collapse_limit", "jit", "join_collapse_limit",
    "plan_cache_mode", "recursive_worktable_factorautovacuum", "autovacuum_max_workers", "autovacuum_naptime", "autovacuum_threshold",
    "autovacuum_insert_threshold", "autovacuum_analyze_threshold", "autovacuum_scale_factor", "autovacuum_analyze_scale_factor",
    "autovacuum_freeze_max_age", "autovacuum_multixact_freeze_max_age", "autovacuum_cost_delay", "autovacuum_cost_limit"]

/-- The settings that are excluded from `_RuntimeChangeablePostgresSettings` (postbound/postgres.py:221-248). -/
def excludedNames : List String :=
  [
    "autovacuum_max_workers", "autovacuum_naptime", "autovacuum_threshold", "autovacuum_insert_threshold", "autovacuum_analyze_threshold",
    "autovacuum_scale_factor", "autovacuum_analyze_scale_factor", "autovacuum_freeze_max_age", "autovacuum_multixact_freeze_max_age",
    "autovacuum_cost_delay", "autovacuum_cost_limit", "autovacuum_work_mem", "bgwriter_delay", "bgwriter_lru_maxpages", "bgwriter_lru_multiplier",
    "bgwriter_flush_after", "dynamic_shared_memory_type", "huge_pages", "huge_page_size", "max_files_per_process", "max_prepared_transactions",
    "max_worker_processes", "min_dynamic_shared_memory", "old_snapshot_threshold", "shared_buffers", "shared_memory_type"]

/-- `_SignificantPostgresSettings`. -/
def significant : List Text := significantNames.map lit

/-- `_RuntimeChangeablePostgresSettings` (postbound/postgres.py:219-248). -/
def runtimeChangeable : List Text := (significantNames.filter fun s => s ∉ excludedNames).map lit

/-- The value of a setting: a `bool`, `None` or another object, which is given by its text. -/
inductive Val
  | bool (b : Bool) | none | text (t : Text)
  deriving DecidableEq

/-- The text of a value in `PostgresSetting.__new__` (postbound/postgres.py:271-272). -/
def Val.show : Val → Text
  | .bool true => lit "on"
  | .bool false => lit "off"
  | .none => lit "None"
  | .text t => t

/-- `PostgresSetting` (postbound/postgres.py:252-314). -/
structure Setting where
  param : Text
  val : Val
  deriving DecidableEq

/-- The text of a setting (postbound/postgres.py:272); `PostgresSetting` is a subclass of `str`. -/
def Setting.text (s : Setting) : Text := lit "SET " ++ s.param ++ lit " = '" ++ s.val.show ++ lit "';"

/-- An entry of a configuration: a setting or, after an assignment, an arbitrary value. -/
inductive Entry
  | setting (s : Setting) | raw (v : Val)
  deriving DecidableEq

/-- `str(entry)`; `True` and `False` are printed by `str` if they are no settings. -/
def Entry.text : Entry → Text
  | .setting s => s.text
  | .raw (.bool true) => lit "True"
  | .raw (.bool false) => lit "False"
  | .raw v => v.show

/-- `PostgresConfiguration` (postbound/postgres.py:317-501): the settings. The text of the `UserString` is updated with every change. -/
structure Config where
  entries : Dict Text Entry

/-- `__init__` (postbound/postgres.py:360-362). -/
def Config.ofSettings (l : List Setting) : Config := ⟨Dict.ofList (l.map fun s => (s.param, .setting s))⟩

/-- The text (postbound/postgres.py:484-492). -/
def Config.text (c : Config) : Text := join (lit "\n") (c.entries.values.map Entry.text)

/-- `load` (postbound/postgres.py:340-358). -/
def load (args : List Setting) (kwargs : List (Text × Val)) : Config := .ofSettings (args ++ kwargs.map fun e => ⟨e.1, e.2⟩)

/-- `target_settings.values()` as the argument of `PostgresConfiguration`: entries that are no settings have no `parameter` (postbound/postgres.py:361, 422, 442, 472). -/
def settingsOf : List Entry → Option (List Setting)
  | [] => some []
  | .setting s :: es => (settingsOf es).map (s :: ·)
  | .raw _ :: _ => none

/-- `PostgresConfiguration(target_settings.values())`. -/
def rebuild (d : Dict Text Entry) : Option Config := (settingsOf d.values).map Config.ofSettings

/-- The first argument of `add`, `remove` and `update`. -/
inductive Arg
  | obj (s : Setting) | name (n : Text)

/-- The setting that `add` and `update` create: a `PostgresSetting` is a `str` as well, so that its text is used as a name (postbound/postgres.py:412-413, 463-467). -/
def Arg.toSetting (a : Arg) (v : Val) : Setting :=
  match a with
  | .obj s => ⟨s.text, v⟩
  | .name n => ⟨n, v⟩

/-- `add` (postbound/postgres.py:385-422). Keyword arguments are ignored if a setting is given. -/
def add (c : Config) (a : Option Arg) (v : Val) (kwargs : List (Text × Val)) : Option Config :=
  match a with
  | some a => rebuild (c.entries.set (a.toSetting v).param (.setting (a.toSetting v)))
  | none => rebuild (c.entries.update (kwargs.map fun e => (e.1, .setting ⟨e.1, e.2⟩)))

/-- `remove` (postbound/postgres.py:424-442). -/
def remove (c : Config) (a : Arg) : Option Config :=
  match a with
  | .obj s => rebuild (c.entries.del s.param)
  | .name n => rebuild (c.entries.del n)

/-- `update` (postbound/postgres.py:444-472). -/
def update (c : Config) (a : Arg) (v : Val) : Option Config :=
  rebuild (c.entries.set (a.toSetting v).param (.setting (a.toSetting v)))

/-- `__setitem__` (postbound/postgres.py:499-501). -/
def setItem (c : Config) (k : Text) (v : Val) : Config := ⟨c.entries.set k (.raw v)⟩

/-! ## The server -/

/-- A server: the values of SET commands are validated and normalized; `none` is an error, e.g. for settings that cannot be changed at runtime. -/
structure Server where
  normalize : Text → Text → Option Text

/-- The settings of a session. -/
abbrev Session := Text → Text

/-- A value of a setting until the closing quote; a double quote stands for a quote. -/
def scanVal : Text → Option (Text × Text)
  | [] => none
  | '\'' :: '\'' :: cs => (scanVal cs).map fun r => ('\'' :: r.1, r.2)
  | '\'' :: cs => some ([], cs)
  | c :: cs => (scanVal cs).map fun r => (c :: r.1, r.2)

/-- A name until the next space. -/
def scanName : Text → Option (Text × Text)
  | [] => none
  | ' ' :: cs => some ([], cs)
  | c :: cs => (scanName cs).map fun r => (c :: r.1, r.2)

/-- A SET command: the setting, the value and the rest of the text. -/
def scanSet (t : Text) : Option (Text × Text × Text) :=
  match t with
  | 'S' :: 'E' :: 'T' :: ' ' :: t =>
    match scanName t with
    | some (n, '=' :: ' ' :: '\'' :: t) =>
      match scanVal t with
      | some (v, ';' :: t) => some (n, v, t)
      | _ => none
    | _ => none
  | _ => none

/-- The commands of a text; `none` is a syntax error. The fuel is the length of the text. -/
def parse : Nat → Text → Option (List (Text × Text))
  | _, [] => some []
  | 0, _ :: _ => none
  | n + 1, c :: cs =>
    if c = '\n' then parse n cs
    else
      match scanSet (c :: cs) with
      | none => none
      | some (p, v, t) => (parse n t).map ((p, v) :: ·)

/-- The execution of commands. -/
def runAll (S : Server) : List (Text × Text) → Session → Option Session
  | [], s => some s
  | (p, v) :: l, s =>
    match S.normalize p v with
    | none => none
    | some w => runAll S l (fun q => if q = p then w else s q)

/-- The execution of a text: the new session and whether there was an error, in which case the session is unchanged. -/
def execute (S : Server) (t : Text) (s : Session) : Session × Bool :=
  match (parse t.length t).bind (runAll S · s) with
  | none => (s, true)
  | some s' => (s', false)

/-- What can be passed to `apply_configuration`. -/
inductive Conf
  | setting (s : Setting) | config (c : Config) | text (t : Text)

/-- `apply_configuration` (postbound/postgres.py:1117-1153): the new session and whether there was an error. -/
def apply (S : Server) (c : Conf) (s : Session) : Session × Bool :=
  match c with
  | .setting x => if x.param ∉ runtimeChangeable then (s, false) else execute S x.text s
  | .config c =>
    match settingsOf c.entries.values with
    | none => (s, true)
    | some l => execute S (Config.ofSettings (l.filter fun x => x.param ∈ runtimeChangeable)).text s
  | .text t => execute S t s

/-- `current_configuration` (postbound/postgres.py:1088-1115), given the names of `pg_settings`. -/
def current (names : List Text) (runtimeOnly : Bool) (s : Session) : Config :=
  load [] (Dict.ofList ((names.filter fun n => n ∈ (if runtimeOnly then runtimeChangeable else significant)).map fun n => (n, Val.text (s n))))

end PB.PgConf
