import Mathlib.Data.List.Basic

/-! Model of the download of workloads (postbound/workloads.py). Simplification: an archive contains one directory with the name of the workload, and its files are extracted and moved one after the other. -/

namespace PB.Fetch

abbrev File := String

/-- The directory of a workload: its files, the files of the directory of the archive inside of it, and whether the archive itself is there. `none` if a directory does not exist. -/
structure Place where
  dir : Option (List File)
  temp : Option (List File)
  zip : Bool
deriving DecidableEq

/-- The steps of `_fetch_workload` that change files (postbound/workloads.py:61-81). -/
inductive Step
  | mkdir
  | download
  | extract (f : File)
  | iterdir
  | move (f : File)
  | rmdir
  | unlink
deriving DecidableEq

/-- One step; `none` is an exception. -/
def step (p : Place) : Step → Option Place
  | .mkdir => some { p with dir := some (p.dir.getD []) }
  | .download => some { p with zip := true }
  | .extract f => some { p with temp := some (p.temp.getD [] ++ [f]) }
  | .iterdir => if p.temp.isSome then some p else none
  | .move f => some { p with temp := p.temp.map (·.erase f), dir := p.dir.map (· ++ [f]) }
  | .rmdir => if p.temp = some [] then some { p with temp := none } else none
  | .unlink => some { p with zip := false }

/-- Steps in order; they end with the first exception. -/
def run : List Step → Place → Bool × Place
  | [], p => (true, p)
  | s :: l, p => match step p s with
    | none => (false, p)
    | some p => run l p

/-- The steps for an archive (postbound/workloads.py:61-81). -/
def program (files : List File) : List Step :=
  [.mkdir, .download] ++ files.map .extract ++ [.iterdir] ++ files.map .move ++ [.rmdir, .unlink]

/-- All workload directories. -/
abbrev Disk := String → Place

/-- The result of a call. -/
inductive Result
  | files (l : List File)
  | error
  | crashed
deriving DecidableEq

/-- `_fetch_workload` (postbound/workloads.py:55-82): `src` are the known archives (`_WorkloadSources`, postbound/workloads.py:45-52). The process ends after `crash` steps, if given. -/
def fetch (src : String → Option (List File)) (crash : Option Nat) (d : Disk) (name : String) : Result × Disk :=
  let name := name.toLower
  match (d name).dir with
  | some l => (.files l, d)
  | none =>
    let steps := match src name with
      | none => [.mkdir]
      | some files => program files
    let r := run (match crash with | none => steps | some k => steps.take k) (d name)
    let d' : Disk := fun n => if n = name then r.2 else d n
    match crash, r.1, src name with
    | some _, true, _ => (.crashed, d')
    | _, false, _ => (.error, d')
    | none, true, none => (.error, d')
    | none, true, some _ => (.files (r.2.dir.getD []), d')

/-- `job`, `ssb`, ... (postbound/workloads.py:924-1147): the queries are read from the directory, and a workload without queries is an error. -/
def load (src : String → Option (List File)) (isQuery : File → Bool) (d : Disk) (name : String) : Option (List File) × Disk :=
  let r := fetch src none d name
  match r.1 with
  | .files l => (if l.filter isQuery = [] then none else some (l.filter isQuery), r.2)
  | _ => (none, r.2)

end PB.Fetch
