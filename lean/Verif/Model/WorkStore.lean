import Verif.Model.WorkRead

/-!
# Storing workloads in directories

Models `persist_workload` (postbound/experiments/ceb.py 848-863) together with what `Workload.read` and `read_workload` see of the
files (postbound/workloads.py 188-199, 219-220, 706-718, 737-738).

Simplifications: a directory is a dictionary from the names of its files to their decoded contents; it has no subdirectories, so
that a file whose name has a slash cannot be opened.  The formatter of queries (`format_quick`) has its own model; here the texts
are given.
-/
namespace PB.WorkStore

open PB PB.WorkRead PB.Workload

/-- A text. -/
abbrev Text := List Char

/-- The files of a directory. -/
abbrev Files := Dict Text Text

/-- The ending of query files (ceb.py 861, workloads.py 158). -/
def ending : Text := ['.', 's', 'q', 'l']

/-- `persist_workload` (ceb.py 854-863): the files, and whether all queries were written. -/
def persist (fs : Files) : List (Text × Text) → Files × Bool
  | [] => (fs, true)
  | (l, t) :: ws => if '/' ∈ l then (fs, false) else persist (fs.set (l ++ ending) (t ++ ['\n'])) ws

/-- The files when the process ends while it writes the query after the first `k` ones: `open` has emptied the file, and `m`
characters have been written (ceb.py 860-863). -/
def cut (fs : Files) (ws : List (Text × Text)) (k m : Nat) : Files :=
  let fs' := (persist fs (ws.take k)).1
  match ws[k]? with
  | none => fs'
  | some (l, t) => fs'.set (l ++ ending) ((t ++ ['\n']).take m)

/-- `Path.stem`: the name up to its last dot, unless that is the first or the last character (workloads.py 219, 737). -/
def stem (n : Text) : Text :=
  let ext := n.reverse.takeWhile (· ≠ '.')
  match n.reverse.dropWhile (· ≠ '.') with
  | [] => n
  | _ :: base => if base = [] ∨ ext = [] then n else base.reverse

/-- `"\n".join(lines)` (workloads.py 198, 718). -/
def joinNl : List Text → Text
  | [] => []
  | [l] => l
  | l :: m :: ls => l ++ '\n' :: joinNl (m :: ls)

/-- The text that is given to the parser (workloads.py 196-198, 716-718): the lines keep their line breaks. -/
def contents (t : Text) : Text := joinNl (readlines t)

/-- The files that match `*.sql`, with their labels and the texts for the parser (workloads.py 193-199, 219, 713-718, 737). -/
def texts (fs : Files) : List (Text × Text) :=
  (fs.filter fun f => ending.isSuffixOf f.1).map fun f => (stem f.1, contents f.2)

/-- `Workload.read` on the directory (workloads.py 128-222). -/
def load {Q : Type} [DecidableEq Q] (le : String → String → Bool) (parse : Text → Option Q) (fs : Files) :
    Option (Workload String Q) :=
  readFlat le parse .raise "" ((texts fs).map fun f => (String.ofList f.1, f.2))

end PB.WorkStore
