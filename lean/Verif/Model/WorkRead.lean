import Verif.Model.Workload

/-!
Model of the readers for workloads in a single file (postbound/workloads.py:767-875) and of the names of the pre-defined workloads
(postbound/workloads.py:936-978, 1150-1170). The text of a file has been decoded, and has universal newlines. `none` is an exception.

Simplifications: `pd.read_csv` is not modelled, the rows of the CSV file are given. Parsing is a function that can fail.
-/

namespace PB.WorkRead

open PB PB.Workload

variable {L Q : Type} [DecidableEq L] [DecidableEq Q]

/-- `readlines()`: the lines with their line breaks; `cur` is the current line. -/
def readlinesAux (cur : List Char) : List Char → List (List Char)
  | [] => if cur.isEmpty then [] else [cur]
  | c :: cs => if c == '\n' then (cur ++ [c]) :: readlinesAux [] cs else readlinesAux (cur ++ [c]) cs

/-- `query_file.readlines()` (postbound/workloads.py:796). -/
def readlines (text : List Char) : List (List Char) := readlinesAux [] text

/-- `read_batch_workload` (postbound/workloads.py:767-798). -/
def readBatch (parse : List Char → Option Q) (text : List Char) : Option (Workload Nat Q) :=
  (((readlines text).filter fun raw => !raw.isEmpty).mapM parse).bind generate

/-- `read_csv_workload` without labels (postbound/workloads.py:845-875): the cells of the query column. -/
def readCsv (parse : List Char → Option Q) (cells : List (List Char)) : Option (Workload Nat Q) := (cells.mapM parse).bind generate

/-- The labels of a workload: numbers, if there are no rows, or those of the file. -/
inductive CsvResult (L Q : Type)
  | labelled (w : Workload L Q)
  | numbered (w : Workload Nat Q)

/-- `read_csv_workload` with labels (postbound/workloads.py:845-875): the cells of the query column and of the label column. An empty
dictionary of labels is replaced by numbers (postbound/workloads.py:916-919). -/
def readCsvLabelled (le : L → L → Bool) (parse : List Char → Option Q) (rows : List (List Char × L)) : Option (CsvResult L Q) :=
  (rows.mapM fun r => (parse r.1).map fun q => (q, r.2)).bind fun es =>
    let labels : Dict Q L := Dict.ofList es
    if labels.isEmpty then (generate ([] : List Q)).map .numbered else (generateLabelled le labels).map .labelled

/-- The pre-defined workloads. -/
inductive Known
  | job | jobLight | jobComplex | stats | stack | ssb
deriving DecidableEq, Repr

/-- `fetch_workload` (postbound/workloads.py:1150-1170) together with the flavors of `job` (postbound/workloads.py:967-978). -/
def fetch (name : String) : Option Known :=
  if name = "job" ∨ name = "imdb" then some .job
  else if name = "job-light" ∨ name = "joblight" then some .jobLight
  else if name = "job-complex" ∨ name = "jobcomplex" then some .jobComplex
  else if name = "stats" then some .stats
  else if name = "stack" then some .stack
  else if name = "ssb" then some .ssb
  else none

end PB.WorkRead
