import Mathlib.Data.List.Basic

/-!
Model of reading and writing data frames (postbound/util/_df.py). Simplification: what Pandas reads from a file is what it wrote to it in the same format, indexes and further arguments are not modelled.
-/

namespace PB.Frames

/-- The values of a data frame: numbers, texts, missing values and other objects. -/
inductive Cell
  | num (n : Int)
  | text (s : String)
  | missing
  | other (n : Nat)
deriving DecidableEq

/-- A column; `object` tells whether its type is `object`. -/
structure Column where
  name : String
  object : Bool
  cells : List Cell
deriving DecidableEq

abbrev Frame := List Column

/-- File formats. -/
inductive Fmt
  | csv | parquet | excel | json | hdf | feather | orc
deriving DecidableEq

/-- The formats of `read_df` (postbound/util/_df.py:18-34); `none` is a `ValueError`. -/
def readFmt (suffix : String) : Option Fmt :=
  let s := suffix.toLower
  if s = ".csv" then some .csv
  else if s = ".parquet" then some .parquet
  else if s = ".xlsx" ∨ s = ".xls" then some .excel
  else if s = ".json" then some .json
  else if s = ".hdf" ∨ s = ".h5" ∨ s = ".hdf5" then some .hdf
  else if s = ".feather" then some .feather
  else if s = ".orc" then some .orc
  else none

/-- The formats of `write_df` (postbound/util/_df.py:59-75); `none` is a `ValueError`. -/
def writeFmt (suffix : String) : Option Fmt :=
  let s := suffix.toLower
  if s = ".csv" then some .csv
  else if s = ".parquet" then some .parquet
  else if s = ".xlsx" ∨ s = ".xls" then some .excel
  else if s = ".json" then some .json
  else if s = ".hdf" ∨ s = ".h5" ∨ s = ".hdf5" then some .hdf
  else if s = ".feather" then some .feather
  else if s = ".orc" then some .orc
  else none

/-- `t is str` (postbound/util/_df.py:55) -/
def isText : Cell → Bool
  | .text _ => true
  | _ => false

/-- `to_json` (postbound/util/jsonize.py:59-67); `dumps` is `json.dumps`. -/
def toJson (dumps : Cell → String) : Cell → Cell
  | .missing => .missing
  | c => .text (dumps c)

/-- The loop body (postbound/util/_df.py:53-57). -/
def convert (dumps : Cell → String) (c : Column) : Column :=
  if !c.object then c else if c.cells.all isText then c else { c with cells := c.cells.map (toJson dumps) }

/-- The files: directory, name and suffix. Directories are represented by the list of those that exist. -/
structure Disk where
  dirs : List String
  files : String × String × String → Option (Fmt × Frame)

/-- `write_df` (postbound/util/_df.py:37-75): whether the call succeeds, the data frame of the caller afterwards and the files. The data frame is changed in place. -/
def writeDf (dumps : Cell → String) (d : Disk) (f : Frame) (dir name suffix : String) : Bool × Frame × Disk :=
  let d := if dir ∈ d.dirs then d else { d with dirs := dir :: d.dirs }
  let f := f.map (convert dumps)
  match writeFmt suffix with
  | none => (false, f, d)
  | some fmt => (true, f, { d with files := fun p => if p = (dir, name, suffix) then some (fmt, f) else d.files p })

/-- `read_df` (postbound/util/_df.py:12-34): `none` is an exception, also if the file has another format. -/
def readDf (d : Disk) (dir name suffix : String) : Option Frame :=
  match readFmt suffix with
  | none => none
  | some fmt => match d.files (dir, name, suffix) with
    | none => none
    | some (fmt', f) => if fmt = fmt' then some f else none

end PB.Frames
