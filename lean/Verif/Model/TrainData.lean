import Verif.Model.Dict

/-! Model of training data and their repository (postbound/train/_train.py). Data frames are lists of columns and rows; the
conversion of the query column and reading files (`from_df` for paths) are not modelled. -/

namespace PB.TrainData

/-- A data frame of pandas: column names and rows; `none` is a missing value (NaN). -/
structure Df (V : Type) where
  cols : List String
  rows : List (String → Option V)

variable {V : Type}

/-- `df[columns]`; `none` is the `KeyError`. -/
def Df.select (d : Df V) (cs : List String) : Option (Df V) :=
  if cs.all (· ∈ d.cols) then some ⟨cs, d.rows⟩ else none

/-- The new name of a column. -/
def newName (m : Dict String String) (c : String) : String := (m.get? c).getD c

/-- `df.rename(columns=m)` -/
def Df.rename (d : Df V) (m : Dict String String) : Df V :=
  ⟨d.cols.map (newName m), d.rows.map fun r c => (d.cols.find? fun o => newName m o = c).bind r⟩

/-- The value of a row, missing for other columns. -/
def mask (cols : List String) (r : String → Option V) (c : String) : Option V := if c ∈ cols then r c else none

/-- `pd.concat([a, b])`: the rows of both frames over all columns. Simplification: duplicate column names are always an error. -/
def concat (a b : Df V) : Option (Df V) :=
  if a.cols.Nodup ∧ b.cols.Nodup then
    some ⟨a.cols ++ b.cols.filter (· ∉ a.cols), a.rows.map (mask a.cols) ++ b.rows.map (mask b.cols)⟩
  else none

/-- `TrainingSpec` (postbound/train/_train.py:86-102): the features in order. -/
abbrev Spec := List String

/-- `provides` and `requires` (postbound/train/_train.py:104-127). -/
def Spec.provides (s : Spec) (fs : List String) : Bool := fs.all (· ∈ s)

/-- `SpecViolations.missing_features` (postbound/train/_train.py:129-152, 196-197). -/
def missing (s other : Spec) : List String := other.filter (· ∉ s)

/-- `satisfies` as a condition (postbound/train/_train.py:129-152, 203-204). -/
def satisfies (s other : Spec) : Bool := (missing s other).isEmpty

/-- `==` of specs (postbound/train/_train.py:160-163). -/
def specEq (s t : Spec) : Bool := s.all (· ∈ t) && t.all (· ∈ s)

/-- `TrainingData` (postbound/train/_train.py:311-321) without the source. -/
structure Data (V : Type) where
  samples : Df V
  fmap : Dict String String

/-- `spec` (postbound/train/_train.py:321, 342-344) -/
def Data.spec (d : Data V) : Spec := d.fmap.keys

/-- `from_df` for a data frame without a query column (postbound/train/_train.py:265-293). -/
def fromDf (df : Df V) : Data V := ⟨df, Dict.ofList (df.cols.map fun c => (c, c))⟩

/-- `conform_to` (postbound/train/_train.py:372-404); `none` is the `ValueError`. -/
def Data.conformTo (d : Data V) (s : Spec) : Option (Data V) :=
  if satisfies d.spec s then some ⟨d.samples, d.fmap.filter fun e => s.provides [e.1]⟩ else none

/-- The columns of the requested features (postbound/train/_train.py:420). -/
def columnsOf (m : Dict String String) : Spec → Option (List String)
  | [] => some []
  | f :: fs => (m.get? f).bind fun c => (columnsOf m fs).map (c :: ·)

/-- `as_df` with a spec (postbound/train/_train.py:406-421); `none` is an exception. The renaming is given as
`feature → column`. -/
def Data.asDf (d : Data V) (s : Spec) : Option (Df V) :=
  if satisfies d.spec s then
    ((columnsOf d.fmap s).bind d.samples.select).map fun df => df.rename d.fmap
  else none

/-- `as_df` without a spec (postbound/train/_train.py:412-415). -/
def Data.asDfAll (d : Data V) : Df V := d.samples.rename d.fmap

/-- `merge_with` (postbound/train/_train.py:423-441); `none` is an exception. -/
def Data.mergeWith (d other : Data V) : Option (Data V) :=
  if (missing other.spec d.spec).isEmpty then
    (other.asDf d.spec).bind fun df => (concat d.samples df).map fun m => ⟨m, d.fmap⟩
  else none

/-- The loop of `merge` (postbound/train/_train.py:307-308). -/
def mergeAll (d : Data V) : List (Data V) → Option (Data V)
  | [] => some d
  | o :: os => (d.mergeWith o).bind fun m => mergeAll m os

/-- `merge` (postbound/train/_train.py:296-309); `none` is an exception. -/
def merge (ds : List (Data V)) (s : Spec) : Option (Data V) :=
  match ds with
  | [] => none
  | d :: rest => (mergeAll d rest).bind fun m => m.conformTo s

/-- `__getitem__` (postbound/train/_train.py:449-452); `none` is an exception. -/
def Data.getItem (d : Data V) (i : Nat) : Option (List (Option V)) :=
  (d.samples.rows[i]?).bind fun r => if d.fmap.values.all (· ∈ d.samples.cols) then some (d.fmap.values.map r) else none

/-- `TrainingDataRepository` (postbound/train/_train.py:470-471): the registered datasets. -/
abbrev Repo (V : Type) := List (Data V)

/-- `register` (postbound/train/_train.py:473-476) -/
def Repo.register (r : Repo V) (d : Data V) : Repo V := r ++ [d]

/-- `retrieve_first` (postbound/train/_train.py:478-486); the outer `none` is an exception. -/
def Repo.retrieveFirst (r : Repo V) (s : Spec) : Option (Option (Data V)) :=
  match r.find? fun d => satisfies d.spec s with
  | none => some none
  | some d => (d.conformTo s).map some

/-- `retrieve_all` (postbound/train/_train.py:488-490) -/
def Repo.retrieveAll (r : Repo V) (s : Spec) : List (Data V) := r.filter fun d => satisfies d.spec s

/-- `retrieve_merged` (postbound/train/_train.py:492-504); the outer `none` is an exception. -/
def Repo.retrieveMerged (r : Repo V) (s : Spec) : Option (Option (Data V)) :=
  match r.retrieveAll s with
  | [] => some none
  | [d] => some (some d)
  | ds => (merge ds s).map some

end PB.TrainData
