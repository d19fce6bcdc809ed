import Verif.Model.Dicts

/-! Model of postbound/workloads.py: `Workload` and the functions that create workloads. `none` is an exception. Names and
root directories of workloads are not modelled. -/

set_option linter.dupNamespace false

namespace PB.Workload
open PB PB.Dicts

variable {L M Q F : Type} [DecidableEq L] [DecidableEq M] [DecidableEq Q]

/-- `natsort.natsorted`: stable sorting by the natural order `le` of the labels. -/
def natsorted (le : L → L → Bool) (ls : List L) : List L := ls.mergeSort le

/-- A `Workload` (postbound/workloads.py:224-238): the dictionary, the labels and the queries in the order of the workload
and the mapping from queries to labels. -/
structure Workload (L Q : Type) where
  data : Dict L Q
  labels : List L
  queries : List Q
  labelMapping : Dict Q L

/-- `_update_query_order` (postbound/workloads.py:585-587) -/
def queryOrder (d : Dict L Q) (ls : List L) : Option (List Q) := ls.mapM (Dict.get? d)

/-- `Workload.__init__` (postbound/workloads.py:224-238) -/
def build (le : L → L → Bool) (d : Dict L Q) : Option (Workload L Q) :=
  (queryOrder d (natsorted le (Dict.keys d))).map fun qs => ⟨d, natsorted le (Dict.keys d), qs, invert d⟩

/-- `entries` (postbound/workloads.py:275-285) -/
def entries (w : Workload L Q) : List (L × Q) := w.labels.zip w.queries

/-- `head` (postbound/workloads.py:287-302); the outer `none` is an IndexError, the inner one is `None`. -/
def head (w : Workload L Q) : Option (Option (L × Q)) :=
  match w.labels, w.queries with
  | [], _ => some none
  | l :: _, q :: _ => some (some (l, q))
  | _ :: _, [] => none

/-- `label_of` (postbound/workloads.py:304-322) -/
def labelOf (w : Workload L Q) (q : Q) : Option L := Dict.get? w.labelMapping q

/-- `with_labels` (postbound/workloads.py:324-341) -/
def withLabels (le : L → L → Bool) (w : Workload L Q) (ls : List L) : Option (Workload L Q) :=
  build le (Dict.ofList (w.data.filter fun e => decide (e.1 ∈ ls)))

/-- `{label: self.data[label] for label in labels}` (postbound/workloads.py:361, 382, 402) -/
def subDict (d : Dict L Q) (ls : List L) : Option (Dict L Q) :=
  (ls.mapM fun l => (Dict.get? d l).map fun q => (l, q)).map Dict.ofList

/-- `xs[:n]` -/
def sliceTo {α : Type} (xs : List α) (n : Int) : List α := if n < 0 then xs.take (xs.length - n.natAbs) else xs.take n.toNat

/-- `xs[n:]` -/
def sliceFrom {α : Type} (xs : List α) (n : Int) : List α := if n < 0 then xs.drop (xs.length - n.natAbs) else xs.drop n.toNat

/-- `first` (postbound/workloads.py:343-362) -/
def first (le : L → L → Bool) (w : Workload L Q) (n : Int) : Option (Workload L Q) :=
  (subDict w.data (sliceTo w.labels n)).bind (build le)

/-- `last` (postbound/workloads.py:364-383) -/
def last (le : L → L → Bool) (w : Workload L Q) (n : Int) : Option (Workload L Q) :=
  (subDict w.data (sliceFrom w.labels (-n))).bind (build le)

/-- `pick_random` (postbound/workloads.py:385-403). `sample` is the outcome of `random.sample`. -/
def pickRandom (le : L → L → Bool) (sample : List L → Nat → List L) (w : Workload L Q) (n : Nat) :
    Option (Workload L Q) :=
  (subDict w.data (sample w.labels (min n w.queries.length))).bind (build le)

/-- `with_prefix` (postbound/workloads.py:405-440). `startsWith` is the method of the labels. -/
def withPrefix (le : L → L → Bool) (startsWith : L → L → Bool) (w : Workload L Q) (pre : L) : Option (Workload L Q) :=
  build le (Dict.ofList (w.data.filter fun e => startsWith e.1 pre))

/-- `filter_by` (postbound/workloads.py:442-464) -/
def filterBy (le : L → L → Bool) (w : Workload L Q) (p : L → Q → Bool) : Option (Workload L Q) :=
  build le (Dict.ofList (w.data.filter fun e => p e.1 e.2))

/-- `relabel` (postbound/workloads.py:466-489) -/
def relabel (le : M → M → Bool) (w : Workload L Q) (f : L → Q → M) : Option (Workload M Q) :=
  build le (Dict.ofList (w.data.map fun e => (f e.1 e.2, e.2)))

/-- `map` (postbound/workloads.py:491-521) -/
def mapQueries (le : L → L → Bool) (w : Workload L Q) (f : Q → Q) : Option (Workload L Q) :=
  build le (Dict.ofList (w.data.map fun e => (e.1, f e.2)))

/-- `transform` (postbound/workloads.py:523-558) -/
def transform (le : M → M → Bool) (w : Workload L Q) (f : L → Q → M × Q) : Option (Workload M Q) :=
  build le (Dict.ofList (w.data.map fun e => f e.1 e.2))

/-- `shuffle` (postbound/workloads.py:560-573) -/
def shuffle (le : L → L → Bool) (sample : List L → Nat → List L) (w : Workload L Q) : Option (Workload L Q) :=
  (build le w.data).bind fun w' =>
    (queryOrder w'.data (sample w.labels w.data.length)).map fun qs =>
      { w' with labels := sample w.labels w.data.length, queries := qs }

/-- `ordered` (postbound/workloads.py:575-583) -/
def ordered (le : L → L → Bool) (w : Workload L Q) : Option (Workload L Q) := build le w.data

/-- `__add__` and `__or__` (postbound/workloads.py:589-594, 630-636) -/
def union (le : L → L → Bool) (w v : Workload L Q) : Option (Workload L Q) := build le (Dict.update v.data w.data)

/-- `__sub__` with labels (postbound/workloads.py:597-604) -/
def subLabels (le : L → L → Bool) (w : Workload L Q) (ls : List L) : Option (Workload L Q) :=
  build le (Dict.ofList (w.data.filter fun e => decide (e.1 ∉ ls)))

/-- `__sub__` with a workload (postbound/workloads.py:607-611) -/
def sub (le : L → L → Bool) (w v : Workload L Q) : Option (Workload L Q) := build le (difference w.data v.data)

/-- `__and__` with labels (postbound/workloads.py:614-621) -/
def andLabels (le : L → L → Bool) (w : Workload L Q) (ls : List L) : Option (Workload L Q) :=
  build le (Dict.ofList (w.data.filter fun e => decide (e.1 ∈ ls)))

/-- `__and__` with a workload (postbound/workloads.py:624-628) -/
def inter (le : L → L → Bool) (w v : Workload L Q) : Option (Workload L Q) := build le (intersection w.data v.data)

/-- `generate_workload` with labels (postbound/workloads.py:912-921) -/
def generateLabelled (le : L → L → Bool) (labels : Dict Q L) : Option (Workload L Q) := build le (invert labels)

/-- `{query: idx + 1 for idx, query in enumerate(queries)}` (postbound/workloads.py:917-919) -/
def numbered (queries : List Q) : Dict Q Nat := Dict.ofList (queries.zipIdx.map fun e => (e.1, e.2 + 1))

/-- `generate_workload` without labels (postbound/workloads.py:912-921) -/
def generate (queries : List Q) : Option (Workload Nat Q) := generateLabelled (fun a b => decide (a ≤ b)) (numbered queries)

/-! ### Reading workloads -/

/-- `on_error` -/
inductive OnError where
  | raise | warn | ignore
  deriving DecidableEq, Repr

/-- The loop over the files of a directory (postbound/workloads.py:195-220, 715-738). A file is its stem and its contents.
`last` is the variable `parsed_query`: it keeps its value when parsing fails, and reading it fails when it was never
assigned. -/
def readLoop (parse : F → Option Q) (mode : OnError) (pre : String) : List (String × F) → Option Q → Dict String Q →
    Option (Dict String Q)
  | [], _, acc => some acc
  | f :: fs, last, acc =>
    match parse f.2 with
    | some q => readLoop parse mode pre fs (some q) (acc.set (pre ++ f.1) q)
    | none =>
      (if mode = .raise then none else last).bind fun q => readLoop parse mode pre fs last (acc.set (pre ++ f.1) q)

/-- `Workload.read` (postbound/workloads.py:128-222) -/
def readFlat (le : String → String → Bool) (parse : F → Option Q) (mode : OnError) (pre : String) (files : List (String × F)) :
    Option (Workload String Q) :=
  (readLoop parse mode pre files none []).bind (build le)

/-- A directory: the files that match the pattern, and the subdirectories with their names. -/
inductive Dir (F : Type) where
  | mk (files : List (String × F)) (subs : List (String × Dir F))

/-- The prefix for a subdirectory (postbound/workloads.py:747-752) -/
def subPrefix (pre name : String) : String :=
  (if pre ≠ "" ∧ ¬ pre.endsWith "/" then pre ++ "/" else pre) ++ name ++ "/"

mutual
/-- The data of `read_workload` with `recurse_subdirectories` (postbound/workloads.py:657-764); the prefix is passed on, but
never used. -/
def readDir (parse : F → Option Q) (mode : OnError) (pre : String) : Dir F → Option (Dict String Q)
  | .mk files subs => (readLoop parse mode "" files none []).bind fun qs => readSubs parse mode pre qs subs
/-- The loop over the subdirectories (postbound/workloads.py:744-763) -/
def readSubs (parse : F → Option Q) (mode : OnError) (pre : String) (qs : Dict String Q) :
    List (String × Dir F) → Option (Dict String Q)
  | [] => some qs
  | (n, d) :: ds => (readDir parse mode (subPrefix pre n) d).bind fun sub =>
      readSubs parse mode pre (Dict.update qs sub) ds
end

/-- `read_workload` (postbound/workloads.py:657-764) -/
def readWorkload (le : String → String → Bool) (parse : F → Option Q) (mode : OnError) (recurse : Bool) (pre : String) :
    Dir F → Option (Workload String Q)
  | .mk files subs =>
    (if recurse then readDir parse mode pre (.mk files subs) else readLoop parse mode "" files none []).bind (build le)

end PB.Workload
