import Mathlib.Data.List.Sort
import Mathlib.Data.Rat.Floor
import Verif.Model.Dict

/-!
Model of the statistics objects of postbound/db/_db.py (`simplify_result_set`, `MostCommonValues`,
`_infer_histogram_bounds`, `Histogram`) and of the histogram construction of postbound/postgres.py.
-/

namespace PB.Stats

/-! ### Result sets -/

/-- Python values that occur in result sets: scalars, tuples (rows) and lists (result sets, array columns). -/
inductive Val
  | atom (n : Nat)
  | tup (l : List Val)
  | lst (l : List Val)

/-- A result set: a list of rows (postbound/db/_db.py:250-255). -/
abbrev ResultSet := List (List Val)

/-- `simplify_result_set(result_set)` (postbound/db/_db.py:257-286); `None` as input is treated like the empty
list by the code and is not modelled separately. `none` is the `IndexError` of `row[0]` for an empty row. -/
def simplify : ResultSet → Option Val
  | [] => some (.lst [])
  | r :: rs =>
    if r.length = 1 then
      ((r :: rs).mapM List.head?).map fun vs =>
        if vs.length = 1 then vs.headD (.lst []) else .lst vs
    else if (r :: rs).length = 1 then some (.tup r)
    else some (.lst ((r :: rs).map .tup))

/-! ### Most common values -/

/-- `a` comes before `b` in the order of `sort(key=lambda pair: (pair[1], pair[0]), reverse=True)`
(postbound/db/_db.py:1621). -/
def mcvBefore (a b : Rat × Int) : Prop := b.2 < a.2 ∨ (b.2 = a.2 ∧ b.1 ≤ a.1)

instance (a b : Rat × Int) : Decidable (mcvBefore a b) := by unfold mcvBefore; infer_instance

/-- A `MostCommonValues` object (postbound/db/_db.py:1619-1628). Values are rational numbers. -/
structure Mcv where
  mcvs : List (Rat × Int)
  map : Dict Rat Int
  minFreq : Int
  maxFreq : Int
deriving Repr

/-- `MostCommonValues(mcvs)` (postbound/db/_db.py:1619-1628). Pairs that are equal under the sort key are equal,
so that all sorting algorithms have the same result. -/
def Mcv.make (l : List (Rat × Int)) : Mcv :=
  let s := l.insertionSort mcvBefore
  { mcvs := s, map := Dict.ofList s,
    minFreq := (s.getLast?.map (·.2)).getD 0, maxFreq := (s.head?.map (·.2)).getD 0 }

/-- `values` (postbound/db/_db.py:1651-1654). -/
def Mcv.values (m : Mcv) : List Rat := Dict.keys m.map

/-- `frequencies` (postbound/db/_db.py:1656-1659). -/
def Mcv.frequencies (m : Mcv) : List Int := Dict.values m.map

/-- `frequency_of(value, default=…, bound_missing=…)` (postbound/db/_db.py:1675-1699). -/
def Mcv.frequencyOf (m : Mcv) (v : Rat) (default : Option Int) (boundMissing : Bool) : Option Int :=
  let fallback := match default with
    | some d => some d
    | none => if boundMissing then some m.minFreq else none
  match Dict.get? m.map v with
  | some f => some f
  | none => fallback

/-- The index of a Python slice bound: negative numbers count from the end. -/
def sliceIdx (n : Nat) (k : Int) : Nat := if k < 0 then (n + k).toNat else k.toNat

/-- `top(k)` (postbound/db/_db.py:1701-1703). -/
def Mcv.top (m : Mcv) (k : Int) : Mcv := .make (m.mcvs.take (sliceIdx m.mcvs.length k))

/-- `below(k)` (postbound/db/_db.py:1705-1707). -/
def Mcv.below (m : Mcv) (k : Int) : Mcv := .make (m.mcvs.drop (sliceIdx m.mcvs.length k))

/-! ### Histograms -/

/-- The loop of `_infer_histogram_bounds` (postbound/db/_db.py:1744-1753). -/
def inferLoop (size : Int) : Int → List (Rat × Int) → List (Rat × Int)
  | _, [] => []
  | cum, (v, f) :: rest =>
    if cum + f < size then inferLoop size (cum + f) rest
    else (v, cum + f) :: inferLoop size 0 rest

/-- `_infer_histogram_bounds(frequencies, n_bins=…, n_rows=…)` (postbound/db/_db.py:1735-1755): lower bound and
pairs of upper bound and frequency. `none` is the `ValueError` for the empty list. -/
def inferBounds (freqs : List (Rat × Int)) (nBins nRows : Int) : Option (Rat × List (Rat × Int)) :=
  match freqs with
  | [] => none
  | (v, f) :: rest => some (v, inferLoop (nRows / nBins) 0 ((v, f) :: rest))

/-- `HistogramApproximation` (postbound/db/_db.py:1731). -/
inductive Mode | bound | approxUni
deriving DecidableEq, Repr

/-- A `Histogram` (postbound/db/_db.py:1793-1814). Values (numbers, dates) are rational numbers. -/
structure Hist where
  bounds : List Rat
  freqs : List Int
  lower : Rat
  nRows : Int
  freqPerBucket : Int
  mode : Mode
deriving DecidableEq, Repr

/-- `Histogram(bounds, frequencies, lower=…, bucket_interpolation=…)` (postbound/db/_db.py:1793-1814); `none` is
`ValueError`. -/
def Hist.make (bounds : List Rat) (freqs : List Int) (lower : Rat) (mode : Mode) : Option Hist :=
  if bounds = [] then none
  else if bounds.length ≠ freqs.length then none
  else some { bounds, freqs, lower, nRows := freqs.sum, freqPerBucket := freqs.sum / bounds.length, mode }

/-- The loop of `bisect.bisect_right(a, x)` of the standard library; `fuel` bounds the number of iterations. -/
def bisectRight (a : List Rat) (x : Rat) : Nat → Nat → Nat → Nat
  | 0, lo, _ => lo
  | fuel + 1, lo, hi =>
    if lo < hi then
      if x < a.getD ((lo + hi) / 2) 0 then bisectRight a x fuel lo ((lo + hi) / 2)
      else bisectRight a x fuel ((lo + hi) / 2 + 1) hi
    else lo

/-- The loop of `bisect.bisect_left(a, x)` of the standard library. -/
def bisectLeft (a : List Rat) (x : Rat) : Nat → Nat → Nat → Nat
  | 0, lo, _ => lo
  | fuel + 1, lo, hi =>
    if lo < hi then
      if a.getD ((lo + hi) / 2) 0 < x then bisectLeft a x fuel ((lo + hi) / 2 + 1) hi
      else bisectLeft a x fuel lo ((lo + hi) / 2)
    else lo

/-- `frequency_below(value)` (postbound/db/_db.py:1864-1892) for numeric values. `none` is the
`ZeroDivisionError` of line 1891. -/
def Hist.below (h : Hist) (v : Rat) : Option Rat :=
  let upper := bisectRight h.bounds v h.bounds.length 0 h.bounds.length
  if upper = 0 then some 0
  else if upper = h.bounds.length then some h.nRows
  else match h.mode with
    | .bound => some (upper * h.freqPerBucket)
    | .approxUni =>
      let lower := upper - 1
      let ub := h.bounds.getD upper 0
      let lb := h.bounds.getD lower 0
      if ub - lb = 0 then none
      else some ((lower + (v - lb) / (ub - lb)) * h.freqPerBucket)

/-- `frequency_above(value)` (postbound/db/_db.py:1894-1925) for numeric values. `none` is the `IndexError` of line
1922 or the `ZeroDivisionError` of line 1924. -/
def Hist.above (h : Hist) (v : Rat) : Option Rat :=
  let lower := bisectLeft h.bounds v h.bounds.length 0 h.bounds.length
  if lower = 0 then some h.nRows
  else if lower = h.bounds.length then some 0
  else match h.mode with
    | .bound => some (lower * h.freqPerBucket)
    | .approxUni =>
      let upper := lower + 1
      if h.bounds.length ≤ upper then none
      else
        let ub := h.bounds.getD upper 0
        let lb := h.bounds.getD lower 0
        if ub - lb = 0 then none
        else some ((upper + (v - lb) / (ub - lb)) * h.freqPerBucket)

/-- `_calculate_histogram` (postbound/db/_db.py:2837-2870) on the result of its grouping query. `some none` is the
result `None` for empty tables, `none` an exception (`n_bins = 0` raises as well, see line 2680). The total number
of rows comes from a separate query. -/
def calculateHistogram (freqs : List (Rat × Int)) (nBins nRows : Int) (mode : Mode) : Option (Option Hist) :=
  if nRows = 0 then some none
  else if nBins = 0 then none
  else (inferBounds freqs nBins nRows).bind fun r =>
    (Hist.make (r.2.map (·.1)) (r.2.map (·.2)) r.1 mode).map some

/-- `min(filter(None, [cur_hist, cur_mcv_val]), default=None)` (postbound/postgres.py:1994-1998): the filter also
drops the number 0. -/
def loOf (h v : Option Rat) : Option Rat :=
  match h.filter (· ≠ 0), v.filter (· ≠ 0) with
  | some a, some b => some (min a b)
  | some a, none => some a
  | none, b => b

/-- The main loop of `_retrieve_histogram_from_stats` (postbound/postgres.py:1981-2029): merges the bounds of the
histogram with the most common values. `none` is the `AssertionError` of line 2026; `fuel` bounds the number of
iterations. -/
def pgMerge (bf : Int) : Nat → Option Rat → List Rat → List (Rat × Int) → Option (Option Rat × List (Rat × Int))
  | 0, lo, _, _ => some (lo, [])
  | _ + 1, lo, [], [] => some (lo, [])
  | fuel + 1, lo, [], (v, f) :: ms =>
    (pgMerge bf fuel (lo.or (loOf none (some v))) [] ms).map fun r => (r.1, (v, f) :: r.2)
  | fuel + 1, lo, h :: hs, [] =>
    (pgMerge bf fuel (lo.or (loOf (some h) none)) (hs.dropWhile (· = h)) []).map fun r =>
      (r.1, (h, bf + bf * (hs.takeWhile (· = h)).length) :: r.2)
  | fuel + 1, lo, h :: hs, (v, f) :: ms =>
    if h < v then
      (pgMerge bf fuel (lo.or (loOf (some h) (some v))) (hs.dropWhile (· = h)) ((v, f) :: ms)).map fun r =>
        (r.1, (h, bf + bf * (hs.takeWhile (· = h)).length) :: r.2)
    else if v < h then
      (pgMerge bf fuel (lo.or (loOf (some h) (some v))) (h :: hs) ms).map fun r => (r.1, (v, f) :: r.2)
    else none

/-- `_retrieve_histogram_from_stats` (postbound/postgres.py:1954-2037) on the results of its queries: histogram
bounds, total number of rows, and most common values in the order of the catalog. `some none` is the result `None`,
`none` an exception. -/
def pgHistogram (bounds : List Rat) (nRows : Int) (mcvs : List (Rat × Int)) (mode : Mode) : Option (Option Hist) :=
  if bounds = [] then some none
  else if nRows = 0 then none
  else (pgMerge (nRows / bounds.length) (bounds.length + mcvs.length) none bounds mcvs).bind fun r =>
    r.1.bind fun lo => (Hist.make (r.2.map (·.1)) (r.2.map (·.2)) lo mode).map some

end PB.Stats
