import Verif.Model.Dicts

/-! Model of further helpers for dictionaries (postbound/util/dicts.py). -/

namespace PB.DictTools
open PB

variable {κ ν μ : Type} [DecidableEq κ]
set_option linter.unusedSectionVars false

/-- `key` (postbound/util/dicts.py:40-50); `none` is a `ValueError`. -/
def key (d : Dict κ ν) : Option κ := if ¬ d.length = 1 then none else d.keys.head?

/-- `value` (postbound/util/dicts.py:53-62); `none` is a `ValueError`. -/
def value (d : Dict κ ν) : Option ν := if ¬ d.length = 1 then none else d.values.head?

/-- `update` (postbound/util/dicts.py:126-128). -/
def update (d : Dict κ ν) (u : κ → ν → μ) : Dict κ μ := Dict.ofList (d.map fun e => (e.1, u e.1 e.2))

/-- `explode` (postbound/util/dicts.py:131-136). -/
def explode (d : Dict κ (List ν)) : List (κ × ν) := d.foldl (fun acc e => acc ++ e.2.map fun v => (e.1, v)) []

/-- `reduce_multi` (postbound/util/dicts.py:168-172). -/
def reduceMulti (d : Dict κ (List ν)) (r : κ → List ν → μ) : Dict κ μ := Dict.ofList (d.map fun e => (e.1, r e.1 e.2))

/-- `dict_to_numpy` (postbound/util/dicts.py:227-229): the values in the order of the sorted keys. -/
def toNumpy (d : Dict Int ν) : List ν :=
  (Dict.ofList ((d.keys.mergeSort (fun a b => decide (a ≤ b))).filterMap fun k => (d.get? k).map fun v => (k, v))).values

end PB.DictTools
