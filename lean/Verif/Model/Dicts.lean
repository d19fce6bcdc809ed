import Verif.Model.Dict

/-! Model of postbound/util/dicts.py. -/

namespace PB.Dicts
open PB

variable {κ ν : Type} [DecidableEq κ] [DecidableEq ν]
set_option linter.unusedSectionVars false

/-- `difference` (postbound/util/dicts.py:65-80). -/
def difference (a b : Dict κ ν) : Dict κ ν := Dict.ofList (a.filter (fun e => !b.has e.1))

/-- `intersection` (postbound/util/dicts.py:83-98). -/
def intersection (a b : Dict κ ν) : Dict κ ν := Dict.ofList (a.filter (fun e => b.has e.1))

/-- Loop body of `merge` with an updater (postbound/util/dicts.py:116-122). -/
def mergeStep (u : κ → ν → ν → ν) (merged : Dict κ ν) (e : κ × ν) : Dict κ ν :=
  match merged.get? e.1 with
  | some old => merged.set e.1 (u e.1 old e.2)
  | none => merged.set e.1 e.2

/-- `merge` (postbound/util/dicts.py:101-123); `updater = none` is the default. -/
def merge (a b : Dict κ ν) (updater : Option (κ → ν → ν → ν)) : Dict κ ν :=
  match updater with
  | none => Dict.ofList (a ++ b)
  | some u => b.foldl (mergeStep u) (Dict.ofList a)

/-- `collector[k].append(v)` on a `defaultdict(list)`. -/
def multiAppend (d : Dict κ (List ν)) (k : κ) (v : ν) : Dict κ (List ν) :=
  d.set k ((d.get? k).getD [] ++ [v])

/-- `generate_multi` (postbound/util/dicts.py:157-165). -/
def generateMulti (entries : List (κ × ν)) : Dict κ (List ν) :=
  entries.foldl (fun d e => multiAppend d e.1 e.2) []

/-- `aggregate` (postbound/util/dicts.py:192-197). -/
def aggregate (ds : List (Dict κ ν)) : Dict κ (List ν) :=
  ds.foldl (fun acc d => d.foldl (fun acc e => multiAppend acc e.1 e.2) acc) []

/-- Inner loop body of `invert_multi` (postbound/util/dicts.py:183-188). -/
def invertStep (k : κ) (level2 : Dict ν (List κ)) (v : ν) : Dict ν (List κ) :=
  match level2.get? v with
  | none => level2.set v [k]
  | some ks => level2.set v (ks ++ [k])

/-- `invert_multi` (postbound/util/dicts.py:175-189). -/
def invertMulti (mapping : Dict κ (List ν)) : Dict ν (List κ) :=
  let level1 : Dict (List ν) κ := Dict.ofList (mapping.map fun e => (e.2, e.1))
  level1.foldl (fun level2 e => e.1.foldl (invertStep e.2) level2) []

/-- `invert` (postbound/util/dicts.py:200-208). -/
def invert (mapping : Dict κ ν) : Dict ν κ := Dict.ofList (mapping.map fun e => (e.2, e.1))

/-- `argmin` (postbound/util/dicts.py:211-216): `min(mapping, key=mapping.get)`, the first key with the smallest
value; `none` is the `ValueError` on an empty mapping. -/
def argmin (mapping : Dict κ Rat) : Option κ :=
  match mapping with
  | [] => none
  | e :: rest => some (rest.foldl (fun best e => if e.2 < best.2 then e else best) e).1

/-- `hash_dict` (postbound/util/dicts.py:139-154) on hashable values: the tuples of keys and values, in
insertion order. -/
def hashDictKey (d : Dict κ ν) : List κ × List ν := (d.keys, d.values)

/-- Equality of `UserDict`s (used by `frozendict`/`HashableDict`, postbound/util/dicts.py:232-338) is equality of
the underlying dictionaries, i.e. it ignores the insertion order. -/
def dictEq (a b : Dict κ ν) : Prop := ∀ k, a.get? k = b.get? k

end PB.Dicts
