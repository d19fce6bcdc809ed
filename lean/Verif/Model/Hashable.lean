import Mathlib.Data.List.Basic

/-!
Model of the conversion of containers to hashable ones (`make_hashable`, postbound/util/collections.py:322-354) and of the unwrapping of containers with a single element (`simplify`, postbound/util/collections.py:176-213, the
counterpart of `enlist`, postbound/util/collections.py:113-143).
-/

namespace PB.Hashable

/-- Python objects: numbers and other hashable objects, objects that cannot be hashed, and containers. Elements of sets and keys of dictionaries are hashable in Python and represented by numbers. `hdict` is a `HashableDict`. -/
inductive Obj
  | atom (n : Nat)
  | other (n : Nat)
  | set (es : List Nat)
  | frozenset (es : List Nat)
  | list (es : List Obj)
  | tuple (es : List Obj)
  | dict (es : List (Nat × Obj))
  | hdict (es : List (Nat × Obj))

mutual
/-- `make_hashable` (postbound/util/collections.py:322-354). A `HashableDict` is a `UserDict` and no `dict`, so it is returned as it is. -/
def makeHashable : Obj → Obj
  | .set es => .frozenset es
  | .list es => .tuple (makeAll es)
  | .tuple es => .tuple (makeAll es)
  | .dict es => .hdict (makeValues es)
  | .atom n => .atom n
  | .other n => .other n
  | .frozenset es => .frozenset es
  | .hdict es => .hdict es
/-- The elements (postbound/util/collections.py:350). -/
def makeAll : List Obj → List Obj
  | [] => []
  | o :: os => makeHashable o :: makeAll os
/-- The values (postbound/util/collections.py:352). -/
def makeValues : List (Nat × Obj) → List (Nat × Obj)
  | [] => []
  | (k, o) :: os => (k, makeHashable o) :: makeValues os
end

/-- A value that is hashed by `hash_dict` (postbound/util/dicts.py:139-154). -/
inductive Hash
  | atom (n : Nat)
  | frozenset (es : List Nat)
  | seq (hs : List Hash)
  | dict (keys : List Nat) (values : List Hash)

mutual
/-- `hash(obj)`: `none` is an exception. `hash_dict` (postbound/util/dicts.py:139-154) hashes keys and values in the order of the dictionary. It calls `hash` for values whose type is hashable (also tuples), hashes lists and sets as tuples,
nested dictionaries recursively, and skips other values with a warning. The hash of a frozenset is represented by its elements. -/
def hashOf : Obj → Option Hash
  | .atom n => some (.atom n)
  | .other _ => none
  | .set _ => none
  | .frozenset es => some (.frozenset es)
  | .list _ => none
  | .tuple es => (hashAll es).map .seq
  | .dict _ => none
  | .hdict es => (hashValues es).map (.dict (es.map Prod.fst))
/-- The elements of a tuple. -/
def hashAll : List Obj → Option (List Hash)
  | [] => some []
  | o :: os => (hashOf o).bind fun h => (hashAll os).map (h :: ·)
/-- The values of a `HashableDict`. -/
def hashValues : List (Nat × Obj) → Option (List Hash)
  | [] => some []
  | (_, o) :: os => match o with
    | .other _ => hashValues os
    | .set es => (hashValues os).map (.seq (es.map .atom) :: ·)
    | .list es => (hashAll es).bind fun h => (hashValues os).map (.seq h :: ·)
    | .dict es => (hashValues es).bind fun h => (hashValues os).map (.dict (es.map Prod.fst) h :: ·)
    | .atom n => (hashValues os).map (.atom n :: ·)
    | .frozenset es => (hashValues os).map (.frozenset es :: ·)
    | .tuple es => (hashAll es).bind fun h => (hashValues os).map (.seq h :: ·)
    | .hdict es => (hashValues es).bind fun h => (hashValues os).map (.dict (es.map Prod.fst) h :: ·)
end

/-- Values of `enlist` and `simplify`: texts, other objects that are not iterable, lists (or sets), tuples, dictionaries and other iterables, for example generators. -/
inductive Val (T : Type)
  | text (s : String)
  | obj (t : T)
  | list (es : List (Val T))
  | tuple (es : List (Val T))
  | dict (es : List (Val T × Val T))
  | iter (es : List (Val T))

/-- `enlist` (postbound/util/collections.py:113-143). Views of dictionaries are not modelled. -/
def enlist {T : Type} (enlistTuples : Bool) : Val T → Val T
  | .text s => .list [.text s]
  | .tuple es => if enlistTuples then .list [.tuple es] else .tuple es
  | .list es => .list es
  | .obj t => .list [.obj t]
  | .dict es => .list [.dict es]
  | .iter es => .list [.iter es]

/-- `simplify` (postbound/util/collections.py:176-213). Iterables that are no collections become lists. -/
def simplify {T : Type} : Val T → Val T
  | .text s => .text s
  | .obj t => .obj t
  | .dict [e] => .tuple [e.1, e.2]
  | .dict es => .dict es
  | .list [e] => e
  | .list es => .list es
  | .tuple [e] => e
  | .tuple es => .tuple es
  | .iter [e] => e
  | .iter es => .list es

end PB.Hashable
