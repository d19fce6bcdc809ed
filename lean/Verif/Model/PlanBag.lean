import Verif.Model.Dict

/-! Model of the attribute collections of query plans, i.e. `PlanParams`, `PlanEstimates` and `PlanMeasures`
(postbound/_qep.py:185-734), and of the constructor of `QueryPlan` (postbound/_qep.py:926-1031). -/

namespace PB.PlanBag
open PB

/-- The Python values that the code distinguishes, and the built-in operations it applies to them: truth values,
`tuple(v)`, conversion to a `Cardinality` (postbound/_core.py:50-71; `none` is a `TypeError`), `isinstance(v, float) and
math.isnan(v)`, `math.isnan(v)` (`none` is a `TypeError`) and `isinstance(v, Number)`. -/
structure Py (V : Type) where
  none : V
  zero : V
  emptyStr : V
  emptyTuple : V
  nan : V
  unknown : V
  truthy : V → Bool
  isNone : V → Bool
  tuple : V → Option V
  card : V → Option V
  nanFloat : V → Bool
  isnan : V → Option Bool
  isNumber : V → Bool

/-- The three classes. -/
inductive Kind where
  | params
  | estimates
  | measures
deriving DecidableEq

variable {V : Type}

/-- The keyword parameters of the constructors with their defaults, and what is stored
(postbound/_qep.py:222-241, 446-458, 592-612). -/
def fields (py : Py V) : Kind → List (String × V × (V → Option V))
  | .params => [
      ("base_table", py.none, some),
      ("filter_predicate", py.none, some),
      ("sort_keys", py.none, fun v => if py.truthy v then py.tuple v else some py.emptyTuple),
      ("parallel_workers", py.none, fun v => some (if py.truthy v then v else py.zero)),
      ("index", py.none, fun v => some (if py.truthy v then v else py.emptyStr)),
      ("lookup_key", py.none, fun v => some (if py.truthy v then v else py.none))]
  | .estimates => [("cardinality", py.unknown, py.card), ("cost", py.nan, some)]
  | .measures => [("cardinality", py.unknown, py.card), ("execution_time", py.nan, some), ("cache_hits", py.none, some),
      ("cache_misses", py.none, some)]

/-- The values of the named parameters. -/
def named (kwargs : Dict String V) : List (String × V × (V → Option V)) → Option (Dict String V)
  | [] => some []
  | (n, d, f) :: l => (f ((kwargs.get? n).getD d)).bind fun v => (named kwargs l).map ((n, v) :: ·)

/-- The constructors (postbound/_qep.py:222-241, 446-458, 592-612): the named parameters and all other keywords;
`none` is a `TypeError`. The keyword `self` is given twice. -/
def construct (py : Py V) (k : Kind) (kwargs : Dict String V) : Option (Dict String V) :=
  if kwargs.has "self" then none
  else (named kwargs (fields py k)).map fun b =>
    b.update (kwargs.filter fun e => e.1 ∉ (fields py k).map Prod.fst)

/-- The objects of a program: each has its class and the address of its dictionary `_params`. -/
structure Heap (V : Type) where
  dicts : List (Dict String V)
  objs : List (Kind × Nat)

/-- The class of an object and its dictionary. -/
def Heap.get (h : Heap V) (o : Nat) : Option (Kind × Dict String V) :=
  match h.objs[o]? with
  | none => none
  | some (k, a) => (h.dicts[a]?).map fun d => (k, d)

/-- A new object with a new dictionary. -/
def Heap.alloc (h : Heap V) (k : Kind) (d : Dict String V) : Heap V :=
  ⟨h.dicts ++ [d], h.objs ++ [(k, h.dicts.length)]⟩

/-- What a program does with these objects. -/
inductive Op (V : Type) where
  | new (k : Kind) (kwargs : Dict String V)
  | setattr (o : Nat) (name : String) (v : V)
  | setitem (o : Nat) (name : String) (v : V)
  | clone (o : Nat) (deep : Bool)

/-- `__setitem__` (postbound/_qep.py:406-407, 549-550, 719-720) -/
def setItem (h : Heap V) (o : Nat) (name : String) (v : V) : Option (Heap V) :=
  match h.objs[o]? with
  | none => none
  | some (_, a) => (h.dicts[a]?).map fun d => { h with dicts := h.dicts.set a (d.set name v) }

/-- `__setattr__` (postbound/_qep.py:397-401, 540-544, 710-714). Assigning `_params` itself is not modelled (`none`). -/
def setAttr (h : Heap V) (o : Nat) (name : String) (v : V) : Option (Heap V) :=
  if name = "_params" then none else setItem h o name v

/-- `clone` with `__copy__` and `__deepcopy__` (postbound/_qep.py:360-383, 503-526, 673-696). Values are immutable here, so
copying them yields the same values. -/
def clone (py : Py V) (h : Heap V) (o : Nat) (_deep : Bool) : Option (Heap V) :=
  match h.get o with
  | none => none
  | some (k, d) => (construct py k d).map (h.alloc k)

/-- One operation; `none` is an exception. -/
def step (py : Py V) (h : Heap V) : Op V → Option (Heap V)
  | .new k kwargs => (construct py k kwargs).map (h.alloc k)
  | .setattr o n v => setAttr h o n v
  | .setitem o n v => setItem h o n v
  | .clone o deep => clone py h o deep

/-- A program that catches all exceptions. -/
def run (py : Py V) (h : Heap V) : List (Op V) → Heap V
  | [] => h
  | op :: ops => run py ((step py h op).getD h) ops

/-- `__getitem__` (postbound/_qep.py:403-404, 546-547, 716-717); `none` is a `KeyError`. -/
def getItem (h : Heap V) (o : Nat) (name : String) : Option V := (h.get o).bind fun b => b.2.get? name

/-- What an attribute can be: a value, the dictionary or something of the class (a method). -/
inductive Attr (V : Type) where
  | value (v : V)
  | internal (d : Dict String V)
  | method (name : String)
deriving DecidableEq

/-- The attributes of the classes (without those of `object`); the properties are never found, since their names are keys. -/
def classAttrs : Kind → List String
  | .params => ["tables", "columns", "get", "items", "clone", "base_table", "filter_predicate", "sort_keys",
      "parallel_workers", "index", "lookup_key"]
  | .estimates => ["get", "items", "clone", "cardinality", "cost", "additional_estimates"]
  | .measures => ["get", "items", "clone", "cardinality", "execution_time", "cache_hits", "cache_misses",
      "additional_measures"]

/-- `__getattribute__` (postbound/_qep.py:389-395, 532-538, 702-708); `none` is an `AttributeError`. -/
def getAttr (h : Heap V) (o : Nat) (name : String) : Option (Attr V) :=
  (h.get o).bind fun b =>
    if name = "_params" then some (.internal b.2)
    else match b.2.get? name with
      | some v => some (.value v)
      | none => if name ∈ classAttrs b.1 then some (.method name) else none

/-- `__contains__` (postbound/_qep.py:385-387, 528-530, 698-700) -/
def contains (h : Heap V) (o : Nat) (name : String) : Bool :=
  match h.get o with
  | none => false
  | some b => b.2.has name

/-- `get` (postbound/_qep.py:333-354, 476-497, 646-667) -/
def getDefault (py : Py V) (h : Heap V) (o : Nat) (name : String) (default : V) : V :=
  match h.get o with
  | none => default
  | some b => let v := (b.2.get? name).getD default
    if py.nanFloat v then default else v

/-- `additional_estimates` and `additional_measures` (postbound/_qep.py:471-474, 641-644) -/
def additional (h : Heap V) (o : Nat) : Dict String V :=
  match h.get o with
  | none => []
  | some (.params, _) => []
  | some (.estimates, d) => d.filter fun e => e.1 ∉ ["cardinality", "cost"]
  | some (.measures, d) => d.filter fun e => e.1 ∉ ["cardinality", "execution_time", "cache_hits", "cache_misses"]

/-- Whether a measure is present (postbound/_qep.py:724). -/
def present (py : Py V) (v : V) : Bool :=
  if py.isNumber v then py.isnan v != some true else !py.isNone v

/-- `PlanMeasures.__bool__` (postbound/_qep.py:722-726); numbers for which `math.isnan` raises an exception (complex numbers
and integers that are too large) are not modelled. -/
def measured (py : Py V) (h : Heap V) (o : Nat) : Bool :=
  match h.get o with
  | none => false
  | some b => b.2.values.any (present py)

/-! ## The constructor of query plans -/

/-- A node type or an operator in its place (postbound/_qep.py:928); operators have a name. -/
inductive NodeType (O : Type) where
  | text (s : String)
  | operator (o : O)

/-- `not node_type` (postbound/_qep.py:952) -/
def NodeType.missing {O : Type} : NodeType O → Bool
  | .text s => s = ""
  | .operator _ => false

/-- The node type of the plan (postbound/_qep.py:1015-1019). -/
def NodeType.label {O : Type} (name : O → String) : NodeType O → String
  | .text s => s
  | .operator o => name o

/-- The operator of the plan (postbound/_qep.py:1015-1020). -/
def NodeType.op {O : Type} (given : Option O) : NodeType O → Option O
  | .text _ => given
  | .operator o => some o

/-- What can be passed as children: nothing, a plan, a list, tuple, a set, or another iterable. -/
inductive Children (C : Type) where
  | none
  | one (c : C)
  | list (l : List C)
  | set (l : List C)
  | iterable (l : List C)

/-- What the children of a plan can be in fact. -/
inductive Child (C : Type) where
  | plan (c : C)
  | iterator (l : List C)
deriving DecidableEq

/-- The arguments (postbound/_qep.py:926-951); `kwargs` are all other keywords. -/
structure Args (V O C : Type) where
  nodeType : NodeType O
  operator : Option O
  children : Children C
  planParams : Option (Dict String V)
  subplan : Option (Option C × String)
  estimates : Option (Dict String V)
  measures : Option (Dict String V)
  baseTable : V
  filter : V
  workers : V
  index : V
  sortKeys : V
  lookupKey : V
  estCard : V
  estCost : V
  actualCard : V
  execTime : V
  cacheHits : V
  cacheMisses : V
  subplanRoot : Option C
  subplanTarget : String
  kwargs : Dict String V

/-- A plan. -/
structure Plan (V O C : Type) where
  nodeType : String
  operator : Option O
  children : List (Child C)
  input : Option (Child C)
  params : Dict String V
  estimates : Dict String V
  measures : Dict String V
  subplan : Option (Option C × String)

variable {O C : Type}

/-- `any(not math.isnan(v) for v in l)`; `none` is a `TypeError`. -/
def anyNumber (py : Py V) : List V → Option Bool
  | [] => some false
  | v :: l => (py.isnan v).bind fun b => if !b then some true else anyNumber py l

/-- `any(v is not None and not math.isnan(v) for v in l)` -/
def anyGiven (py : Py V) : List V → Option Bool
  | [] => some false
  | v :: l => if py.isNone v then anyGiven py l
    else (py.isnan v).bind fun b => if !b then some true else anyGiven py l

/-- The parameters of a plan (postbound/_qep.py:955-977). -/
def newParams (py : Py V) (a : Args V O C) : Option (Dict String V) :=
  let custom := [a.baseTable, a.filter, a.workers, a.index, a.sortKeys, a.lookupKey].any (fun v => !py.isNone v)
    || !a.kwargs.isEmpty
  match a.planParams with
  | some p => if custom then none else some p
  | none => construct py .params ([("base_table", a.baseTable), ("filter_predicate", a.filter), ("sort_keys", a.sortKeys),
      ("lookup_key", a.lookupKey), ("parallel_workers", a.workers), ("index", a.index)] ++ a.kwargs)

/-- The estimates (postbound/_qep.py:979-988). -/
def newEstimates (py : Py V) (a : Args V O C) : Option (Dict String V) :=
  match a.estimates with
  | some e => (anyNumber py [a.estCard, a.estCost]).bind fun b => if b then none else some e
  | none => construct py .estimates [("cardinality", a.estCard), ("cost", a.estCost)]

/-- The measures (postbound/_qep.py:990-1004). -/
def newMeasures (py : Py V) (a : Args V O C) : Option (Dict String V) :=
  (anyGiven py [a.execTime, a.cacheHits, a.cacheMisses]).bind fun b =>
    match a.measures with
    | some m => if b then none else some m
    | none => construct py .measures [("execution_time", a.execTime), ("cardinality", a.actualCard),
        ("cache_hits", a.cacheHits), ("cache_misses", a.cacheMisses)]

/-- The subplan (postbound/_qep.py:1006-1011); `none` is a `ValueError`. -/
def newSubplan (a : Args V O C) : Option (Option (Option C × String)) :=
  let custom := a.subplanRoot.isSome || a.subplanTarget ≠ ""
  match a.subplan with
  | some s => if custom then none else some (some s)
  | none => if custom then some (some (a.subplanRoot, a.subplanTarget)) else some none

/-- The children (postbound/_qep.py:1013, 1022-1027 and `enlist`, postbound/util/collections.py:133-143): an iterator is no
list, so it becomes the only child; a set of one plan cannot be indexed (`none`). -/
def newChildren : Children C → Option (List (Child C))
  | .none => some []
  | .one c => some [.plan c]
  | .list l => some (l.map .plan)
  | .set l => if l.length = 1 then none else some (l.map .plan)
  | .iterable l => some [.iterator l]

/-- `QueryPlan.__init__` (postbound/_qep.py:952-1031); `none` is an exception. -/
def newPlan (py : Py V) (name : O → String) (a : Args V O C) : Option (Plan V O C) :=
  if a.nodeType.missing then none
  else (newParams py a).bind fun ps =>
    (newEstimates py a).bind fun es =>
      (newMeasures py a).bind fun ms =>
        (newSubplan a).bind fun sub =>
          (newChildren a.children).bind fun cs =>
            some {
              nodeType := a.nodeType.label name
              operator := a.nodeType.op a.operator
              children := cs
              input := if cs.length = 1 then cs.head? else none
              params := ps, estimates := es, measures := ms, subplan := sub }

/-! ## `update_plan` -/

/-- Python objects that can follow `**`, and the operands of `|`. -/
inductive Obj (V : Type) where
  | dict (d : Dict String V)
  | items (d : Dict String V)
  | set

/-- `a | b`: dictionaries yield a dictionary, views of items yield a set (of pairs and keys). -/
def union : Obj V → Obj V → Option (Obj V)
  | .dict d, .dict e => some (.dict (d.update e))
  | .items _, .dict _ => some .set
  | .items _, .items _ => some .set
  | .items _, .set => some .set
  | .set, .set => some .set
  | .set, .items _ => some .set
  | _, _ => none

/-- `**o` in a call; `none` is the `TypeError` for objects that are no mapping. -/
def mapping : Obj V → Option (Dict String V)
  | .dict d => some d
  | _ => none

/-- `update_plan` (postbound/opt/_helpers.py:213-252) for a plan with the given parameters, estimates and children;
`workers` and `card` are the updated values, `sub` updates a child. The remaining arguments of the new plan are those of
the old one. -/
def updatePlan (py : Py V) (workers card : V) (params estimates : Dict String V) (children : List C)
    (sub : C → Option C) : Option (Dict String V × Dict String V × List C) :=
  ((union (.items params) (.dict [("parallel_workers", workers)])).bind mapping).bind fun p =>
    (construct py .params p).bind fun p =>
      ((union (.items estimates) (.dict [("estimated_cardinality", card)])).bind mapping).bind fun e =>
        (construct py .estimates e).bind fun e =>
          (children.mapM sub).map fun cs => (p, e, cs)

end PB.PlanBag
