import Verif.Model.Dict
import Verif.Model.Cardinality
import Mathlib.Data.Finset.Basic
import Mathlib.Data.Finset.Card

/-! Model of postbound/_hints.py:25-1211 (operator assignments, plan parameters) and of the JSON reader in
postbound/opt/_helpers.py:89-141. Table references are numbers (their equality class); a frozenset of tables is a
`Finset`. -/

namespace PB.Hints
open PB

/-- `ScanOperator` (postbound/_core.py:400-411). -/
inductive ScanOp | seqScan | idxScan | idxOnlyScan | bitmapScan
deriving DecidableEq, Repr

/-- `JoinOperator` (postbound/_core.py:422-433). -/
inductive JoinOp | nlj | hash | merge | indexNlj
deriving DecidableEq, Repr

/-- `IntermediateOperator` (postbound/_core.py:444-453). -/
inductive InterOp | sort | memoize | materialize
deriving DecidableEq, Repr

/-- `PhysicalOperator` (postbound/_core.py:464). -/
inductive PhysOp
  | scan (o : ScanOp) | join (o : JoinOp) | inter (o : InterOp)
deriving DecidableEq, Repr

/-- Iteration over the three operator enumerations. -/
def allOps : List PhysOp :=
  [.scan .seqScan, .scan .idxScan, .scan .idxOnlyScan, .scan .bitmapScan,
   .join .nlj, .join .hash, .join .merge, .join .indexNlj,
   .inter .sort, .inter .memoize, .inter .materialize]

/-- `parallel_workers`: a number or `nan` (`none`). -/
abbrev Workers := Option Nat

/-- `ScanOperatorAssignment` (postbound/_hints.py:896-905). -/
structure ScanAssign where
  op : ScanOp
  table : Nat
  workers : Workers
deriving DecidableEq, Repr

/-- `JoinOperatorAssignment` / `DirectionalJoinOperatorAssignment` (postbound/_hints.py:1006-1019, 1151-1165);
`dir` holds the inner and outer tables of a directional assignment. -/
structure JoinAssign where
  op : JoinOp
  join : Finset Nat
  workers : Workers
  dir : Option (Finset Nat × Finset Nat)
deriving DecidableEq

/-- Python's `==` on worker counts: `nan != nan`. -/
def workersEq : Workers → Workers → Bool
  | some a, some b => a == b
  | _, _ => false

/-- `ScanOperatorAssignment.__eq__` (postbound/_hints.py:965-971). -/
def ScanAssign.pyEq (a b : ScanAssign) : Bool :=
  a.op == b.op && a.table == b.table && workersEq a.workers b.workers

/-- `PhysicalOperatorAssignment` (postbound/_hints.py:70-78). -/
structure OpAssign where
  globals : Dict PhysOp Bool
  joins : Dict (Finset Nat) JoinAssign
  inters : Dict (Finset Nat) InterOp
  scans : Dict Nat ScanAssign

/-- `PhysicalOperatorAssignment()` -/
def OpAssign.empty : OpAssign := ⟨[], [], [], []⟩

/-- `get_globally_enabled_operators` (postbound/_hints.py:80-115). -/
def OpAssign.enabled (a : OpAssign) (includeByDefault : Bool) : List PhysOp :=
  allOps.filter fun o => (a.globals.get? o).getD includeByDefault

/-- `set_operator_enabled_globally` (postbound/_hints.py:117-173). `current_setting != operator` compares an
assignment object with an operator and is therefore always true for scans and joins; intermediates store the bare
operator. -/
def OpAssign.setGlobal (a : OpAssign) (o : PhysOp) (enabled overwrite : Bool) : OpAssign :=
  let a := { a with globals := a.globals.set o enabled }
  if !overwrite || enabled then a
  else match o with
    | .scan _ => { a with scans := a.scans.filter fun _ => true }
    | .join _ => { a with joins := a.joins.filter fun _ => true }
    | .inter i => { a with inters := a.inters.filter fun e => e.2 ≠ i }

/-- `set_scan_operator` (postbound/_hints.py:210-239). -/
def OpAssign.setScan (a : OpAssign) (s : ScanAssign) : OpAssign :=
  { a with scans := a.scans.set s.table s }

/-- `set_join_operator` (postbound/_hints.py:175-208). -/
def OpAssign.setJoin (a : OpAssign) (j : JoinAssign) : OpAssign :=
  { a with joins := a.joins.set j.join j }

/-- `set_intermediate_operator` (postbound/_hints.py:241-265). -/
def OpAssign.setInter (a : OpAssign) (o : InterOp) (tables : Finset Nat) : OpAssign :=
  { a with inters := a.inters.set tables o }

/-- API calls on an assignment; scan and join operators are given as assignment objects (a bare operator is
wrapped into one with `nan` workers, postbound/_hints.py:204-205, 234-236). -/
inductive HintOp
  | scan (s : ScanAssign)
  | join (j : JoinAssign)
  | inter (o : InterOp) (tables : Finset Nat)
  | global (o : PhysOp) (enabled overwrite : Bool)

/-- One call. -/
def OpAssign.step (a : OpAssign) : HintOp → OpAssign
  | .scan s => a.setScan s
  | .join j => a.setJoin j
  | .inter o t => a.setInter o t
  | .global o e w => a.setGlobal o e w

/-- A history of calls. -/
def OpAssign.run (a : OpAssign) (ops : List HintOp) : OpAssign := ops.foldl OpAssign.step a

/-- Result of a lookup. -/
inductive Found
  | scan (s : ScanAssign) | join (j : JoinAssign)
deriving DecidableEq

/-- `get(table)` and `[table]` (postbound/_hints.py:457-458, 569-570). -/
def OpAssign.getTable (a : OpAssign) (t : Nat) : Option Found := (a.scans.get? t).map .scan

/-- `get(frozenset)` (postbound/_hints.py:460-465): for a singleton the scan dictionary (whose keys are tables) is
asked for the *set*, which never succeeds. -/
def OpAssign.getSet (a : OpAssign) (s : Finset Nat) : Option Found :=
  if s.card = 1 then none else (a.joins.get? s).map .join

/-- `[tables]` (postbound/_hints.py:571-572). -/
def OpAssign.getItemSet (a : OpAssign) (s : Finset Nat) : Option Found := (a.joins.get? s).map .join

/-- `merge_with` (postbound/_hints.py:321-352). -/
def OpAssign.mergeWith (a b : OpAssign) : OpAssign :=
  { globals := a.globals.update b.globals, joins := a.joins.update b.joins,
    scans := a.scans.update b.scans, inters := a.inters.update b.inters }

/-- `PlanParameterization` (postbound/_hints.py:676-700). Values of settings and modes are opaque. -/
structure Params where
  cards : Dict (Finset Nat) Card
  workers : Dict (Finset Nat) Nat
  settings : Dict String String
  mode : Option String

/-- `PlanParameterization.merge_with` (postbound/_hints.py:801-829): `execution_mode` keeps its default `None`. -/
def Params.mergeWith (a b : Params) : Params :=
  { cards := a.cards.update b.cards, workers := a.workers.update b.workers,
    settings := a.settings.update b.settings, mode := none }

/-- `drop_workers` (postbound/_hints.py:831-845). -/
def Params.dropWorkers (a : Params) : Params :=
  { cards := a.cards, workers := [], settings := a.settings, mode := a.mode }

/-- One iteration of `integrate_workers_from` (postbound/_hints.py:374-397); `none` is the `ValueError`. -/
def integrateStep (failOnMissing : Bool) (a : OpAssign) (e : Finset Nat × Nat) : Option OpAssign :=
  match a.getSet e.1 with
  | none => if failOnMissing then none else some a
  | some (.scan s) => some (a.setScan { s with workers := some e.2 })
  | some (.join j) => some (a.setJoin { j with workers := some e.2 })

/-- `integrate_workers_from` (postbound/_hints.py:354-399). -/
def OpAssign.integrateWorkers (a : OpAssign) (p : Params) (failOnMissing : Bool) : Option OpAssign :=
  p.workers.foldlM (integrateStep failOnMissing) a

/-! ### JSON -/

/-- The JSON document of an assignment (postbound/_hints.py:500-538), as typed entries. -/
structure OpJson where
  globals : List (PhysOp × Bool)
  scans : List (Nat × ScanOp)
  joins : List (Finset Nat × JoinOp)
  inters : List (Finset Nat × InterOp)

/-- `PhysicalOperatorAssignment.__json__` (postbound/_hints.py:500-538). -/
def OpAssign.toJson (a : OpAssign) : OpJson :=
  { globals := a.globals
    scans := a.scans.values.map fun s => (s.table, s.op)
    joins := a.joins.values.map fun j => (j.join, j.op)
    inters := a.inters }

/-- `read_operator_assignment_json` (postbound/opt/_helpers.py:89-141). -/
def readOpJson (j : OpJson) : OpAssign :=
  { globals := Dict.ofList j.globals
    scans := Dict.ofList (j.scans.map fun e => (e.1, ⟨e.2, e.1, none⟩))
    joins := Dict.ofList (j.joins.map fun e => (e.1, ⟨e.2, e.1, none, none⟩))
    inters := Dict.ofList j.inters }

/-! ### Object identity

The dictionaries of an assignment are mutable objects. To talk about independence of copies they are placed in a heap. -/

/-- Heap of dictionary objects, one arena per dictionary type. -/
structure Heap where
  next : Nat
  globals : Nat → Dict PhysOp Bool
  joins : Nat → Dict (Finset Nat) JoinAssign
  inters : Nat → Dict (Finset Nat) InterOp
  scans : Nat → Dict Nat ScanAssign

/-- An assignment object: references to its four dictionaries. -/
structure Obj where
  g : Nat
  j : Nat
  i : Nat
  s : Nat

/-- The current content of an object. -/
def Heap.view (h : Heap) (o : Obj) : OpAssign := ⟨h.globals o.g, h.joins o.j, h.inters o.i, h.scans o.s⟩

/-- Function update. -/
def upd {α : Type} (f : Nat → α) (k : Nat) (v : α) : Nat → α := fun x => if x = k then v else f x

/-- One call on an object: item assignments mutate the dictionary in place, the overwriting branch of
`set_operator_enabled_globally` binds a new dictionary (postbound/_hints.py:151-169). -/
def Heap.step (h : Heap) (o : Obj) : HintOp → Heap × Obj
  | .scan s => ({ h with scans := upd h.scans o.s ((h.scans o.s).set s.table s) }, o)
  | .join j => ({ h with joins := upd h.joins o.j ((h.joins o.j).set j.join j) }, o)
  | .inter p t => ({ h with inters := upd h.inters o.i ((h.inters o.i).set t p) }, o)
  | .global p e w =>
    let h := { h with globals := upd h.globals o.g ((h.globals o.g).set p e) }
    if !w || e then (h, o)
    else match p with
      | .scan _ =>
        ({ h with next := h.next + 1, scans := upd h.scans h.next ((h.scans o.s).filter fun _ => true) },
          { o with s := h.next })
      | .join _ =>
        ({ h with next := h.next + 1, joins := upd h.joins h.next ((h.joins o.j).filter fun _ => true) },
          { o with j := h.next })
      | .inter i =>
        ({ h with next := h.next + 1, inters := upd h.inters h.next ((h.inters o.i).filter fun x => x.2 ≠ i) },
          { o with i := h.next })

/-- `clone` (postbound/_hints.py:415-430): `dict(d)` creates a new dictionary object with the same entries. -/
def Heap.clone (h : Heap) (o : Obj) : Heap × Obj :=
  ({ next := h.next + 1
     globals := upd h.globals h.next (h.globals o.g)
     joins := upd h.joins h.next (h.joins o.j)
     inters := upd h.inters h.next (h.inters o.i)
     scans := upd h.scans h.next (h.scans o.s) },
   ⟨h.next, h.next, h.next, h.next⟩)

/-- A history of calls on one of two objects (`true`: the first). -/
def Heap.run (h : Heap) (a b : Obj) : List (Bool × HintOp) → Heap × Obj × Obj
  | [] => (h, a, b)
  | (true, op) :: ops => let r := h.step a op; r.1.run r.2 b ops
  | (false, op) :: ops => let r := h.step b op; r.1.run a r.2 ops

end PB.Hints
