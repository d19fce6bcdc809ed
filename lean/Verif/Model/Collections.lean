/-! Model of postbound/util/collections.py. -/

namespace PB.Coll

variable {α : Type}

/-- `itertools.combinations(lst, size)`: the sub-sequences of length `size` in lexicographic order of
their positions (used by postbound/util/collections.py:246-248). -/
def combinations : List α → Nat → List (List α)
  | _, 0 => [[]]
  | [], _ + 1 => []
  | x :: xs, k + 1 => (combinations xs k).map (x :: ·) ++ combinations xs (k + 1)

/-- `powerset` (postbound/util/collections.py:230-249). -/
def powerset (l : List α) : List (List α) :=
  (List.range (l.length + 1)).flatMap (combinations l)

/-- `range(0, stop, step)` for `step > 0`. -/
def rangeStep (stop step : Nat) : List Nat :=
  ((List.range stop).filter (fun i => i % step = 0))

/-- `sliding_window` (postbound/util/collections.py:252-275) for `step > 0`; a negative stop value of the
range yields nothing. -/
def slidingWindow (l : List α) (size step : Nat) : List (List α) :=
  if l.length < size then []
  else (rangeStep (l.length - size + 1) step).map (fun i => (l.drop i).take size)

/-- `pairs` (postbound/util/collections.py:278-300). -/
def pairs (l : List α) : List (α × α) :=
  l.zipIdx.flatMap fun (a, ai) =>
    l.zipIdx.filterMap fun (b, bi) => if bi ≤ ai then none else some (a, b)

/-- `set.union` on duplicate-free lists. -/
def union [DecidableEq α] (a b : List α) : List α := a ++ (b.filter (fun x => x ∉ a)).eraseDups

/-- `set_union` (postbound/util/collections.py:303-319). -/
def setUnion [DecidableEq α] (sets : List (List α)) : List α :=
  sets.foldl union []

/-! ### Queue (postbound/util/collections.py:357-462); the state is the list `data`. -/

/-- `Queue.__init__` (postbound/util/collections.py:367-368). -/
def queueInit (data : List α) : List α := data

/-- `enqueue`, `push`, `append` (postbound/util/collections.py:370-402). -/
def enqueue (q : List α) (x : α) : List α := q ++ [x]

/-- `extend` (postbound/util/collections.py:404-412). -/
def queueExtend (q : List α) (xs : List α) : List α := q ++ xs

/-- `head`, `peak` (postbound/util/collections.py:414-434). -/
def queueHead (q : List α) : Option α := q.head?

/-- `pop` (postbound/util/collections.py:436-447): the head is removed only `if item:`, i.e. if the item is
truthy. `truthy` is Python's truth value of a payload. -/
def queuePop (truthy : α → Bool) (q : List α) : List α × Option α :=
  match queueHead q with
  | none => (q, none)
  | some item => (if truthy item then q.tail else q, some item)

inductive QueueOp (α : Type) where
  | enqueue (x : α)
  | extend (xs : List α)
  | pop

/-- One call on a queue; the output is the returned element for `pop`. -/
def queueStep (truthy : α → Bool) (q : List α) : QueueOp α → List α × Option α
  | .enqueue x => (enqueue q x, none)
  | .extend xs => (queueExtend q xs, none)
  | .pop => queuePop truthy q

/-- A history of calls: the final state and the popped elements in order. -/
def queueRun (truthy : α → Bool) (q : List α) : List (QueueOp α) → List α × List α
  | [] => (q, [])
  | op :: ops =>
    let (q', out) := queueStep truthy q op
    let (q'', outs) := queueRun truthy q' ops
    (q'', out.toList ++ outs)

/-! ### SizedQueue (postbound/util/collections.py:465-547) -/

structure SizedQueue (α : Type) where
  capacity : Nat
  data : List α

/-- `SizedQueue.append` (postbound/util/collections.py:492-502); `none` is the `IndexError` of popping from an
empty list (capacity 0). -/
def SizedQueue.append (q : SizedQueue α) (x : α) : Option (SizedQueue α) :=
  if q.data.length ≥ q.capacity then
    match q.data with
    | [] => none
    | _ :: rest => some { q with data := rest ++ [x] }
  else some { q with data := q.data ++ [x] }

/-- `SizedQueue.extend` (postbound/util/collections.py:504-512). -/
def SizedQueue.extend (q : SizedQueue α) (xs : List α) : SizedQueue α :=
  { q with data := (q.data ++ xs).take q.capacity }

/-- `SizedQueue.pop` (postbound/util/collections.py:524-532). -/
def SizedQueue.pop (q : SizedQueue α) : SizedQueue α × Option α :=
  match q.data with
  | [] => (q, none)
  | x :: rest => ({ q with data := rest }, some x)

/-- One call on a sized queue. -/
def SizedQueue.step (q : SizedQueue α) : QueueOp α → Option (SizedQueue α)
  | .enqueue x => q.append x
  | .extend xs => some (q.extend xs)
  | .pop => some q.pop.1

/-- A history of calls. -/
def SizedQueue.run (q : SizedQueue α) (ops : List (QueueOp α)) : Option (SizedQueue α) :=
  ops.foldlM SizedQueue.step q

end PB.Coll
