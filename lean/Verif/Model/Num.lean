import Mathlib.Logic.Function.Basic
import Mathlib.Data.Int.Basic

/-! Model of postbound/util/num.py: `BoundedInt` and `AtomicInt`. -/

namespace PB.Num

/-! ### BoundedInt -/

/-- State of a `BoundedInt` (postbound/util/num.py:261-263). -/
structure Bounded where
  value : Int
  lo : Option Int
  hi : Option Int
deriving DecidableEq, Repr

/-- `_snap_to_min_max` (postbound/util/num.py:268-272), as a sequence of two conditional assignments. -/
def snap (lo hi : Option Int) (v : Int) : Int :=
  let v := match lo with
    | some l => if v < l then l else v
    | none => v
  match hi with
  | some h => if v > h then h else v
  | none => v

/-- `BoundedInt(value, allowed_min=, allowed_max=)` (postbound/util/num.py:245-266); `none` is `ValueError`. -/
def mk? (v : Int) (lo hi : Option Int) : Option Bounded :=
  match lo, hi with
  | some l, some h => if l > h then none else some ⟨snap lo hi v, lo, hi⟩
  | _, _ => some ⟨snap lo hi v, lo, hi⟩

/-- Operations that produce or update a `BoundedInt`. -/
inductive BOp
  | set (v : Int)      -- `b.value = v`      (postbound/util/num.py:280-284)
  | add (v : Int)      -- `b + v`, `b += v`  (postbound/util/num.py:291-297)
  | mul (v : Int)      -- `b * v`            (postbound/util/num.py:339-345)
  | neg                -- `-b`               (postbound/util/num.py:347-350)
  | pow (n : Nat)      -- `b ** n`           (postbound/util/num.py:359-367), non-negative exponents only
deriving Repr

/-- The exact integer result that an operation asks for. -/
def BOp.exact (o : BOp) (x : Int) : Int :=
  match o with
  | .set v => v
  | .add v => x + v
  | .mul v => x * v
  | .neg => -x
  | .pow n => x ^ n

/-- One operation: the arithmetic operators call the constructor with the same bounds, `value = v` snaps. -/
def apply (b : Bounded) : BOp → Option Bounded
  | .set v => some { b with value := snap b.lo b.hi v }
  | .add v => mk? (b.value + v) b.lo b.hi
  | .mul v => mk? (b.value * v) b.lo b.hi
  | .neg => mk? (-b.value) b.lo b.hi
  | .pow n => mk? (b.value ^ n) b.lo b.hi

/-- A history of operations, each on the result of the previous one. -/
def applyAll (b : Bounded) (ops : List BOp) : Option Bounded := ops.foldlM apply b

/-! ### AtomicInt

`AtomicInt` guards an integer by a non-reentrant `threading.Lock`. A method is a sequence of atomic steps of the
calling thread: acquire the lock, load the attribute into a local, compute, store it, release the lock. Threads
interleave between any two steps. A thread that tries to acquire a held lock waits. -/

/-- Atomic steps. -/
inductive Micro
  | acq | load | addc (n : Int) | const (n : Int) | store | rel
deriving DecidableEq, Repr

/-- API calls on a shared `AtomicInt`. -/
inductive AOp
  | increment (by_ : Int)  -- `a.increment(by)` (postbound/util/num.py:27-29)
  | reset                  -- `a.reset()`       (postbound/util/num.py:31-33)
  | set (v : Int)          -- `a.value = v`     (postbound/util/num.py:39-41)
  | get                    -- `a.value`         (postbound/util/num.py:35-37); `__add__`, `__eq__`, ... also only load
deriving DecidableEq, Repr

/-- Step sequences of the methods (`with self._lock:` is acquire ... release). -/
def compile : AOp → List Micro
  | .increment n => [.acq, .load, .addc n, .store, .rel]
  | .reset => [.acq, .const 0, .store, .rel]
  | .set v => [.acq, .const v, .store, .rel]
  | .get => [.acq, .load, .rel]

/-- `a.__pos__()` (postbound/util/num.py:130-132): holds the lock and reads the property, which acquires it again. -/
def compilePos : List Micro := [.acq, .acq, .load, .rel, .rel]

/-- `a.value += n` in client code: a read of the property followed by a write. -/
def compileValueAdd (n : Int) : List Micro := [.acq, .load, .rel, .addc n, .acq, .store, .rel]

/-- A thread: remaining steps and its local value. -/
structure Thread where
  code : List Micro
  reg : Int
deriving DecidableEq, Repr

/-- Global state. -/
structure AState (n : Nat) where
  value : Int
  holder : Option (Fin n)
  threads : Fin n → Thread

/-- One step of thread `i`; a finished or waiting thread does nothing. -/
def stepThread {n : Nat} (s : AState n) (i : Fin n) : AState n :=
  let t := s.threads i
  match t.code with
  | [] => s
  | .acq :: c =>
    match s.holder with
    | none => { s with holder := some i, threads := Function.update s.threads i ⟨c, t.reg⟩ }
    | some _ => s
  | .load :: c => { s with threads := Function.update s.threads i ⟨c, s.value⟩ }
  | .addc k :: c => { s with threads := Function.update s.threads i ⟨c, t.reg + k⟩ }
  | .const k :: c => { s with threads := Function.update s.threads i ⟨c, k⟩ }
  | .store :: c => { s with value := t.reg, threads := Function.update s.threads i ⟨c, t.reg⟩ }
  | .rel :: c => { s with holder := none, threads := Function.update s.threads i ⟨c, t.reg⟩ }

/-- Execution under a schedule (any finite sequence of thread choices). -/
def runSchedule {n : Nat} (s : AState n) (sched : List (Fin n)) : AState n := sched.foldl stepThread s

/-- Initial state: each thread executes its list of calls. -/
def start {n : Nat} (v : Int) (prog : Fin n → List AOp) : AState n :=
  ⟨v, none, fun i => ⟨(prog i).flatMap compile, 0⟩⟩

/-- All threads have finished. -/
def finished {n : Nat} (s : AState n) : Prop := ∀ i, (s.threads i).code = []

end PB.Num
