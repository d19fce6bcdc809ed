import Verif.Model.Dict

/-!
Model of the exploration of operator costs in TONIC (postbound/opt/tonic.py:1138-1267, 1391-1457).

Simplifications: the joins of the join order and the operators are given by any types; the iteration order of sets of operators is the
order of the enumeration; the random choices are an argument. The plan for an assignment is given by a function of the assignment.
-/

namespace PB.TonicExplore

open PB

variable {J Op P : Type} [DecidableEq J] [DecidableEq Op]

/-- `itertools.product` (used in postbound/opt/tonic.py:1198). -/
def product {α : Type} : List (List α) → List (List α)
  | [] => [[]]
  | l :: ls => l.flatMap fun x => (product ls).map (x :: ·)

/-- `PhysicalOperatorAssignment` as far as it is used here: the operators of joins (postbound/_hints.py:175-208). -/
abbrev Asg (J Op : Type) := Dict J Op

/-- The assignment of a selection (postbound/opt/tonic.py:1199-1202). -/
def mkAsg (joins : List J) (sel : List Op) : Asg J Op := Dict.ofList (joins.zip sel)

/-- The assignments of `_generate_all_cost_estimates` (postbound/opt/tonic.py:1193-1207). -/
def allAsgs (avail : Dict J (List Op)) : List (Asg J Op) := (product avail.values).map (mkAsg avail.keys)

/-- One random assignment (postbound/opt/tonic.py:1252-1257): `pick j n` chooses one of `n` operators for a join. `none` is the exception
of `random.choice` for an empty list. -/
def randomAsg (pick : J → Nat → Nat) : Dict J (List Op) → Asg J Op → Option (Asg J Op)
  | [], a => some a
  | (j, ops) :: rest, a =>
    match ops[pick j ops.length]? with
    | none => none
    | some op => randomAsg pick rest (Dict.set a j op)

/-- The loop of `_sample_cost_estimates` (postbound/opt/tonic.py:1246-1267): `fuel` is the number of tries that are left and `picks t` are
the choices of the try with `t` tries left after it. -/
def sampleLoop (hash : Asg J Op → Nat) (picks : Nat → J → Nat → Nat) (avail : Dict J (List Op)) (n : Nat) :
    Nat → List (Asg J Op) → List Nat → Option (List (Asg J Op))
  | 0, plans, _ => some plans
  | fuel + 1, plans, seen =>
    if plans.length < n then
      match randomAsg (picks fuel) avail [] with
      | none => none
      | some a =>
        if hash a ∈ seen then sampleLoop hash picks avail n fuel plans seen
        else sampleLoop hash picks avail n fuel (plans ++ [a]) (seen ++ [hash a])
    else some plans

/-- `_sample_cost_estimates` (postbound/opt/tonic.py:1210-1267). -/
def sampleAsgs (hash : Asg J Op → Nat) (picks : Nat → J → Nat → Nat) (avail : Dict J (List Op)) (n : Nat) : Option (List (Asg J Op)) :=
  sampleLoop hash picks avail n (3 * n) [] []

/-- The exceptions of `explore_costs`. -/
inductive Err
  | typeError | indexError
deriving DecidableEq, Repr

/-- The operators that are explored (postbound/opt/tonic.py:1429-1437): `enum` are all operators. -/
def usedOps (enum : List Op) (supports : Op → Bool) (allowed : Option (List Op)) : List Op :=
  let allowed' := match allowed with
    | none => enum
    | some l => if l.isEmpty then enum else l
  enum.filter fun op => supports op && allowed'.contains op

/-- The dictionary of unknown costs (postbound/opt/tonic.py:1439-1442). -/
def unknownCosts (joins : List J) (ops : List Op) : Dict J (List Op) := Dict.ofList (joins.map fun j => (j, ops))

/-- The number of combinations (postbound/opt/tonic.py:1443-1445). -/
def combinations (avail : Dict J (List Op)) : Nat := (avail.values.map List.length).foldl (· * ·) 1

/-- `explore_costs` (postbound/opt/tonic.py:1391-1457): the plans that are integrated, in this order. -/
def explore (enum : List Op) (supports : Op → Bool) (hash : Asg J Op → Nat) (picks : Nat → J → Nat → Nat) (plan : Asg J Op → P)
    (joins : List J) (allowed : Option (List Op)) (max : Option Nat) : Except Err (List P) :=
  let avail := unknownCosts joins (usedOps enum supports allowed)
  match max with
  | none => .error .typeError
  | some n =>
    if combinations avail > n then
      match sampleAsgs hash picks avail n with
      | none => .error .indexError
      | some l => .ok (l.map plan)
    else .ok ((allAsgs avail).map plan)

end PB.TonicExplore
