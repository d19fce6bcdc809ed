import Verif.Model.Dict

/-! Model of `DependencyGraph` (postbound/util/misc.py:156-217). Nodes are identified by their hash, as in the
code; the model assumes that distinct nodes have distinct hashes. -/

namespace PB.Dep
open PB

/-- State of a `DependencyGraph` (postbound/util/misc.py:159-162). `sources` is a Python set; the list order is
the (arbitrary) iteration order. -/
structure Graph where
  sources : List Nat
  deps : Dict Nat (List Nat)
  nodes : List Nat
deriving Repr, DecidableEq

/-- `DependencyGraph()` -/
def empty : Graph := ⟨[], [], []⟩

/-- `self._dependencies[k]` on a `defaultdict(list)`. -/
def Graph.succ (g : Graph) (k : Nat) : List Nat := (g.deps.get? k).getD []

/-- `set.add` -/
def addSet (l : List Nat) (x : Nat) : List Nat := if x ∈ l then l else l ++ [x]

/-- Loop body over `depends_on` (postbound/util/misc.py:185-191). -/
def addDep (node : Nat) (g : Graph) (dep : Nat) : Graph :=
  let g := { g with deps := g.deps.set dep (g.succ dep ++ [node]) }
  if dep ∈ g.nodes then g
  else { g with sources := addSet g.sources dep, nodes := addSet g.nodes dep }

/-- `DependencyGraph.add_task` (postbound/util/misc.py:164-191). -/
def addTask (g : Graph) (node : Nat) (dependsOn : List Nat) : Graph :=
  let g := { g with nodes := addSet g.nodes node }
  if dependsOn = [] then { g with sources := addSet g.sources node }
  else
    let g := { g with sources := g.sources.filter (· ≠ node) }
    dependsOn.foldl (addDep node) g

/-- A history of `add_task` calls. -/
def build (tasks : List (Nat × List Nat)) : Graph := tasks.foldl (fun g t => addTask g t.1 t.2) empty

/-- Number of dictionary keys that have not been provided (termination measure only). -/
def open_ (g : Graph) (provided : List Nat) : Nat := (g.deps.keys.filter (· ∉ provided)).length

theorem open_lt (g : Graph) (provided : List Nat) (d : Nat) (h1 : d ∉ provided) (h2 : g.succ d ≠ []) :
    open_ g (provided ++ [d]) < open_ g provided := by
  have hk : d ∈ g.deps.keys := by
    by_contra hn
    apply h2
    unfold Graph.succ
    rw [(Dict.get?_eq_none g.deps d).2 hn]; rfl
  unfold open_
  generalize g.deps.keys = l at hk
  have le : ∀ l : List Nat, (l.filter (· ∉ provided ++ [d])).length ≤ (l.filter (· ∉ provided)).length := by
    intro l
    apply List.Sublist.length_le
    apply List.monotone_filter_right
    intro a
    simp
    tauto
  induction l with
  | nil => simp at hk
  | cons a l ih =>
    by_cases had : a = d
    · subst had
      rw [List.filter_cons_of_neg (by simp), List.filter_cons_of_pos (by simpa using h1)]
      exact Nat.lt_succ_of_le (le l)
    · have hk' : d ∈ l := by
        rcases List.mem_cons.1 hk with h | h
        · exact absurd h.symm had
        · exact h
      by_cases hp : a ∈ provided
      · rw [List.filter_cons_of_neg (by simp [hp]), List.filter_cons_of_neg (by simp [hp])]
        exact ih hk'
      · rw [List.filter_cons_of_pos (by simp [hp, had]), List.filter_cons_of_pos (by simp [hp])]
        exact Nat.succ_lt_succ (ih hk')

theorem open_le (g : Graph) (provided : List Nat) (d : Nat) : open_ g (provided ++ [d]) ≤ open_ g provided := by
  unfold open_
  apply List.Sublist.length_le
  apply List.monotone_filter_right
  intro a
  simp
  tauto

/-- The `while dependency_stack` loop (postbound/util/misc.py:201-209). The stack is a Python list popped from
the end, modelled with its top first (so `extend` puts the reversed successors on top). Returns the nodes
yielded by the loop and the new set of provided nodes. -/
def drain (g : Graph) (stack provided : List Nat) : List Nat × List Nat :=
  match stack with
  | [] => ([], provided)
  | d :: stack =>
    if d ∈ provided then drain g stack provided
    else
      let r := drain g ((g.succ d).reverse ++ stack) (provided ++ [d])
      (d :: r.1, r.2)
termination_by (open_ g provided, stack.length)
decreasing_by
  · simp_wf
    exact Prod.Lex.right _ (by simp)
  · simp_wf
    by_cases hs : g.succ d = []
    · rcases Nat.lt_or_eq_of_le (open_le g provided d) with h | h
      · exact Prod.Lex.left _ _ h
      · rw [hs, h]; exact Prod.Lex.right _ (by simp)
    · exact Prod.Lex.left _ _ (open_lt g provided d (by assumption) hs)

/-- The loop over the source nodes (postbound/util/misc.py:195-209). -/
def iterFrom (g : Graph) : List Nat → List Nat → List Nat
  | [], _ => []
  | s :: ss, provided =>
    let r := drain g (g.succ s).reverse (provided ++ [s])
    s :: r.1 ++ iterFrom g ss r.2

/-- `DependencyGraph.__iter__` (postbound/util/misc.py:193-210). -/
def iter (g : Graph) : List Nat := iterFrom g g.sources []

end PB.Dep
