import Mathlib.Data.Finset.Basic
import Verif.Model.Dict

/-!
Model of the join graph (postbound/opt/_joingraph.py).

Simplifications: join predicates are conjunctions of binary predicates with one column of each of two tables (the class
supports only those, see its warning at lines 771-774). Tables are numbers. Lookups that raise a `KeyError` for tables or
columns that are not part of the graph have a default value unless stated otherwise.
-/

namespace PB.JoinGraph

open PB

/-- A column of a table. -/
structure Col where
  tab : Nat
  name : Nat
deriving DecidableEq, Repr

/-- A conjunction of binary join predicates. -/
abbrev Cond := List (Col × Col)

/-! ### Indexes -/

/-- The kinds of indexes (postbound/opt/_joingraph.py:205). -/
inductive Kind | primary | secondary | none
deriving DecidableEq, Repr

/-- `IndexInfo` (postbound/opt/_joingraph.py:202-210). -/
structure Index where
  kind : Kind
  invalid : Bool
deriving DecidableEq, Repr

/-- `IndexInfo.generate_for` (postbound/opt/_joingraph.py:174-200), in terms of the two tests of the schema. -/
def Index.generate (isPrimaryKey hasSecondary : Bool) : Index :=
  if isPrimaryKey then ⟨.primary, false⟩ else if hasSecondary then ⟨.secondary, false⟩ else ⟨.none, false⟩

/-- `is_primary` (postbound/opt/_joingraph.py:253-261). -/
def Index.isPrimary (i : Index) : Bool := !i.invalid && i.kind == .primary

/-- `is_secondary` (postbound/opt/_joingraph.py:263-271). -/
def Index.isSecondary (i : Index) : Bool := !i.invalid && i.kind == .secondary

/-- `is_indexed` (postbound/opt/_joingraph.py:273-283). -/
def Index.isIndexed (i : Index) : Bool := i.isPrimary || i.isSecondary

/-- `can_pk_fk_join` (postbound/opt/_joingraph.py:285-311). -/
def Index.canPkFk (i j : Index) : Bool :=
  if !i.isIndexed || !j.isIndexed then false
  else if i.isSecondary && j.isSecondary then false
  else true

/-- `invalidate` (postbound/opt/_joingraph.py:313-321). -/
def Index.invalidate (i : Index) : Index := { i with invalid := true }

/-! ### The graph -/

/-- `JoinPath` (postbound/opt/_joingraph.py:40-98). -/
structure Path where
  start : Nat
  target : Nat
  cond : Cond
deriving DecidableEq, Repr

/-- `flip_direction` (postbound/opt/_joingraph.py:82-92). -/
def Path.flip (p : Path) : Path := ⟨p.target, p.start, p.cond⟩

/-- The state of a `JoinGraph` (postbound/opt/_joingraph.py:415-450): nodes with the attribute `free`, edges with their
predicate in the order in which NetworkX reports them, the join predicates of the query, and the index structures. -/
structure JG where
  nodes : Dict Nat Bool
  edges : List (Nat × Nat × Cond)
  qjoins : Cond
  idx : Col → Index

/-- One iteration of the loop that fills the predicate map (postbound/opt/_joingraph.py:432-438). -/
def addPred (m : Dict (Finset Nat) Cond) (j : Col × Col) : Dict (Finset Nat) Cond :=
  Dict.set m {j.1.tab, j.2.tab} (((Dict.get? m {j.1.tab, j.2.tab}).getD []) ++ [j])

/-- The edge for an entry of the predicate map (postbound/opt/_joingraph.py:440-443). The iteration order of the frozen set
is arbitrary; the model uses the order of the first predicate. Predicates without two tables cannot be unpacked and are no join
predicates. -/
def edgeOf (e : Finset Nat × Cond) : Option (Nat × Nat × Cond) :=
  e.2.head?.map fun j => (j.1.tab, j.2.tab, e.2)

/-- `JoinGraph(query, db_schema)` (postbound/opt/_joingraph.py:405-450): `joins` are the join predicates of the query with two
columns, `extra` the additional ones from the equivalence classes, if requested. -/
def JG.build (tables : List Nat) (joins extra : Cond) (index : Col → Index) : JG where
  nodes := tables.map fun t => (t, true)
  edges := ((joins ++ extra).foldl addPred []).filterMap edgeOf
  qjoins := joins
  idx := index

/-- `is_free_table` (postbound/opt/_joingraph.py:681-696). -/
def JG.isFree (g : JG) (t : Nat) : Bool := (Dict.get? g.nodes t).getD false

/-- `initial` (postbound/opt/_joingraph.py:452-460). -/
def JG.initial (g : JG) : Bool := g.nodes.all fun e => e.2

/-- `contains_free_tables` (postbound/opt/_joingraph.py:475-483). -/
def JG.containsFree (g : JG) : Bool := g.nodes.any fun e => e.2

/-- `count_consumed_tables` (postbound/opt/_joingraph.py:504-517). -/
def JG.countConsumed (g : JG) : Nat := (g.nodes.filter fun e => !e.2).length

/-- `joined_tables` (postbound/opt/_joingraph.py:537-545). -/
def JG.joined (g : JG) : List Nat := (Dict.keys g.nodes).filter fun t => !g.isFree t

/-- `free_tables` (postbound/opt/_joingraph.py:547-555). -/
def JG.free (g : JG) : List Nat := (Dict.keys g.nodes).filter fun t => g.isFree t

/-- Is this edge between the two tables, in either direction? -/
def between (a b : Nat) (e : Nat × Nat × Cond) : Bool := (e.1 == a && e.2.1 == b) || (e.1 == b && e.2.1 == a)

/-- `joins_tables` (postbound/opt/_joingraph.py:698-718). -/
def JG.joinsTables (g : JG) (a b : Nat) : Bool := g.edges.any (between a b)

/-- `_fetch_join_predicate` (postbound/opt/_joingraph.py:1093-1112). -/
def JG.edgeCond (g : JG) (a b : Nat) : Option Cond := (g.edges.find? (between a b)).map (·.2.2)

/-- `self._graph.adj[table].items()`: the neighbours of a table with their predicates. -/
def JG.adj (g : JG) (t : Nat) : List (Nat × Cond) :=
  g.edges.filterMap fun e => if e.1 = t then some (e.2.1, e.2.2) else if e.2.1 = t then some (e.1, e.2.2) else none

/-- `is_available_join` (postbound/opt/_joingraph.py:720-751). -/
def JG.isAvailable (g : JG) (a b : Nat) : Bool :=
  g.joinsTables a b && ((g.isFree a && !g.isFree b) || (!g.isFree a && g.isFree b) || g.initial)

/-- The column of a table in a binary predicate: `simplify(base_predicate.columns_of(table))`. -/
def colOf (t : Nat) (j : Col × Col) : Col := if j.1.tab = t then j.1 else j.2

/-- `is_pk_fk_join` (postbound/opt/_joingraph.py:753-790). -/
def JG.isPkFk (g : JG) (fk pk : Nat) : Bool :=
  match g.edgeCond fk pk with
  | none => false
  | some c => c.any fun j => (g.idx (colOf fk j)).isIndexed && (g.idx (colOf pk j)).isPrimary

/-- `is_n_m_join` (postbound/opt/_joingraph.py:792-820). -/
def JG.isNM (g : JG) (a b : Nat) : Bool := g.joinsTables a b && !g.isPkFk a b && !g.isPkFk b a

/-- One edge in the loop of `available_join_paths` for initial graphs (postbound/opt/_joingraph.py:590-595). -/
def initialPaths (both : Bool) (e : Nat × Nat × Cond) : List Path :=
  let p : Path := ⟨e.1, e.2.1, e.2.2⟩
  if both then [p, p.flip] else [p]

/-- One edge in the loop of `available_join_paths` for other graphs (postbound/opt/_joingraph.py:598-612). -/
def JG.dirtyPaths (g : JG) (e : Nat × Nat × Cond) : List Path :=
  if g.isFree e.1 && g.isFree e.2.1 then []
  else if !g.isFree e.1 && !g.isFree e.2.1 then []
  else if g.isFree e.1 then [⟨e.2.1, e.1, e.2.2⟩]
  else [⟨e.1, e.2.1, e.2.2⟩]

/-- `available_join_paths` (postbound/opt/_joingraph.py:567-614). -/
def JG.availablePaths (g : JG) (both : Bool) : List Path :=
  if g.initial then g.edges.flatMap (initialPaths both) else g.edges.flatMap g.dirtyPaths

/-- `available_n_m_join_paths` (postbound/opt/_joingraph.py:616-644). -/
def JG.availableNM (g : JG) (both : Bool) : List Path :=
  (g.availablePaths false).flatMap fun p =>
    if !g.isPkFk p.start p.target && !g.isPkFk p.target p.start then
      if both && g.initial then [p, p.flip] else [p]
    else []

/-- `available_join_paths_for` (postbound/opt/_joingraph.py:646-669); `none` is the `ValueError`. -/
def JG.availableFor (g : JG) (t : Nat) : Option (List Path) :=
  if !Dict.has g.nodes t then none
  else some ((g.adj t).filterMap fun e => if g.isAvailable t e.1 then some ⟨t, e.1, e.2⟩ else none)

/-- `available_pk_fk_joins_for` (postbound/opt/_joingraph.py:822-844), without the check of the table. -/
def JG.pkFkFor (g : JG) (fk : Nat) : List Path :=
  (g.adj fk).filterMap fun e =>
    if g.isPkFk fk e.1 && (g.isFree fk || g.isFree e.1) then some ⟨fk, e.1, e.2⟩ else none

/-- The loop of `nx_bfs_tree` (postbound/util/nx.py:169-187) with the condition `_check_pk_fk_join`
(postbound/opt/_joingraph.py:1057-1079). Queue entries consist of the node, its parent (the partner in the predicate of the
edge) and the predicate. The sorting of the neighbours is discarded by the code. At most `k` iterations. -/
def JG.bfs (g : JG) : Nat → List Path → List Nat → List Path
  | 0, _, _ => []
  | _ + 1, [], _ => []
  | k + 1, p :: queue, visited =>
    let visited := p.target :: visited
    if g.isPkFk p.start p.target then
      p :: g.bfs k (queue ++ ((g.adj p.target).filter fun e => e.1 ∉ visited).map fun e => ⟨p.target, e.1, e.2⟩) visited
    else g.bfs k queue visited

/-- `available_deep_pk_join_paths_for` (postbound/opt/_joingraph.py:846-897), first `k` iterations. -/
def JG.deepPk (g : JG) (k : Nat) (fk : Nat) : List Path :=
  g.bfs k ((g.adj fk).map fun e => ⟨fk, e.1, e.2⟩) [fk]

/-- One edge in the loop of `contains_free_n_m_joins` (postbound/opt/_joingraph.py:494-501). -/
def JG.freeNM (g : JG) (e : Nat × Nat × Cond) : Bool :=
  (g.isAvailable e.1 e.2.1 || g.initial) && e.2.2.any fun j => !(g.idx j.1).canPkFk (g.idx j.2)

/-- `contains_free_n_m_joins` (postbound/opt/_joingraph.py:485-502). -/
def JG.containsFreeNM (g : JG) : Bool := g.edges.any g.freeNM

/-- `join_partners_from` (postbound/opt/_joingraph.py:899-923). -/
def JG.joinPartnersFrom (g : JG) (t : Nat) (candidates : List Nat) : List Nat :=
  ((g.adj t).map (·.1)).filter (· ∈ candidates)

/-- `join_predicates_between` (postbound/opt/_joingraph.py:925-963); the result is a set. -/
def JG.predicatesBetween (g : JG) (first : List Nat) (second : Option (List Nat)) : List Cond :=
  first.flatMap fun a => (second.getD first).filterMap fun b => g.edgeCond a b

/-! ### Updates -/

/-- `query.predicates().joins_between(table, tables)` for binary join predicates (postbound/qal/_qal.py:4556-4606); `none` is
the result `None`. -/
def joinsBetween (qjoins : Cond) (t : Nat) (ts : List Nat) : Option Cond :=
  let c := qjoins.filter fun j => (j.1.tab = t && j.2.tab ∈ ts) || (j.2.tab = t && j.1.tab ∈ ts)
  if c = [] then none else some c

/-- `{col.table for col in join_edge.join_partners_of(table)}` (postbound/opt/_joingraph.py:1000), in order of appearance. -/
def partnerTables (t : Nat) (c : Cond) : List Nat :=
  (c.filterMap fun j => if j.1.tab = t then some j.2.tab else if j.2.tab = t then some j.1.tab else none).dedup

/-- Invalidates one index. -/
def invalidateCol (idx : Col → Index) (c : Col) : Col → Index := fun x => if x = c then (idx x).invalidate else idx x

/-- `_invalidate_indexes_on` (postbound/opt/_joingraph.py:1081-1091). -/
def invalidateTable (idx : Col → Index) (t : Nat) : Col → Index := fun x => if x.tab = t then (idx x).invalidate else idx x

/-- One pair of join partners (postbound/opt/_joingraph.py:1008-1018). -/
def invalidatePair (t : Nat) (pkFk fkPk : Bool) (idx : Col → Index) (j : Col × Col) : Col → Index :=
  let cs : Col × Col := if j.1.tab = t then j else (j.2, j.1)
  if pkFk then invalidateCol idx cs.2
  else if fkPk then invalidateCol idx cs.1
  else invalidateCol (invalidateCol idx cs.2) cs.1

/-- One iteration of the loop over the partner tables (postbound/opt/_joingraph.py:1001-1026). The state consists of the
graph and of the variable `table`, which the inner loop over all nodes overwrites. -/
def partnerStep (c : Cond) (s : JG × Nat) (partner : Nat) : JG × Nat :=
  let pkFk := s.1.isPkFk s.2 partner
  let fkPk := s.1.isPkFk partner s.2
  if pkFk && fkPk then s
  else
    let idx := c.foldl (invalidatePair s.2 pkFk fkPk) s.1.idx
    if pkFk then ({ s.1 with idx }, s.2)
    else
      ({ s.1 with idx := (s.1.nodes.filter fun e => !e.2 && e.1 ≠ partner).foldl (fun i e => invalidateTable i e.1) idx },
        ((s.1.nodes.getLast?).map (·.1)).getD s.2)

/-- `mark_joined` (postbound/opt/_joingraph.py:965-1026); `none` is the `KeyError` for unknown tables. `ord` is the
iteration order of the set of partner tables. -/
def JG.markJoined (g : JG) (ord : List Nat → List Nat) (t : Nat) (edge : Option Cond) : Option JG :=
  if !Dict.has g.nodes t then none
  else
    let g := { g with nodes := Dict.set g.nodes t false }
    if g.joined.length = 1 then some g
    else
      match edge.or (joinsBetween g.qjoins t g.joined) with
      | none => some g
      | some c => some ((ord (partnerTables t c)).foldl (partnerStep c) (g, t)).1

/-- A history of `mark_joined` calls. -/
def JG.run (ord : List Nat → List Nat) (g : JG) (calls : List (Nat × Option Cond)) : Option JG :=
  calls.foldlM (fun g e => g.markJoined ord e.1 e.2) g

end PB.JoinGraph
