import Verif.Model.JoinTree
import Verif.Model.PlanRead

/-! Model of the analysis utilities (postbound/opt/_analysis.py): the cardinality of star queries, similarity scores and depths of
join trees, and the side-by-side view of texts. The Levenshtein distance (an external library) is
not modelled; for the comparison of plans see `Model/QueryPlan` and `Model/PlanDiff`. -/

namespace PB.Analysis

open PB.PlanRead (jaccard)

/-! ### Star queries -/

/-- A dimension table of a star query: its rows, and the conjunction of the join with the fact table and the filters of the
dimension table. -/
structure Dim (F D : Type) where
  rows : List D
  ok : F → D → Bool

variable {F D K : Type} [DecidableEq K]

/-- The distinct values of the key column, in the order of their first rows. -/
def distinctKeys (key : F → K) : List F → List K
  | [] => []
  | f :: fs => key f :: (distinctKeys key fs).filter fun k => k ≠ key f

/-- The result of the query for the key values (postbound/opt/_analysis.py:188-195): for each value of the key column the number of
rows of the fact table that satisfy the filters. `facts` are the rows that satisfy them. -/
def idVals (key : F → K) (facts : List F) : List (K × Nat) :=
  (distinctKeys key facts).map fun k => (k, (facts.filter fun f => key f = k).length)

/-- The result of a dimension query (postbound/opt/_analysis.py:203-207, 215-232): the number of pairs of a row of the fact table
with the given key and a row of the dimension table. -/
def dimCard (key : F → K) (facts : List F) (d : Dim F D) (k : K) : Nat :=
  ((facts.filter fun f => key f = k).flatMap fun f => d.rows.filter (d.ok f)).length

/-- The loop over the joins (postbound/opt/_analysis.py:220-234). -/
def multiply (key : F → K) (facts : List F) (k : K) : Nat → List (Dim F D) → Nat
  | card, [] => card
  | card, d :: ds => if card = 0 then card else multiply key facts k (card * dimCard key facts d k) ds

/-- The loop over the key values (postbound/opt/_analysis.py:209-238). -/
def total (key : F → K) (facts : List F) (dims : List (Dim F D)) : List (K × Nat) → Nat
  | [] => 0
  | (k, c) :: rest => multiply key facts k c dims + total key facts dims rest

/-- `star_query_cardinality` (postbound/opt/_analysis.py:130-238); `none` is an exception. `execute_query` simplifies its results
(postbound/db/_db.py:257-286): a result of a single row is the row itself. The loop then iterates over the columns of the row and
cannot unpack them. Simplifications: key values that are pairs or texts of two characters, which can be unpacked, do not occur; the
queries are represented by their results; all dimension tables have the same type of rows. -/
def starCard (key : F → K) (facts : List F) (dims : List (Dim F D)) : Option Nat :=
  let ids := idVals key facts
  if ids.length = 1 then none else some (total key facts dims ids)

/-! ### Join trees -/

variable {A : Type}

/-- The children of a join (postbound/_hints.py:1359-1376): empty children are an error. -/
def children : JT.Tree A → Option (JT.Tree A × JT.Tree A)
  | .join _ o i _ => if o.isEmpty || i.isEmpty then none else some (o, i)
  | _ => none

/-- The score of a leaf and an intermediate node (postbound/opt/_analysis.py:277-288). -/
def leafScore (n : Nat) (leaf inter : JT.Tree A) : Option Rat := do
  let (o, i) ← children inter
  let inner ← jaccard leaf.tables i.tables
  let outer ← jaccard leaf.tables o.tables
  some (1 / (n : Rat) * max inner outer)

/-- `symmetric_score` (postbound/opt/_analysis.py:294-296) and, with `b`'s children swapped, the sum of `crossover_score`
(postbound/opt/_analysis.py:297-302). -/
def pairScore (ao ai bo bi : JT.Tree A) : Option Rat := do
  let ii ← jaccard ai.tables bi.tables
  let oo ← jaccard ao.tables bo.tables
  some (ii + oo)

/-- `jointree_similarity_topdown` (postbound/opt/_analysis.py:241-318); `none` is an exception. Simplification: exact rationals
instead of floats. -/
def topdown (symmetric : Bool) (gamma : Rat) : JT.Tree A → JT.Tree A → Option Rat
  | a, b =>
    let n := (a.tables ∪ b.tables).card
    if n = 0 then none
    else if a.tables.card = 1 ∧ b.tables.card = 1 then some (if a.tables = b.tables then 1 else 0)
    else if a.tables.card = 1 then leafScore n a b
    else if b.tables.card = 1 then leafScore n b a
    else
      match a, b with
      | .join _ ao ai _, .join _ bo bi _ =>
        if ao.isEmpty || ai.isEmpty || bo.isEmpty || bi.isEmpty then none
        else do
          let sym ← pairScore ao ai bo bi
          let cross ← if symmetric then pairScore ao ai bi bo else some 0
          let node := 1 / (n : Rat) * max sym cross
          if symmetric = true ∧ cross > sym then do
            let x ← topdown symmetric gamma ai bo
            let y ← topdown symmetric gamma ao bi
            some (node + gamma * (x + y))
          else do
            let x ← topdown symmetric gamma ai bi
            let y ← topdown symmetric gamma ao bo
            some (node + gamma * (x + y))
      | _, _ => none

/-- The set comprehensions (postbound/opt/_analysis.py:340-341); `tables` is a `set` (postbound/_hints.py:1446-1455), which
is not hashable, so any element is a `TypeError`. -/
def setOfSets : List (Finset Nat) → Option (Finset (Finset Nat))
  | [] => some ∅
  | _ :: _ => none

/-- `jointree_similarity_bottomup` (postbound/opt/_analysis.py:321-342); `none` is an exception. -/
def bottomup (a b : JT.Tree A) : Option Rat := do
  let sa ← setOfSets (a.iterjoins.map JT.Tree.tables)
  let sb ← setOfSets (b.iterjoins.map JT.Tree.tables)
  jaccard sa sb

/-- `_traverse_join_tree_depth` (postbound/opt/_analysis.py:372-432): the level and the depths; `none` is an exception. All nodes
that are no scans are an error (lines 406-407); the rest of the function is never reached. -/
def traverseDepth (t : JT.Tree A) (depths : List (Nat × Nat)) : Option (Nat × List (Nat × Nat)) :=
  match t with
  | .scan _ tab _ => some (1, depths.filter (fun e => e.1 ≠ tab) ++ [(tab, 1)])
  | _ => none

/-- `join_depth` (postbound/opt/_analysis.py:435-458); `none` is an exception. -/
def joinDepth (t : JT.Tree A) : Option (List (Nat × Nat)) :=
  if t.isEmpty then some [] else (traverseDepth t []).map Prod.snd

/-! ### Texts -/

/-- `line.ljust(n)` -/
def ljust (n : Nat) (line : List Char) : List Char := line ++ List.replicate (n - line.length) ' '

/-- The length of the longest line (postbound/opt/_analysis.py:120); `none` is the `ValueError` for a text without lines. -/
def maxLen : List (List Char) → Option Nat
  | [] => none
  | l :: ls => some (ls.foldl (fun m x => max m x.length) l.length)

/-- `text_diff` (postbound/opt/_analysis.py:98-127): the lines of the result; `none` is an exception. Simplification: the texts are
given by their lines. -/
def textDiff (left right : List (List Char)) (sep : List Char) : Option (List (List Char)) := do
  let n ← maxLen left
  some (((left.map (ljust n)).zip right).map fun p => p.1 ++ sep ++ p.2)

end PB.Analysis
