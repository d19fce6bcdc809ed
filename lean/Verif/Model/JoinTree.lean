import Mathlib.Data.Finset.Basic
import Mathlib.Data.Finset.Card

/-! Model of `JoinTree`/`LogicalJoinTree` (postbound/_hints.py:1230-1763) and of its JSON reader
(postbound/opt/_helpers.py:630-666). Tables are numbers (equality classes of references). -/

namespace PB.JT

/-- The Python class of a node. -/
inductive Cls | generic | logical
deriving DecidableEq, Repr

/-- `JoinTree` objects (postbound/_hints.py:1334-1346): the factory methods build exactly these three shapes. -/
inductive Tree (A : Type) where
  | empty (c : Cls)
  | scan (c : Cls) (t : Nat) (ann : Option A)
  | join (c : Cls) (outer inner : Tree A) (ann : Option A)
deriving DecidableEq, Repr

variable {A : Type}

/-- `type(self)` -/
def Tree.cls : Tree A → Cls
  | .empty c => c
  | .scan c _ _ => c
  | .join c _ _ _ => c

/-- `is_empty` (postbound/_hints.py:1399-1401) -/
def Tree.isEmpty : Tree A → Bool
  | .empty _ => true
  | _ => false

/-- `is_join` (postbound/_hints.py:1403-1405): true whenever there is no base table, also for the empty tree. -/
def Tree.isJoin : Tree A → Bool
  | .scan _ _ _ => false
  | _ => true

/-- `is_scan` (postbound/_hints.py:1407-1409) -/
def Tree.isScan : Tree A → Bool
  | .scan _ _ _ => true
  | _ => false

/-- `is_linear` (postbound/_hints.py:1411-1428); `none` is the `StateError` of the empty tree. -/
def Tree.isLinear : Tree A → Option Bool
  | .empty _ => none
  | .scan _ _ _ => some true
  | .join _ o i _ => some (o.isScan || i.isScan)

/-- `is_bushy` (postbound/_hints.py:1430-1440) -/
def Tree.isBushy (t : Tree A) : Option Bool := t.isLinear.map (!·)

/-- `is_base_join` (postbound/_hints.py:1442-1444); `none` is the `AttributeError` of the empty tree. -/
def Tree.isBaseJoin : Tree A → Option Bool
  | .empty _ => none
  | .scan _ _ _ => some false
  | .join _ o i _ => some (o.isScan && i.isScan)

/-- `tables` (postbound/_hints.py:1446-1455) -/
def Tree.tables : Tree A → Finset Nat
  | .empty _ => ∅
  | .scan _ t _ => {t}
  | .join _ o i _ => o.tables ∪ i.tables

/-- `plan_depth` (postbound/_hints.py:1457-1467) -/
def Tree.planDepth : Tree A → Nat
  | .empty _ => 0
  | .scan _ _ _ => 1
  | .join _ o i _ => 1 + max o.planDepth i.planDepth

/-- `lookup` (postbound/_hints.py:1469-1499), with the needle as a set. -/
def Tree.lookup (n : Finset Nat) : Tree A → Option (Tree A)
  | .empty c => if n = ∅ then some (.empty c) else none
  | .scan c t a => if n = {t} then some (.scan c t a) else none
  | .join c o i a =>
    if n = o.tables ∪ i.tables then some (.join c o i a)
    else if ¬ n ⊆ o.tables ∪ i.tables then none
    else match o.lookup n with
      | some r => some r
      | none => i.lookup n

/-- `x in tree` for a table (postbound/_hints.py:1622-1623, 1619-1620): truth value of the looked-up tree. -/
def Tree.contains (tr : Tree A) (t : Nat) : Bool :=
  match tr.lookup {t} with
  | none => false
  | some r => !r.isEmpty

/-- `update_annotation` (postbound/_hints.py:1501-1515): builds a plain `JoinTree`, whatever the class of `self`. -/
def Tree.updateAnnotation (a : A) : Tree A → Option (Tree A)
  | .empty _ => none
  | .scan _ t _ => some (.scan .generic t (some a))
  | .join _ o i _ => some (.join .generic o i (some a))

/-- The `partner` argument of `join_with`. -/
inductive Partner (A : Type) where
  | table (t : Nat)
  | tree (t : Tree A)

/-- `_init_empty_join_tree` (postbound/_hints.py:1591-1603) -/
def initEmpty (p : Partner A) (ann : Option A) : Option (Tree A) :=
  match p, ann with
  | .table t, ann => some (.scan .generic t ann)
  | .tree tr, none => some tr
  | .tree tr, some a => tr.updateAnnotation a

/-- `join_with` (postbound/_hints.py:1517-1563); `inner = true` is `partner_direction = "inner"`. -/
def Tree.joinWith (self : Tree A) (p : Partner A) (ann pAnn : Option A) (inner : Bool) : Option (Tree A) :=
  match p with
  | .tree (.empty _) => some self
  | p =>
    if self.isEmpty then initEmpty p pAnn
    else do
      let partner ← initEmpty p pAnn
      if inner then some (.join .generic self partner ann) else some (.join .generic partner self ann)

/-- `iternodes` (postbound/_hints.py:1569-1575) -/
def Tree.iternodes : Tree A → List (Tree A)
  | .empty _ => []
  | .scan c t a => [.scan c t a]
  | .join c o i a => .join c o i a :: (o.iternodes ++ i.iternodes)

/-- `itertables` (postbound/_hints.py:1577-1583) -/
def Tree.itertables : Tree A → List Nat
  | .empty _ => []
  | .scan _ t _ => [t]
  | .join _ o i _ => o.itertables ++ i.itertables

/-- `iterjoins` (postbound/_hints.py:1585-1589) -/
def Tree.iterjoins : Tree A → List (Tree A)
  | .empty _ => []
  | .scan _ _ _ => []
  | .join c o i a => o.iterjoins ++ i.iterjoins ++ [.join c o i a]

/-- `len(tree)` (postbound/_hints.py:1625-1626) -/
def Tree.len (t : Tree A) : Nat := t.tables.card

/-- `==` (postbound/_hints.py:1631-1637). Python asks the subclass first when the right operand's class is a
subclass of the left one's, so trees of different classes are unequal in both directions. -/
def Tree.pyEq : Tree A → Tree A → Bool
  | .empty c, .empty c' => c == c'
  | .scan c t _, .scan c' t' _ => c == c' && t == t'
  | .join c o i _, .join c' o' i' _ => c == c' && o.pyEq o' && i.pyEq i'
  | _, _ => false

/-- The hashed tuple (postbound/_hints.py:1346). -/
inductive HashKey
  | none | table (t : Nat) | pair (o i : HashKey)
deriving DecidableEq

/-- `__hash__` (postbound/_hints.py:1346, 1628-1629) -/
def Tree.hashKey : Tree A → HashKey
  | .empty _ => .none
  | .scan _ t _ => .table t
  | .join _ o i _ => .pair o.hashKey i.hashKey

/-- JSON documents of join trees: `table` resp. `outer`/`inner` may be null. The annotation's document has type `B`. -/
inductive Json (B : Type) where
  | null
  | obj (table : Option Nat) (outer inner : Json B) (ann : Option B)

/-- `__json__` (postbound/_hints.py:1605-1617, 1734-1746); `enc` is the encoder of annotations. -/
def Tree.toJson {B : Type} (enc : A → B) : Tree A → Json B
  | .empty _ => .obj none .null .null none
  | .scan _ t a => .obj (some t) .null .null (a.map enc)
  | .join _ o i a => .obj none (o.toJson enc) (i.toJson enc) (a.map enc)

/-- `read_jointree_json` (postbound/opt/_helpers.py:642-666); `none` is an exception. -/
def readJson {B : Type} : Json B → Option (Tree B)
  | .null => none
  | .obj (some t) _ _ a => some (.scan .generic t a)
  | .obj none o i a => do
    let o' ← readJson o
    let i' ← readJson i
    some (.join .generic o' i' a)

/-- A nested sequence of tables (postbound/_core.py, `NestedTableSequence`). -/
inductive Nested
  | table (t : Nat)
  | pair (o i : Nested)

/-- `jointree_from_sequence` (postbound/opt/_helpers.py:630-639) -/
def fromSequence : Nested → Tree A
  | .table t => .scan .generic t none
  | .pair o i => .join .generic (fromSequence o) (fromSequence i) none

end PB.JT
