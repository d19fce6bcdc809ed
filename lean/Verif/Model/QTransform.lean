import Verif.Model.EqHash
import Verif.Model.Transform
import Verif.Model.Query

/-!
Model of the transformations of whole queries (postbound/transform.py): renaming of columns and tables, merging of tables, replacement of expressions and
extraction of fragments. Queries are those of `Model/EqHash`. An exception is modelled by `none`.

Simplifications: identifiers are compared exactly. The conditions of WHERE and HAVING are predicates.
-/

set_option linter.dupNamespace false

namespace PB.QTransform

open PB PB.Qal PB.Qal.Expr PB.EqHash
open PB.Transform hiding Source

variable {Q : Type}

/-- What the transformations use of table references: `identifier` (postbound/_core.py:791), `create_virtual` (postbound/_core.py:659-679), and the name
`f"{table.identifier()}_{name}"` of a column (postbound/transform.py:2405). -/
structure Names where
  ident : Tab → String
  virt : String → Tab
  pre : Tab → Nat → Nat

/-- Applies a function that may fail to all elements of a list. -/
def mapAll {α β : Type} (f : α → Option β) : List α → Option (List β)
  | [] => some []
  | x :: xs => (f x).bind fun y => (mapAll f xs).map fun ys => y :: ys

/-- Applies a function that may fail to an optional value. -/
def mapOpt {α β : Type} (f : α → Option β) : Option α → Option (Option β)
  | none => some none
  | some x => (f x).map some

/-! ### Renaming of columns -/

/-- The body of the loop of `_rename_columns_in_table_source` for VALUES (postbound/transform.py:1759-1778). `s` are the table and the columns. The columns are
bound to the new table, which is a virtual one (postbound/qal/_qal.py:6464-6472). -/
def renValuesStep (N : Names) (r : Col × Col) (s : Option Tab × List Col) : Option (Option Tab × List Col) :=
  if r.1.tab ≠ s.1 then some s
  else if r.1.tab ≠ r.2.tab then none
  else s.1.map fun t =>
    (some (N.virt (N.ident t)), s.2.map fun k => ⟨some (N.virt (N.ident t)), if k.name ≠ r.1.name then k.name else r.2.name⟩)

/-- The loop (postbound/transform.py:1753-1779). -/
def renValues (N : Names) : List (Col × Col) → Option Tab × List Col → Option (Option Tab × List Col)
  | [], s => some s
  | r :: rs, s => (renValuesStep N r s).bind fun s' => renValues N rs s'

/-- `_rename_columns_in_table_source` (postbound/transform.py:1696-1790). -/
def renSource (N : Names) (ren : Q → Option Q) (ρ : Dict Col Col) : Source Q → Option (Source Q)
  | .table t => some (.table t)
  | .subquery q name lateral => (ren q).map fun q' => .subquery q' name lateral
  | .values rows t cols => (renValues N ρ (t, cols)).map fun s => .values rows s.1 s.2
  | .func f name => (renameE ren ρ f).map fun f' => .func f' name
  | .join l r cond ty =>
    (renSource N ren ρ l).bind fun l' => (renSource N ren ρ r).bind fun r' => (renameO ren ρ cond).map fun c' => .join l' r' c' ty

/-- The renamings of the columns of a table (postbound/transform.py:1835, 1839-1841). -/
def ofTable (ρ : Dict Col Col) (t : Tab) : List (Col × Col) := ρ.filter fun r => r.1.tab = some t

/-- The columns of a VALUES list in the WITH clause after the last renaming (postbound/transform.py:1849-1859). -/
def renLast (t : Tab) (cols : List Col) : List (Col × Col) → List Col
  | [] => cols
  | [r] => cols.map fun k => ⟨some t, if k.name ≠ r.1.name then k.name else r.2.name⟩
  | _ :: rs => renLast t cols rs

/-- The loop over the WITH queries (postbound/transform.py:1825-1861). A VALUES list without renaming is skipped; of several renamings only the last one is
effective, because each starts from the original columns (line 1849). -/
def renWith (N : Names) (ren : Q → Option Q) (ρ : Dict Col Col) : With Q → Option (List (With Q))
  | .query q target m => (ren q).map fun q' => [.query q' ⟨target.ident, some (N.virt target.ident)⟩ m]
  | .values rows t cols m =>
    if ofTable ρ (N.virt (N.ident t)) = [] then some []
    else if (ofTable ρ (N.virt (N.ident t))).any fun r => r.1.tab ≠ r.2.tab then none
    else some [.values rows (N.virt (N.ident t)) (renLast (N.virt (N.ident t)) cols (ofTable ρ (N.virt (N.ident t)))) m]

/-- `CommonTableExpression(…)`: there has to be a query (postbound/qal/_qal.py:5627-5631). -/
def mkCte (recursive : Bool) (l : List (With Q)) : Option (Cte Q) := if l.isEmpty then none else some ⟨l, recursive⟩

/-- `rename_columns_in_clause` for WITH clauses (postbound/transform.py:1822-1863). -/
def renCte (N : Names) (ren : Q → Option Q) (ρ : Dict Col Col) (c : Cte Q) : Option (Cte Q) :=
  (mapAll (renWith N ren ρ) c.queries).bind fun l => mkCte c.recursive l.flatten

/-- A projection with the expression changed (postbound/transform.py:1866-1869). -/
def renProj (f : Expr Q → Option (Expr Q)) (p : Projection Q) : Option (Projection Q) := (f p.expr).map fun e => ⟨e, p.name⟩

/-- SELECT clauses: the expressions of DISTINCT ON are kept (postbound/transform.py:1864-1872, 1984). -/
def renSelect (f : Expr Q → Option (Expr Q)) (s : Select Q) : Option (Select Q) :=
  (mapAll (renProj f) s.targets).map fun l => ⟨l, s.distinct, s.cols⟩

/-- FROM clauses (postbound/transform.py:1873-1886). -/
def renFrom (N : Names) (ren : Q → Option Q) (ρ : Dict Col Col) (f : From Q) : Option (From Q) :=
  if f.cls = .implicit then some f else (mapAll (renSource N ren ρ) f.items).map fun l => ⟨f.cls, l⟩

/-- GROUP BY clauses (postbound/transform.py:1889-1894). -/
def renGroup (f : Expr Q → Option (Expr Q)) (g : GroupBy Q) : Option (GroupBy Q) := (mapAll f g.cols).map fun l => ⟨l, g.distinct⟩

/-- The expressions of ORDER BY clauses (postbound/transform.py:1901-1905). -/
def renOrderItem (f : Expr Q → Option (Expr Q)) (o : OrderItem Q) : Option (OrderItem Q) := (f o.expr).map fun e => ⟨e, o.dir⟩

/-- `rename_columns_in_query` for plain queries (postbound/transform.py:1359-1426). Queries of the class `SqlQuery` itself are rejected. -/
def renSel (N : Names) (ren : Q → Option Q) (ρ : Dict Col Col) (s : Sel Q) : Option (Sel Q) :=
  if s.cls = .plain then none
  else
    (mapOpt (renCte N ren ρ) s.cte).bind fun cte => (renameO ren ρ s.having_).bind fun having_ =>
      (mapOpt (mapAll (renOrderItem (renameE ren ρ))) s.orderBy).bind fun orderBy => (renSelect (renameE ren ρ) s.select).bind fun select =>
        (mapOpt (renFrom N ren ρ) s.src).bind fun src => (renameO ren ρ s.where_).bind fun where_ =>
          (mapOpt (renGroup (renameE ren ρ)) s.groupBy).map fun groupBy =>
            ⟨s.cls, s.hints, s.explain, cte, select, src, where_, groupBy, having_, orderBy, s.limit⟩

/-- `rename_columns_in_query` (postbound/transform.py:1336-1426). Line 1360 accesses the HAVING clause of set queries, which raises a QueryTypeError
(postbound/qal/_qal.py:9645-9650). -/
def renStmt (N : Names) (ren : Q → Option Q) (ρ : Dict Col Col) : Stmt Q → Option (Stmt Q)
  | .sel s => (renSel N ren ρ s).map .sel
  | .set .. => none

/-- `rename_columns_in_query` on queries with `n` levels of nesting. -/
def renCols (N : Names) (ρ : Dict Col Col) : (n : Nat) → QH n → Option (QH n)
  | 0, q => q.elim
  | n + 1, q => renStmt N (renCols N ρ n) ρ q

/-! ### Renaming of tables -/

/-- `_rename_table` for table references (postbound/transform.py:2321-2322). -/
def tabOf (τ : Dict Tab Tab) (t : Tab) : Tab := (Dict.get? τ t).getD t

/-- `_rename_table` for names (postbound/transform.py:2324-2331). -/
def nameOf (N : Names) (τ : Dict Tab Tab) (s : String) : String := ((τ.find? fun r => N.ident r.1 = s).map fun r => N.ident r.2).getD s

/-- `_rename_column` (postbound/transform.py:2333-2339). -/
def colOf (τ : Dict Tab Tab) (c : Col) : Col :=
  if ((c.tab.bind fun t => Dict.get? τ t).isSome) then ⟨c.tab.bind fun t => Dict.get? τ t, c.name⟩ else c

mutual
/-- The expression and predicate methods of `_TableReferenceRenamer` (postbound/transform.py:2079-2273). Three cases fail: array accesses (unknown keyword
arguments, 2263-2268), window functions with ORDER BY (`visit_orderby_clause` returns a list, which cannot be hashed, 2055, 2206) and quantifiers (the
arguments are swapped, 2244; the resulting object cannot be used). -/
def tabE (ren : Q → Option Q) (τ : Dict Tab Tab) : Expr Q → Option (Expr Q)
  | .static v => some (.static v)
  | .star t => some (.star (t.map (tabOf τ)))
  | .col c => some (.col (colOf τ c))
  | .cast e ty ps arr => (tabE ren τ e).bind fun e' => (tabL ren τ ps).map fun ps' => .cast e' ty ps' arr
  | .math op a bs => (tabE ren τ a).bind fun a' => (tabL ren τ bs).map fun bs' => .math op a' bs'
  | .arrGet _ _ _ _ => none
  | .func n args d f => (tabL ren τ args).bind fun args' => (tabO ren τ f).map fun f' => .func n args' d f'
  | .subq q => (ren q).map .subq
  | .window fn p o ds f =>
    (tabE ren τ fn).bind fun fn' => (tabL ren τ p).bind fun p' =>
      if o.isEmpty then (tabO ren τ f).map fun f' => .window fn' p' [] ds f' else none
  | .case w t s e =>
    (tabL ren τ w).bind fun w' => (tabL ren τ t).bind fun t' => (tabO ren τ s).bind fun s' => (tabO ren τ e).map fun e' => .case w' t' s' e'
  | .quant _ _ => none
  | .array es => (tabL ren τ es).map fun es' => .array es'
  | .binary op a b => (tabE ren τ a).bind fun a' => (tabE ren τ b).map fun b' => .binary op a' b'
  | .between e l u => (tabE ren τ e).bind fun e' => (tabE ren τ l).bind fun l' => (tabE ren τ u).map fun u' => .between e' l' u'
  | .inP e vs => (tabE ren τ e).bind fun e' => (tabL ren τ vs).map fun vs' => .inP e' vs'
  | .unary e op => (tabE ren τ e).map fun e' => .unary e' op
  | .compound op cs => (tabL ren τ cs).bind fun cs' => mkCompound op cs'
/-- Lists of expressions. -/
def tabL (ren : Q → Option Q) (τ : Dict Tab Tab) : List (Expr Q) → Option (List (Expr Q))
  | [] => some []
  | e :: es => (tabE ren τ e).bind fun e' => (tabL ren τ es).map fun es' => e' :: es'
/-- Optional expressions. -/
def tabO (ren : Q → Option Q) (τ : Dict Tab Tab) : Option (Expr Q) → Option (Option (Expr Q))
  | none => some none
  | some e => (tabE ren τ e).map some
end

/-- The table of a VALUES list with the given name (postbound/qal/_qal.py:6461-6464). -/
def aliasTab (N : Names) (s : String) : Option Tab := if s = "" then none else some (N.virt s)

/-- `_rename_table_source` (postbound/transform.py:2275-2311). The alias of a function (line 2305) is a method, from which no table can be created. The alias of
a VALUES list is the identifier of its (virtual) table. -/
def tabSource (N : Names) (ren : Q → Option Q) (τ : Dict Tab Tab) : Source Q → Option (Source Q)
  | .table t => some (.table (tabOf τ t))
  | .subquery q name lateral => (ren q).map fun q' => .subquery q' (nameOf N τ name) lateral
  | .values rows t cols =>
    let t' := aliasTab N (nameOf N τ ((t.map N.ident).getD ""))
    some (.values rows t' (cols.map fun k => ⟨t', k.name⟩))
  | .func _ _ => none
  | .join l r cond ty =>
    (tabSource N ren τ l).bind fun l' => (tabSource N ren τ r).bind fun r' => (tabO ren τ cond).map fun c' => .join l' r' c' ty

/-- The table source of `Model/Query`. -/
def toSource (N : Names) : Source Q → Query.Source Q
  | .table t => .table t
  | .subquery q name lateral => .sub q (aliasTab N name) lateral
  | .values rows t cols => .values rows.flatten t cols
  | .func f name => .func f name
  | .join l r cond _ => .join (toSource N l) (toSource N r) cond

/-- `From.tables` (postbound/qal/_qal.py:6976). -/
def fromTables (N : Names) (ops : QOps Q) (f : From Q) : Finset Tab := unionAll (f.items.map fun s => (toSource N s).tables ops)

/-- The identifier of a direct table source (postbound/qal/_qal.py:6238); other table sources have none. -/
def sourceIdent (N : Names) : Source Q → Option String
  | .table t => some (N.ident t)
  | _ => none

/-- The loop over the renamed tables (postbound/transform.py:1997-2004). -/
def mergeLoop (N : Names) (separate : List String) : List String → List (Source Q) → Option (List (Source Q))
  | _, [] => some []
  | inter, s :: ss =>
    (sourceIdent N s).bind fun i =>
      if i ∈ separate then (mergeLoop N separate inter ss).map fun l => s :: l
      else if i ∉ inter then mergeLoop N separate inter ss
      else (mergeLoop N separate (inter.filter fun j => j ≠ i) ss).map fun l => s :: l

/-- `visit_from_clause` (postbound/transform.py:1986-2028). `used` are the identifiers of the tables of the clause. -/
def tabFrom (N : Names) (ren : Q → Option Q) (τ : Dict Tab Tab) (used : List String) (f : From Q) : Option (From Q) :=
  let targets := τ.map fun r => N.ident r.2
  let inter := used.filter fun i => i ∈ targets
  (mapAll (tabSource N ren τ) f.items).bind fun renamed =>
    if inter = [] then some ⟨f.cls, renamed⟩
    else if f.cls = .implicit then
      (mergeLoop N (used.filter fun i => i ∉ targets) inter renamed).bind fun l => if l.isEmpty then none else some ⟨.implicit, l⟩
    else none

/-- The identifiers of the tables of a FROM clause as a list (line 1987). The order does not matter. -/
def usedIdents (N : Names) (ord : Finset Tab → List Tab) (ops : QOps Q) (f : From Q) : List String := (ord (fromTables N ops f)).map N.ident

/-- `visit_cte_clause` (postbound/transform.py:1961-1975). Simplification: VALUES lists are left out (`none`); the code turns them into queries. -/
def tabWith (N : Names) (ren : Q → Option Q) (τ : Dict Tab Tab) : With Q → Option (With Q)
  | .query q target m =>
    (ren q).map fun q' => .query q' ⟨N.ident (tabOf τ (N.virt target.ident)), some (tabOf τ (N.virt target.ident))⟩ m
  | .values _ _ _ _ => none

/-- WITH clauses (postbound/transform.py:1961-1975). -/
def tabCte (N : Names) (ren : Q → Option Q) (τ : Dict Tab Tab) (c : Cte Q) : Option (Cte Q) :=
  (mapAll (tabWith N ren τ) c.queries).bind fun l => mkCte c.recursive l

/-- Visiting all clauses of a plain query with `_TableReferenceRenamer` and building a query from the results (postbound/qal/_qal.py:9151-9166,
postbound/transform.py:1955-2058, 2413-2416). The method for ORDER BY returns a list (line 2055), which `build_query` rejects. -/
def tabSel (N : Names) (ord : Finset Tab → List Tab) (ops : QOps Q) (ren : Q → Option Q) (τ : Dict Tab Tab) (s : Sel Q) : Option (Stmt Q) :=
  if s.orderBy.isSome then none
  else
    (mapOpt (tabCte N ren τ) s.cte).bind fun cte => (renSelect (tabE ren τ) s.select).bind fun select =>
      (mapOpt (fun f => tabFrom N ren τ (usedIdents N ord ops f) f) s.src).bind fun src => (tabO ren τ s.where_).bind fun where_ =>
        (mapOpt (renGroup (tabE ren τ)) s.groupBy).bind fun groupBy => (tabO ren τ s.having_).bind fun having_ =>
          build (Sel.clauses ⟨s.cls, s.hints, s.explain, cte, select, src, where_, groupBy, having_, none, s.limit⟩)

/-- Visiting a query (postbound/transform.py:2060-2077 for set queries: the visits yield dictionaries, from which no clause can be created). -/
def tabStmt (N : Names) (ord : Finset Tab → List Tab) (ops : QOps Q) (ren : Q → Option Q) (τ : Dict Tab Tab) : Stmt Q → Option (Stmt Q)
  | .sel s => tabSel N ord ops ren τ s
  | .set .. => none

/-- The WITH query of `Model/Query`. Simplification: VALUES lists are left out. -/
def toWith (N : Names) : With Q → Option (Query.With Q)
  | .query q target _ => some ⟨q, N.virt target.ident⟩
  | .values .. => none

/-- The WITH queries of a query. -/
def toWiths (N : Names) (c : Option (Cte Q)) : List (Query.With Q) := (c.toList.flatMap fun c => c.queries).filterMap (toWith N)

/-- The query of `Model/Query`, which tells the tables and columns. -/
def toBody (N : Names) (s : Sel Q) : Query.Body Q where
  ctes := toWiths N s.cte
  select := s.select.targets.map fun p => (p.expr, none)
  distinctOn := s.select.cols
  from_ := s.src.map fun f => .general (f.items.map (toSource N))
  where_ := s.where_
  group := s.groupBy.toList.flatMap fun g => g.cols
  having := s.having_
  order := (s.orderBy.toList.flatten).map fun o => o.expr

/-- The query of `Model/Query`. -/
def toQuery (N : Names) : Stmt Q → Query.Query Q
  | .sel s => .plain (toBody N s)
  | .set l r _ cte o _ _ _ => .set (toQuery N l) (toQuery N r) (toWiths N cte) ((o.toList.flatten).map fun o => o.expr)

/-- The tables and columns of queries with `n` levels of nesting. -/
def opsOf (N : Names) : (n : Nat) → QOps (QH n)
  | 0 => ⟨fun q => q.elim, fun q => q.elim, fun q => q.elim, fun q => q.elim⟩
  | n + 1 => ⟨fun q => (toQuery N q).tables (opsOf N n), fun q => (toQuery N q).columns (opsOf N n), fun q => (toQuery N q).iterColumns (opsOf N n),
      fun _ => ∅⟩

/-- `_TableReferenceRenamer` on queries with `n` levels of nesting. -/
def tabs (N : Names) (ord : Finset Tab → List Tab) (τ : Dict Tab Tab) : (n : Nat) → QH n → Option (QH n)
  | 0, q => q.elim
  | n + 1, q => tabStmt N ord (opsOf N n) (tabs N ord τ n) τ q

/-- The renaming of columns in `rename_table` (postbound/transform.py:2402-2409). `cols` are the columns of the query; `target` is the argument `target_table`. -/
def tableCols (N : Names) (τ : Dict Tab Tab) (target : Option Tab) (pre : Bool) (cols : List Col) : Dict Col Col :=
  (cols.filter fun c => (c.tab.bind fun t => Dict.get? τ t).isSome).map fun c =>
    (c, ⟨target, if pre then N.pre (c.tab.getD 0) c.name else c.name⟩)

/-- `rename_table` (postbound/transform.py:2361-2416) for a dictionary `τ`. -/
def renameTables (N : Names) (ord : Finset Tab → List Tab) (n : Nat) (cols : List Col) (τ : Dict Tab Tab) (target : Option Tab) (pre : Bool) (q : QH n) :
    Option (QH n) :=
  (renCols N (tableCols N τ target pre cols) n q).bind fun q' => tabs N ord τ n q'

/-- `rename_table` for a single table (postbound/transform.py:2393-2394). -/
def renameTable (N : Names) (ord : Finset Tab → List Tab) (n : Nat) (cols : List Col) (src tgt : Tab) (pre : Bool) (q : QH n) : Option (QH n) :=
  renameTables N ord n cols [(src, tgt)] (some tgt) pre q

/-- The loop of `merge_tables` (postbound/transform.py:2445-2446). `colsOf` are the columns of a query. -/
def mergeTabs (N : Names) (ord : Finset Tab → List Tab) (n : Nat) (colsOf : QH n → List Col) (tgt : Tab) : List Tab → QH n → Option (QH n)
  | [], q => some q
  | t :: ts, q => (renameTable N ord n (colsOf q) t tgt false q).bind fun q' => mergeTabs N ord n colsOf tgt ts q'

/-- `merge_tables` (postbound/transform.py:2419-2447). `ts` is the set of tables in the order of the iteration. -/
def mergeTables (N : Names) (ord : Finset Tab → List Tab) (n : Nat) (colsOf : QH n → List Col) (ts : List Tab) (tgt : Tab) (q : QH n) : Option (QH n) :=
  (renCols N (((colsOf q).filter fun c => decide (∃ t ∈ ts, c.tab = some t)).map fun c => (c, ⟨some tgt, c.name⟩)) n q).bind fun q' =>
    mergeTabs N ord n colsOf tgt ts q'

/-! ### Replacement of expressions -/

mutual
/-- `_replace_expression_in_predicate` (postbound/transform.py:960-1021). -/
def replP (f : Expr Q → Expr Q) : Expr Q → Option (Expr Q)
  | .binary op a b => some (.binary op (f a) (f b))
  | .between e l u => some (.between (f e) (f l) (f u))
  | .inP e vs => some (.inP (f e) (vs.map f))
  | .unary e op => some (.unary (f e) op)
  | .compound op cs => (replPL f cs).bind fun cs' => mkCompound op cs'
  | _ => none
/-- The children of a compound predicate (postbound/transform.py:1010-1018). -/
def replPL (f : Expr Q → Expr Q) : List (Expr Q) → Option (List (Expr Q))
  | [] => some []
  | e :: es => (replP f e).bind fun e' => (replPL f es).map fun es' => e' :: es'
end

/-- The query of a subquery expression; other expressions violate an assertion (postbound/transform.py:1059). -/
def subqOf : Expr Q → Option Q
  | .subq q => some q
  | _ => none

/-- `_replace_expression_in_table_source` (postbound/transform.py:1024-1099). -/
def replSource (N : Names) (f : Expr Q → Expr Q) (rec : Q → Option Q) : Source Q → Option (Source Q)
  | .table t => some (.table t)
  | .subquery q name lateral => (subqOf (f (.subq q))).bind fun q1 => (rec q1).map fun q2 => .subquery q2 name lateral
  | .values rows t cols =>
    t.map fun t => .values (rows.map fun row => row.map f) (some (N.virt (N.ident t))) (cols.map fun k => ⟨some (N.virt (N.ident t)), k.name⟩)
  | .func e name => some (.func (f e) name)
  | .join l r cond ty =>
    (replSource N f rec l).bind fun l' => (replSource N f rec r).bind fun r' => (mapOpt (replP f) cond).map fun c' => .join l' r' c' ty

/-- WITH queries (postbound/transform.py:1135-1154). -/
def replWith (N : Names) (f : Expr Q → Expr Q) (rec : Q → Option Q) : With Q → Option (With Q)
  | .query q target m => (rec q).map fun q' => .query q' ⟨target.ident, some (N.virt target.ident)⟩ m
  | .values rows t cols m =>
    some (.values (rows.map fun row => row.map f) (N.virt (N.ident t)) (cols.map fun k => ⟨some (N.virt (N.ident t)), k.name⟩) m)

/-- WITH clauses (postbound/transform.py:1132-1156). -/
def replCte (N : Names) (f : Expr Q → Expr Q) (rec : Q → Option Q) (c : Cte Q) : Option (Cte Q) :=
  (mapAll (replWith N f rec) c.queries).bind fun l => mkCte c.recursive l

/-- FROM clauses (postbound/transform.py:1163-1176). -/
def replFrom (N : Names) (f : Expr Q → Expr Q) (rec : Q → Option Q) (c : From Q) : Option (From Q) :=
  if c.cls = .implicit then some c else (mapAll (replSource N f rec) c.items).map fun l => ⟨c.cls, l⟩

/-- `_replace_expressions_in_clause` for the clauses of a plain query (postbound/transform.py:1102-1205). -/
def replSel (N : Names) (f : Expr Q → Expr Q) (rec : Q → Option Q) (s : Sel Q) : Option (Stmt Q) :=
  (mapOpt (replCte N f rec) s.cte).bind fun cte => (mapOpt (replFrom N f rec) s.src).bind fun src => (mapOpt (replP f) s.where_).bind fun where_ =>
    (mapOpt (replP f) s.having_).bind fun having_ =>
      build (Sel.clauses ⟨s.cls, s.hints, s.explain, cte, ⟨s.select.targets.map fun p => ⟨f p.expr, p.name⟩, s.select.distinct, s.select.cols⟩, src, where_,
        s.groupBy.map fun g => ⟨g.cols.map f, g.distinct⟩, having_, s.orderBy.map fun l => l.map fun o => ⟨f o.expr, o.dir⟩, s.limit⟩)

/-- `replace_expressions` (postbound/transform.py:1208-1233). -/
def replStmt (N : Names) (f : Expr Q → Expr Q) (rec : Q → Option Q) : Stmt Q → Option (Stmt Q)
  | .sel s => replSel N f rec s
  | .set l r op cte o m h e =>
    (replStmt N f rec l).bind fun l' => (replStmt N f rec r).bind fun r' => (mapOpt (replCte N f rec) cte).bind fun cte' =>
      build (Stmt.clauses (.set l' r' op cte' (o.map fun l => l.map fun o => ⟨f o.expr, o.dir⟩) m h e))

/-- `replace_expressions` on queries with `n` levels of nesting. The replacement `f` accepts expressions of all levels. -/
def repl (N : Names) (f : (n : Nat) → Expr (QH n) → Expr (QH n)) : (n : Nat) → QH n → Option (QH n)
  | 0, q => q.elim
  | n + 1, q => replStmt N (f n) (repl N f n) q

/-! ### Fragments of queries -/

/-- The argument `projection` of `extract_query_fragment`. -/
inductive Proj where
  | keep | star | countStar
deriving DecidableEq

/-- `Select.star()` (postbound/qal/_qal.py:5913-5929) -/
def starSelect (d : Distinct) : Select Q := ⟨[⟨.star none, ""⟩], d, []⟩

/-- `Select.count_star()` (postbound/qal/_qal.py:5895-5911) -/
def countSelect : Select Q := ⟨[⟨.func "COUNT" [.star none] false none, ""⟩], .none, []⟩

/-- `Select.is_distinct()` as an argument of the constructor (postbound/qal/_qal.py:5969-5975, 6009-6011). -/
def distinctBool (d : Distinct) : Distinct := if d = .none then .none else .all

/-- The SELECT clause of a fragment (postbound/transform.py:405-428). -/
def fragSelect (ops : QOps Q) (ts : Finset Tab) (p : Proj) (s : Select Q) : Select Q :=
  if p = .keep then
    let l := s.targets.filter fun t => t.expr.tables ops = ts ∨ t.expr.columns ops = ∅
    if l.isEmpty then starSelect (distinctBool s.distinct) else ⟨l, distinctBool s.distinct, []⟩
  else if p = .star then starSelect .none
  else countSelect

/-- The target table of a WITH query (postbound/qal/_qal.py:5391-5402). -/
def withTab (N : Names) : With Q → Tab
  | .query _ target _ => N.virt target.ident
  | .values _ t _ _ => N.virt (N.ident t)

/-- The WITH clause of a fragment (postbound/transform.py:364-377). -/
def fragCte (N : Names) (ts : Finset Tab) (c : Option (Cte Q)) : Option (Cte Q) :=
  c.bind fun c => mkCte c.recursive (c.queries.filter fun w => withTab N w ∈ ts)

/-- A clause that only exists if it has content. -/
def ifAny {α : Type} (l : List α) : Option (List α) := if l.isEmpty then none else some l

/-- The ORDER BY clause of a fragment (postbound/transform.py:379-387). -/
def fragOrder (ops : QOps Q) (ts : Finset Tab) (o : Option (List (OrderItem Q))) : Option (List (OrderItem Q)) :=
  o.bind fun l => ifAny (l.filter fun x => x.expr.tables ops ⊆ ts)

/-- The GROUP BY clause of a fragment (postbound/transform.py:449-462). -/
def fragGroup (ops : QOps Q) (ts : Finset Tab) (g : Option (GroupBy Q)) : Option (GroupBy Q) :=
  g.bind fun g => (ifAny (g.cols.filter fun x => x.tables ops ⊆ ts)).map fun l => ⟨l, g.distinct⟩

/-- The predicate of the WHERE or HAVING clause of a fragment (postbound/transform.py:441-447, 464-470). -/
def fragPred (ops : QOps Q) (ts : Finset Tab) (p : Option (Expr Q)) : Option (Option (Expr Q)) := (mapOpt (fragment ops ts) p).map Option.join

/-- The FROM clause of a fragment (postbound/transform.py:430-439). -/
def fragFrom (N : Names) (ord : Finset Tab → List Tab) (ops : QOps Q) (ts : Finset Tab) (s : Sel Q) : Option (From Q) :=
  s.src.map fun _ => ⟨.implicit, ((ord ((toBody N s).tables ops)).filter fun t => t ∈ ts).map .table⟩

/-- `ImplicitFromClause(…)`: there has to be a table (postbound/qal/_qal.py:6956-6958). -/
def validFrom : Option (From Q) → Bool
  | none => true
  | some f => !f.items.isEmpty

/-- `extract_query_fragment` for plain queries (postbound/transform.py:355-481). The inner `none` is Python's `None`. -/
def fragSel (N : Names) (ord : Finset Tab → List Tab) (ops : QOps Q) (ts : Finset Tab) (p : Proj) (s : Sel Q) : Option (Option (Sel Q)) :=
  if s.cls ≠ .implicit then none
  else if ¬ ts ⊆ (toBody N s).tables ops then some none
  else
    (fragPred ops ts s.where_).bind fun where_ => (fragPred ops ts s.having_).bind fun having_ =>
      if validFrom (fragFrom N ord ops ts s) then
        some (some ⟨.implicit, none, none, fragCte N ts s.cte, fragSelect ops ts p s.select, fragFrom N ord ops ts s, where_, fragGroup ops ts s.groupBy,
          having_, fragOrder ops ts s.orderBy, s.limit⟩)
      else none

/-- `extract_query_fragment` (postbound/transform.py:313-481). For set queries the argument `projection` is not passed on (lines 390-393); a missing side
raises an AttributeError (postbound/qal/_qal.py:9453). -/
def fragStmt (N : Names) (ord : Finset Tab → List Tab) (ops : QOps Q) (ts : Finset Tab) (p : Proj) : Stmt Q → Option (Option (Stmt Q))
  | .sel s => (fragSel N ord ops ts p s).map fun r => r.map .sel
  | .set l r op cte o m h e =>
    if ¬ ts ⊆ (toQuery N (.set l r op cte o m h e)).tables ops then some none
    else
      (fragStmt N ord ops ts .keep l).bind fun l' => (fragStmt N ord ops ts .keep r).bind fun r' =>
        l'.bind fun l'' => r'.map fun r'' => some (mkSet l'' r'' op (fragCte N ts cte) (fragOrder ops ts o) m h e)

end PB.QTransform
