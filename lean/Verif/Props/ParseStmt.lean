/-
Properties of the translation of statements in the parser (postbound/parser.py): a translated statement has the meaning of the parsed one (C161), and its class follows the FROM clause (C162).
-/
import Verif.Model.ParseStmt
import Verif.Props.ParseExpr

set_option linter.unusedSimpArgs false
set_option linter.unusedVariables false
set_option linter.unusedSectionVars false
set_option linter.unnecessarySimpa false
set_option linter.unnecessarySeqFocus false
set_option linter.dupNamespace false

namespace PB.PStmtProps

open PB.PStmt

variable {E X D R : Type}

/-! ### Specification -/

/-- LIMIT and OFFSET: the number of rows to skip, the number of rows to return (`none` for all), and whether further rows that are equal to the last one are returned (WITH TIES). -/
structure Window where
  skip : Int
  rows : Option Int
  ties : Bool
deriving DecidableEq, Repr

/-- Sort keys with the direction and the placement of nulls; both may be left to the database. -/
structure SortKey (D : Type) where
  key : D
  ascending : Option Bool
  nullsFirst : Option Bool

/-- A WITH query: its name, the names of its columns, MATERIALIZED, and the rows. -/
structure WithItem (R : Type) where
  name : String
  cols : List String
  mat : Option Bool
  rows : R

/-- An interpretation of SQL statements: the meaning of the constructs of SQL, in terms of values `D` for expressions and values `R` for relations. Nothing is assumed about the
operations. -/
structure Sem (D R : Type) where
  /-- `ONLY schema.name AS alias (columns)` -/
  table : String → String → Option String → List String → Bool → R
  /-- `l JOIN r ON condition` -/
  joinOn : JKind → R → R → D → R
  cross : R → R → R
  joinUsing : JKind → R → R → List String → R
  naturalJoin : JKind → R → R → R
  /-- the alias of a join -/
  aliased : R → String → R
  /-- `LATERAL (query) AS alias (columns)` -/
  derived : Bool → R → Option String → List String → R
  /-- `ROWS FROM (functions) WITH ORDINALITY AS alias (columns)` -/
  func : List D → Bool → Option String → List String → R
  values : List (List D) → R
  /-- ORDER BY, LIMIT and OFFSET of VALUES -/
  valuesTail : R → R
  /-- WITH queries, RECURSIVE, DISTINCT, targets, FROM, WHERE, GROUP BY, HAVING, ORDER BY, LIMIT -/
  select : List (WithItem R) → Bool → Option (List D) → List (D × Option String) → List R → Option D → List D → Option D → List (SortKey D) → Window → R
  /-- WITH queries, RECURSIVE, operator, ALL, operands, ORDER BY, LIMIT -/
  setop : List (WithItem R) → Bool → SetKind → Bool → R → R → List (SortKey D) → Window → R
  /-- FOR UPDATE etc. -/
  lock : R → R
  other : R

/-- LIMIT and OFFSET of the syntax tree. Numbers of rows that are computed by expressions are not considered. -/
def window (l : RLimits) : Window where
  skip := match l.offset with
    | some (.const n) => n
    | _ => 0
  rows := match l.count with
    | some (.const n) => some n
    | _ => none
  ties := decide (l.option = .withTies)

/-- Directions. -/
def direction : SortDir → Option Bool
  | .asc => some true
  | .desc => some false
  | _ => none

def nulls : SortNulls → Option Bool
  | .first => some true
  | .last => some false
  | .default => none

def materialized : Mat → Option Bool
  | .always => some true
  | .never => some false
  | .default => none

def sortKeys (den : E → D) (l : List (RSort E)) : List (SortKey D) := l.map fun s => ⟨den s.key, direction s.dir, nulls s.nulls⟩

/-- The alias of a join. -/
def withAlias (m : Sem D R) (r : R) : Option String → R
  | none => r
  | some a => m.aliased r a

mutual

/-- The meaning of FROM entries. -/
def fromMeaning (m : Sem D R) (den : E → D) : RFrom E → R
  | .table s n a cols only => m.table s n a cols only
  | .join k l r (some q) _ _ a => withAlias m (m.joinOn k (fromMeaning m den l) (fromMeaning m den r) (den q)) a
  | .join k l r none _ true a => withAlias m (m.naturalJoin k (fromMeaning m den l) (fromMeaning m den r)) a
  | .join _ l r none [] false a => withAlias m (m.cross (fromMeaning m den l) (fromMeaning m den r)) a
  | .join k l r none (c :: cs) false a => withAlias m (m.joinUsing k (fromMeaning m den l) (fromMeaning m den r) (c :: cs)) a
  | .sub lateral q a cols => m.derived lateral (meaning m den q) a cols
  | .func fns ord a cols => m.func (fns.map den) ord a cols
  | .other => m.other

def fromMeanings (m : Sem D R) (den : E → D) : RFroms E → List R
  | .nil => []
  | .cons f fs => fromMeaning m den f :: fromMeanings m den fs

def withMeaning (m : Sem D R) (den : E → D) : RCtes E → List (WithItem R)
  | .nil => []
  | .cons name cols mat q rest => ⟨name, cols, materialized mat, meaning m den q⟩ :: withMeaning m den rest

/-- The meaning of statements. -/
def meaning (m : Sem D R) (den : E → D) : RSel E → R
  | .plain ctes isRec distinct targets sources wher group _ having order limits locked =>
    let r := m.select (withMeaning m den ctes) isRec (distinct.map fun l => l.map den) (targets.map fun t => (den t.1, t.2)) (fromMeanings m den sources) (wher.map den) (group.map den)
      (having.map den) (sortKeys den order) (window limits)
    if locked then m.lock r else r
  | .setop ctes isRec kind all l r order limits =>
    m.setop (withMeaning m den ctes) isRec kind all (meaning m den l) (meaning m den r) (sortKeys den order) (window limits)
  | .values rows tail => if tail then m.valuesTail (m.values (rows.map fun row => row.map den)) else m.values (rows.map fun row => row.map den)

end

/-- A name that may be missing (the empty string). -/
def given (s : String) : Option String := if s = "" then none else some s

/-- LIMIT and OFFSET of a translated statement. -/
def limitWindow : Option PLimit → Window
  | none => ⟨0, none, false⟩
  | some l => ⟨l.offset.getD 0, l.limit, false⟩

/-- The meaning of joins with a condition. -/
def joinKind : PJoin → Option JKind
  | .inner => some .inner
  | .left => some .left
  | .right => some .right
  | .outer => some .full
  | .cross => none

def joinValue (m : Sem D R) (k : PJoin) (l r : R) (cond : Option D) : R := match joinKind k, cond with
  | some j, some c => m.joinOn j l r c
  | none, none => m.cross l r
  | _, _ => m.other

def setKind : PSetOp → SetKind × Bool
  | .union => (.union, false)
  | .unionAll => (.union, true)
  | .intersect => (.intersect, false)
  | .except => (.except, false)

def sortValues (val : X → D) (l : List (PSort X)) : List (SortKey D) := l.map fun s => ⟨val s.key, s.ascending, s.nullsFirst⟩

mutual

/-- The meaning of table sources. -/
def fromValue (m : Sem D R) (val : X → D) : PFrom X → R
  | .table s n a => m.table s n a [] false
  | .join k l r cond => joinValue m k (fromValue m val l) (fromValue m val r) (cond.map val)
  | .sub lateral q a => m.derived lateral (value m val q) (given a) []
  | .values rows a cols => m.derived false (m.values (rows.map fun row => row.map val)) (given a) cols
  | .func f a => m.func [val f] false (given a) []

def fromValues (m : Sem D R) (val : X → D) : List (PFrom X) → List R
  | [] => []
  | f :: fs => fromValue m val f :: fromValues m val fs

def withValue (m : Sem D R) (val : X → D) : PCte X → WithItem R
  | .query name q mat => ⟨name, [], mat, value m val q⟩
  | .values name rows cols mat => ⟨name, cols, mat, m.values (rows.map fun row => row.map val)⟩

def withValues (m : Sem D R) (val : X → D) : List (PCte X) → List (WithItem R)
  | [] => []
  | c :: cs => withValue m val c :: withValues m val cs

/-- The meaning of translated statements. -/
def value (m : Sem D R) (val : X → D) : PSel X → R
  | .plain ctes isRec distinct targets _ sources wher group having order limit =>
    m.select (withValues m val ctes) isRec (distinct.map fun l => l.map val) (targets.map fun t => (val t.1, given t.2)) (fromValues m val sources) (wher.map val) (group.map val)
      (having.map val) (sortValues val order) (limitWindow limit)
  | .setop ctes isRec op l r order limit =>
    m.setop (withValues m val ctes) isRec (setKind op).1 (setKind op).2 (value m val l) (value m val r) (sortValues val order) (limitWindow limit)

end

/-- The translation of expressions keeps their values (C159). -/
structure Sound (x : Exprs E X) (den : E → D) (val : X → D) : Prop where
  expr : ∀ e v, x.pe e = some v → val v = den e
  cond : ∀ e v, x.pp e = some v → val v = den e
  star : ∀ e, x.isStar e = true → val x.starExpr = den e

/-- Aliases in SQL are not empty. -/
def NameOk : Option String → Prop
  | none => True
  | some a => a ≠ ""

/-- Covered LIMIT clauses: not WITH TIES, not LIMIT 0; without LIMIT and OFFSET the option is the default. -/
def LimitOk (l : RLimits) : Prop := l.option ≠ .withTies ∧ l.count ≠ some (.const 0) ∧ (l.option = .default → l.count = none ∧ l.offset = none)

mutual

/-- Covered FROM entries: no column aliases except for VALUES, no ONLY, USING, NATURAL, aliases of joins, ROWS FROM with several functions and WITH ORDINALITY. -/
def FromOk (st : E → Bool) : RFrom E → Prop
  | .table _ _ _ cols only => cols = [] ∧ only = false
  | .join _ l r _ usingCols isNatural a => FromOk st l ∧ FromOk st r ∧ usingCols = [] ∧ isNatural = false ∧ a = none
  | .sub lateral (.values _ tail) a cols => lateral = false ∧ tail = false ∧ NameOk a ∧ (a = none → cols = [])
  | .sub _ q a cols => Ok st q ∧ NameOk a ∧ cols = []
  | .func fns ord a cols => fns.length = 1 ∧ ord = false ∧ NameOk a ∧ cols = []
  | .other => True

def FromsOk (st : E → Bool) : RFroms E → Prop
  | .nil => True
  | .cons f fs => FromOk st f ∧ FromsOk st fs

/-- Covered WITH queries: no column aliases except for VALUES. -/
def CtesOk (st : E → Bool) : RCtes E → Prop
  | .nil => True
  | .cons _ _ _ (.values _ tail) rest => tail = false ∧ CtesOk st rest
  | .cons _ cols _ q rest => cols = [] ∧ Ok st q ∧ CtesOk st rest

/-- Covered statements; `st` says which targets are `*`, which have no alias. -/
def Ok (st : E → Bool) : RSel E → Prop
  | .plain ctes _ _ targets sources _ _ _ _ _ limits locked => CtesOk st ctes ∧ FromsOk st sources ∧ (∀ t ∈ targets, NameOk t.2 ∧ (st t.1 = true → t.2 = none)) ∧ LimitOk limits ∧ locked = false
  | .setop ctes _ kind all l r _ limits => CtesOk st ctes ∧ (kind ≠ .union → all = false) ∧ Ok st l ∧ Ok st r ∧ LimitOk limits
  | .values _ tail => tail = false

end

/-! ### The translation keeps the meaning -/

theorem given_getD {a : Option String} (h : NameOk a) : given (a.getD "") = a := by
  cases a with
  | none => rfl
  | some a => simp only [NameOk] at h; simp [given, h]

theorem mapM_eq {A B C : Type} (f : A → Option B) (g : B → C) (k : A → C) (h : ∀ a b, f a = some b → g b = k a) : ∀ (l : List A) {l' : List B}, l.mapM f = some l' → l'.map g = l.map k
  | [], l', h' => by simp at h'; subst h'; rfl
  | a :: l, l', h' => by
    simp only [List.mapM_cons, Option.bind_eq_bind, Option.bind_eq_some_iff, Option.pure_def, Option.some.injEq] at h'
    obtain ⟨b, hb, t, ht, rfl⟩ := h'
    simp [h a b hb, mapM_eq f g k h l ht]

theorem exprs_eq {x : Exprs E X} {den : E → D} {val : X → D} (hx : Sound x den val) {l : List E} {l' : List X} (h : l.mapM x.pe = some l') : l'.map val = l.map den :=
  mapM_eq _ _ _ hx.expr l h

theorem rows_eq {x : Exprs E X} {den : E → D} {val : X → D} (hx : Sound x den val) {rows : List (List E)} {rs : List (List X)} (h : parseRows x rows = some rs) :
    (rs.map fun row => row.map val) = rows.map fun row => row.map den :=
  mapM_eq _ _ _ (fun _ _ h => exprs_eq hx h) rows h

theorem sort_eq {x : Exprs E X} {den : E → D} {val : X → D} (hx : Sound x den val) {l : List (RSort E)} {l' : List (PSort X)} (h : l.mapM (parseSort x) = some l') :
    sortValues val l' = sortKeys den l := by
  refine mapM_eq _ _ _ ?_ l h
  intro a b hb
  unfold parseSort at hb
  simp only [Option.bind_eq_some_iff, Option.map_eq_some_iff] at hb
  obtain ⟨k, hk, d, hd, rfl⟩ := hb
  have h1 : d = direction a.dir := by
    cases hdir : a.dir <;> simp [hdir, parseDir] at hd <;> simp [direction, hd]
  have h2 : parseNulls a.nulls = nulls a.nulls := by cases a.nulls <;> rfl
  simp [hx.expr _ _ hk, h1, h2]

theorem cond_eq {x : Exprs E X} {den : E → D} {val : X → D} (hx : Sound x den val) {o : Option E} {o' : Option X} (h : parseCond x o = some o') : o'.map val = o.map den := by
  cases o with
  | none => simp [parseCond] at h; subst h; rfl
  | some e =>
    simp only [parseCond, Option.map_eq_some_iff] at h
    obtain ⟨v, hv, rfl⟩ := h
    simp [hx.cond _ _ hv]

theorem distinct_eq {x : Exprs E X} {den : E → D} {val : X → D} (hx : Sound x den val) {o : Option (List E)} {o' : Option (List X)} (h : parseDistinct x o = some o') :
    (o'.map fun l => l.map val) = o.map fun l => l.map den := by
  cases o with
  | none => simp [parseDistinct] at h; subst h; rfl
  | some e =>
    simp only [parseDistinct, Option.map_eq_some_iff] at h
    obtain ⟨v, hv, rfl⟩ := h
    simp only [Option.map_some]
    rw [exprs_eq hx hv]

theorem mapM_eq_mem {A B C : Type} (f : A → Option B) (g : B → C) (k : A → C) : ∀ (l : List A) {l' : List B}, (∀ a ∈ l, ∀ b, f a = some b → g b = k a) → l.mapM f = some l' → l'.map g = l.map k
  | [], l', _, h' => by simp at h'; subst h'; rfl
  | a :: l, l', h, h' => by
    simp only [List.mapM_cons, Option.bind_eq_bind, Option.bind_eq_some_iff, Option.pure_def, Option.some.injEq] at h'
    obtain ⟨b, hb, t, ht, rfl⟩ := h'
    simp only [List.map_cons]
    rw [h a List.mem_cons_self b hb, mapM_eq_mem f g k l (fun a ha => h a (List.mem_cons_of_mem _ ha)) ht]

theorem targets_eq {x : Exprs E X} {den : E → D} {val : X → D} (hx : Sound x den val) {l : List (E × Option String)} {l' : List (X × String)}
    (hn : ∀ t ∈ l, NameOk t.2 ∧ (x.isStar t.1 = true → t.2 = none)) (h : parseTargets x l = some l') : (l'.map fun t => (val t.1, given t.2)) = l.map fun t => (den t.1, t.2) := by
  unfold parseTargets at h
  split at h
  · simp at h
  · rename_i e a
    have hn := hn (e, a) (by simp)
    split at h
    · rename_i hs
      simp at h
      subst h
      have := hn.2 hs
      simp at this
      subst this
      simp [hx.star e hs, given]
    · simp only [Option.map_eq_some_iff] at h
      obtain ⟨v, hv, rfl⟩ := h
      simp [hx.expr _ _ hv, given_getD hn.1]
  · refine mapM_eq_mem _ _ _ l ?_ h
    intro t ht b hb
    simp only [Option.map_eq_some_iff] at hb
    obtain ⟨v, hv, rfl⟩ := hb
    simp [hx.expr _ _ hv, given_getD (hn t ht).1]

theorem count_eq {l : RLimits} (hc : l.count ≠ some (.const 0)) {n : Option Int} (h : parseCount l.count = some n) : n = (window l).rows := by
  unfold parseCount at h
  unfold window
  split at h
  · rename_i he; simp at h; simp [he, ← h]
  · rename_i k he
    have hk : k ≠ 0 := by rintro rfl; exact hc he
    simp [hk] at h
    simp [he, ← h]
  · simp at h

theorem offset_eq {l : RLimits} {n : Option Int} (h : parseOffset l.offset = some n) : n.getD 0 = (window l).skip := by
  unfold parseOffset at h
  unfold window
  split at h
  · rename_i he; simp at h; simp [he, ← h]
  · rename_i k he
    simp at h
    simp [he, ← h]
  · simp at h

theorem limit_eq {has : String → Bool} {l : RLimits} (hl : LimitOk l) {r : Option PLimit} (h : parseLimit has l = some r) : limitWindow r = window l := by
  unfold parseLimit at h
  have ht : (window l).ties = false := by simp [window, hl.1]
  split at h
  · rename_i hn
    simp at h
    subst h
    simp at hn
    simp [limitWindow, window, hn.1, hn.2, hl.1]
  · simp only [Option.bind_eq_some_iff] at h
    obtain ⟨n, hn, o, ho, d, hd, h⟩ := h
    split at h
    · simp at h
    · simp at h
      subst h
      have h1 := count_eq hl.2.1 hn
      have h2 := offset_eq ho
      simp only [limitWindow, h1, h2]
      cases hw : window l
      rw [hw] at ht
      simp at ht
      simp [ht]

theorem default_window {l : RLimits} (hl : LimitOk l) (h : l.option ≠ .count) : limitWindow none = window l := by
  have hd : l.option = .default := by
    cases ho : l.option with
    | default => rfl
    | count => exact absurd ho h
    | withTies => exact absurd ho hl.1
  obtain ⟨h1, h2⟩ := hl.2.2 hd
  simp [limitWindow, window, h1, h2, hd]

theorem plain_eq {has : String → Bool} {l : RLimits} (hl : LimitOk l) {r : Option PLimit} (h : plainLimit has l = some r) : limitWindow r = window l := by
  unfold plainLimit at h
  split at h
  · rw [Option.bind_eq_some_iff] at h
    obtain ⟨r', hr, h⟩ := h
    rw [← limit_eq hl hr]
    cases r' with
    | none => simp at h
    | some v => simp at h; subst h; rfl
  · rename_i hc
    simp at h
    subst h
    exact default_window hl hc

theorem set_eq {has : String → Bool} {l : RLimits} (hl : LimitOk l) {r : Option PLimit} (h : setLimit has l = some r) : limitWindow r = window l := by
  unfold setLimit at h
  split at h
  · exact limit_eq hl h
  · rename_i hc
    simp at h
    subst h
    exact default_window hl hc

theorem setOp_eq {k : SetKind} {all : Bool} (h : k ≠ .union → all = false) : setKind (parseSetOp k all) = (k, all) := by
  cases k <;> cases all <;> simp_all [parseSetOp, setKind]

theorem mat_eq (mt : Mat) : parseMat mt = materialized mt := by cases mt <;> rfl

mutual

theorem from_meaning (m : Sem D R) {x : Exprs E X} {den : E → D} {val : X → D} (hx : Sound x den val) (has : String → Bool) :
    ∀ (r : RFrom E) {p : PFrom X}, FromOk x.isStar r → parseFrom x has r = some p → fromValue m val p = fromMeaning m den r
  | .table s n a cols only, p, ho, h => by
    simp only [FromOk] at ho
    obtain ⟨rfl, rfl⟩ := ho
    simp [parseFrom] at h
    subst h
    simp [fromValue, fromMeaning]
  | .join k l r quals us nat a, p, ho, h => by
    simp only [FromOk] at ho
    obtain ⟨hl, hr, rfl, rfl, rfl⟩ := ho
    simp only [parseFrom, Option.bind_eq_some_iff] at h
    obtain ⟨l', hl', r', hr', h⟩ := h
    have ihl := from_meaning m hx has l hl hl'
    have ihr := from_meaning m hx has r hr hr'
    cases quals with
    | none =>
      cases k <;> simp [mkJoin, parseJoin] at h
      subst h
      simp [fromValue, fromMeaning, joinValue, joinKind, withAlias, ihl, ihr]
    | some q =>
      cases k <;> simp [mkJoin, parseJoin] at h <;> (obtain ⟨c, hc, rfl⟩ := h; simp [fromValue, fromMeaning, joinValue, joinKind, withAlias, ihl, ihr, hx.cond _ _ hc])
  | .sub lateral (.values rows tail) a cols, p, ho, h => by
    simp only [FromOk] at ho
    obtain ⟨rfl, rfl, hn, hc⟩ := ho
    simp only [parseFrom, Option.map_eq_some_iff] at h
    obtain ⟨rs, hrs, rfl⟩ := h
    cases a with
    | none =>
      have := hc rfl
      subst this
      simp [mkValues, fromValue, fromMeaning, meaning, rows_eq hx hrs, given]
    | some a =>
      simp only [NameOk] at hn
      simp [mkValues, fromValue, fromMeaning, meaning, rows_eq hx hrs, given, hn]
  | .sub lateral (.plain c1 c2 c3 c4 c5 c6 c7 c8 c9 c10 c11 c12) a cols, p, ho, h => by
    simp only [FromOk] at ho
    obtain ⟨hq, hn, rfl⟩ := ho
    simp only [parseFrom, Option.map_eq_some_iff] at h
    obtain ⟨q', hq', rfl⟩ := h
    have ih := sel_meaning m hx has _ hq hq'
    rw [fromValue, fromMeaning, ih, given_getD hn]
  | .sub lateral (.setop c1 c2 c3 c4 c5 c6 c7 c8) a cols, p, ho, h => by
    simp only [FromOk] at ho
    obtain ⟨hq, hn, rfl⟩ := ho
    simp only [parseFrom, Option.map_eq_some_iff] at h
    obtain ⟨q', hq', rfl⟩ := h
    have ih := sel_meaning m hx has _ hq hq'
    rw [fromValue, fromMeaning, ih, given_getD hn]
  | .func fns ord a cols, p, ho, h => by
    simp only [FromOk] at ho
    obtain ⟨hlen, rfl, hn, rfl⟩ := ho
    obtain ⟨f, rfl⟩ := List.length_eq_one_iff.1 hlen
    simp only [parseFrom, Option.map_eq_some_iff] at h
    obtain ⟨v, hv, rfl⟩ := h
    simp [fromValue, fromMeaning, hx.expr _ _ hv, given_getD hn]
  | .other, p, ho, h => by simp [parseFrom] at h

theorem froms_meaning (m : Sem D R) {x : Exprs E X} {den : E → D} {val : X → D} (hx : Sound x den val) (has : String → Bool) :
    ∀ (r : RFroms E) {p : List (PFrom X)}, FromsOk x.isStar r → parseFroms x has r = some p → fromValues m val p = fromMeanings m den r
  | .nil, p, ho, h => by simp [parseFroms] at h; subst h; simp [fromValues, fromMeanings]
  | .cons f fs, p, ho, h => by
    simp only [FromsOk] at ho
    simp only [parseFroms, Option.bind_eq_some_iff, Option.map_eq_some_iff] at h
    obtain ⟨f', hf, l, hl, rfl⟩ := h
    rw [fromValues, fromMeanings, from_meaning m hx has f ho.1 hf, froms_meaning m hx has fs ho.2 hl]

theorem ctes_meaning (m : Sem D R) {x : Exprs E X} {den : E → D} {val : X → D} (hx : Sound x den val) (has : String → Bool) :
    ∀ (r : RCtes E) {p : List (PCte X)}, CtesOk x.isStar r → parseCtes x has r = some p → withValues m val p = withMeaning m den r
  | .nil, p, ho, h => by simp [parseCtes] at h; subst h; simp [withValues, withMeaning]
  | .cons name cols mat (.values rows tail) rest, p, ho, h => by
    simp only [CtesOk] at ho
    obtain ⟨rfl, ho⟩ := ho
    simp only [parseCtes, Option.bind_eq_some_iff, Option.map_eq_some_iff] at h
    obtain ⟨rs, hrs, l, hl, rfl⟩ := h
    rw [withValues, withMeaning, ctes_meaning m hx has rest ho hl, withValue, mat_eq, rows_eq hx hrs]
    simp [meaning]
  | .cons name cols mat (.plain c1 c2 c3 c4 c5 c6 c7 c8 c9 c10 c11 c12) rest, p, ho, h => by
    simp only [CtesOk] at ho
    obtain ⟨rfl, hq, ho⟩ := ho
    simp only [parseCtes, Option.bind_eq_some_iff, Option.map_eq_some_iff] at h
    obtain ⟨q', hq', l, hl, rfl⟩ := h
    have ih := sel_meaning m hx has _ hq hq'
    rw [withValues, withMeaning, ctes_meaning m hx has rest ho hl, withValue, mat_eq, ih]
  | .cons name cols mat (.setop c1 c2 c3 c4 c5 c6 c7 c8) rest, p, ho, h => by
    simp only [CtesOk] at ho
    obtain ⟨rfl, hq, ho⟩ := ho
    simp only [parseCtes, Option.bind_eq_some_iff, Option.map_eq_some_iff] at h
    obtain ⟨q', hq', l, hl, rfl⟩ := h
    have ih := sel_meaning m hx has _ hq hq'
    rw [withValues, withMeaning, ctes_meaning m hx has rest ho hl, withValue, mat_eq, ih]

theorem sel_meaning (m : Sem D R) {x : Exprs E X} {den : E → D} {val : X → D} (hx : Sound x den val) (has : String → Bool) :
    ∀ (r : RSel E) {p : PSel X}, Ok x.isStar r → parseSel x has r = some p → value m val p = meaning m den r
  | .plain ctes isRec distinct targets sources wher group gs having order limits locked, p, ho, h => by
    simp only [Ok] at ho
    obtain ⟨h1, h2, h3, h4, rfl⟩ := ho
    simp only [parseSel, Option.bind_eq_some_iff, Option.map_eq_some_iff] at h
    obtain ⟨cs, hcs, ss, hss, kind, _, ds, hds, ts, hts, w, hw, g, hg, hv, hhv, o, hor, lim, hlim, rfl⟩ := h
    have hg' : g.map val = group.map den := by
      unfold parseGroup at hg
      split at hg
      · simp at hg
      · exact exprs_eq hx hg
    rw [value, meaning, ctes_meaning m hx has ctes h1 hcs, froms_meaning m hx has sources h2 hss, distinct_eq hx hds, targets_eq hx h3 hts, cond_eq hx hw, hg', cond_eq hx hhv,
      sort_eq hx hor, plain_eq h4 hlim]
    simp
  | .setop ctes isRec kind all l r order limits, p, ho, h => by
    simp only [Ok] at ho
    obtain ⟨h1, h2, h3, h4, h5⟩ := ho
    simp only [parseSel, Option.bind_eq_some_iff, Option.map_eq_some_iff] at h
    obtain ⟨cs, hcs, l', hl, r', hr, o, hor, lim, hlim, rfl⟩ := h
    rw [value, meaning, ctes_meaning m hx has ctes h1 hcs, sel_meaning m hx has l h3 hl, sel_meaning m hx has r h4 hr, sort_eq hx hor, set_eq h5 hlim, setOp_eq h2]
  | .values rows tail, p, ho, h => by simp [parseSel] at h

end

/-- **C161.** A translated statement has the meaning of the statement in PostgreSQL's syntax tree, whatever the constructs of SQL compute, if the translation of expressions keeps their
values. -/
theorem C161_meaning_partial (m : Sem D R) {x : Exprs E X} {den : E → D} {val : X → D} (hx : Sound x den val) (has : String → Bool) (r : RSel E) (p : PSel X) (hr : Ok x.isStar r)
    (h : parseSel x has r = some p) : value m val p = meaning m den r := sel_meaning m hx has r hr h

/-- The covered expressions of C159. -/
abbrev Covered (Q : Type) := { r : PExp.RE Q // PExpProps.Ok r }

/-- The translation of expressions in the parser. -/
def realExprs (Q : Type) : Exprs (Covered Q) (Qal.Expr Q) where
  pe r := PExp.parse r.1
  pp r := PExp.parseCondition r.1
  isStar r := match r.1 with
    | .star none => true
    | _ => false
  starExpr := .star none

/-- **C161.** The translation of expressions that is modelled for C159 meets the assumption. -/
theorem C161_expressions_partial {Q V : Type} (m : PExpProps.Sql Q V) : Sound (realExprs Q) (fun r => PExpProps.meaning m r.1) (PExpProps.value m) where
  expr r v h := PExpProps.C159_meaning_partial m r.1 v r.2 h
  cond r v h := (PExpProps.C159_condition_partial m r.1 v r.2 h).2
  star r h := by
    obtain ⟨r, hr⟩ := r
    unfold realExprs at h
    simp only at h
    split at h
    · simp [realExprs, PExpProps.value, PExpProps.meaning]
    · simp at h

/-- Expressions for examples: numbers, where 0 is `*`. -/
def numbers : Exprs Nat Nat where
  pe n := some n
  pp n := some n
  isStar n := n == 0
  starExpr := 0

theorem numbers_sound : Sound numbers (fun n => n) (fun n => n) where
  expr _ _ h := by simp [numbers] at h; exact h.symm
  cond _ _ h := by simp [numbers] at h; exact h.symm
  star e h := by simp [numbers] at h; simp [numbers, h]

def noLimits : RLimits := ⟨.default, none, none⟩

/-- `WITH w AS MATERIALIZED (VALUES (1, 2)) SELECT DISTINCT * FROM s.t AS a LEFT JOIN w ON 3, LATERAL (SELECT 4 AS c FROM t WHERE 5 UNION ALL SELECT 6) AS b WHERE 7 GROUP BY 8 HAVING 9
ORDER BY 10 DESC NULLS LAST LIMIT 11 OFFSET 12`. -/
def sample : RSel Nat := .plain (.cons "w" ["x", "y"] .always (.values [[1, 2]] false) .nil) false (some []) [(0, none)]
  (.cons (.join .left (.table "s" "t" (some "a") [] false) (.table "" "w" none [] false) (some 3) [] false none)
    (.cons (.sub true (.setop .nil false .union true
      (.plain .nil false none [(4, some "c")] (.cons (.table "" "t" none [] false) .nil) (some 5) [] false none [] noLimits false)
      (.plain .nil false none [(6, none)] .nil none [] false none [] noLimits false) [] noLimits) (some "b") []) .nil))
  (some 7) [8] false (some 9) [⟨10, .desc, .last⟩] ⟨.count, some (.const 11), some (.const 12)⟩ false

example : Ok numbers.isStar sample ∧ (parseSel numbers (fun s => s == "limit") sample).isSome = true := by
  refine ⟨?_, by decide +kernel⟩
  simp [sample, Ok, CtesOk, FromsOk, FromOk, NameOk, LimitOk, noLimits, numbers]

/-- A statement without clauses except for the FROM entry. -/
def fromOnly (f : RFrom Nat) : RSel Nat := .plain .nil false none [(0, none)] (.cons f .nil) none [] false none [] noLimits false

/-- A statement with LIMIT. -/
def limited (l : RLimits) : RSel Nat := .plain .nil false none [(0, none)] (.cons (.table "" "t" none [] false) .nil) none [] false none [] l false

/-- An interpretation that writes down the constructs. -/
def probe : Sem Nat (List String) where
  table _ n a cols only := n :: a.toList ++ cols ++ (if only then ["only"] else [])
  joinOn _ l r _ := l ++ ["join"] ++ r
  cross l r := l ++ ["cross"] ++ r
  joinUsing _ l r cols := l ++ ["using"] ++ r ++ cols
  naturalJoin _ l r := l ++ ["natural"] ++ r
  aliased r a := r ++ [a]
  derived lat r a cols := (if lat then ["lateral"] else []) ++ r ++ a.toList ++ cols
  func fs ord a cols := (fs.map fun _ => "f") ++ (if ord then ["ord"] else []) ++ a.toList ++ cols
  values rows := rows.map fun _ => "row"
  valuesTail r := r ++ ["tail"]
  select w _ _ _ fs _ _ _ _ win := (w.map fun i => i.cols ++ i.rows).flatten ++ fs.flatten ++ [if win.skip = 0 then "" else "offset", if win.rows.isSome then "limit" else "", if win.ties then "ties" else ""]
  setop _ _ _ all l r _ _ := l ++ (if all then ["all"] else []) ++ r
  lock r := r ++ ["lock"]
  other := []


/-- The text of the queries contains `limit`. -/
def someLimit : String → Bool := fun s => s == "limit"

/-- **C161 is false in general**: USING, NATURAL and the alias of a join have no influence on the result. So an inner join with USING and a natural join become cross joins. -/
theorem C161_join_violated : (∀ (x : Exprs E X) (has : String → Bool) (k : JKind) (l r : RFrom E) (q : Option E) (us : List String) (nat : Bool) (a : Option String),
      parseFrom x has (.join k l r q us nat a) = parseFrom x has (.join k l r q [] false none)) ∧
    (∃ p, parseSel numbers someLimit (fromOnly (.join .inner (.table "" "a" none [] false) (.table "" "b" none [] false) none ["id"] false none)) = some p ∧
      value probe (fun n => n) p ≠ meaning probe (fun n => n) (fromOnly (.join .inner (.table "" "a" none [] false) (.table "" "b" none [] false) none ["id"] false none))) ∧
    ∃ p, parseSel numbers someLimit (fromOnly (.join .inner (.table "" "a" none [] false) (.table "" "b" none [] false) none [] true none)) = some p ∧
      value probe (fun n => n) p ≠ meaning probe (fun n => n) (fromOnly (.join .inner (.table "" "a" none [] false) (.table "" "b" none [] false) none [] true none)) :=
  ⟨fun _ _ _ _ _ _ _ _ _ => by simp only [parseFrom], ⟨_, by with_unfolding_all rfl, by decide +kernel⟩, ⟨_, by with_unfolding_all rfl, by decide +kernel⟩⟩

/-- **C161 is false in general**: column aliases and ONLY have no influence on the result, likewise WITH ORDINALITY and all but the first function of ROWS FROM. -/
theorem C161_aliases_violated : (∀ (x : Exprs E X) (has : String → Bool) (s n : String) (a : Option String) (cols : List String) (only : Bool),
      parseFrom x has (.table s n a cols only) = parseFrom x has (.table s n a [] false)) ∧
    (∀ (x : Exprs E X) (has : String → Bool) (lat : Bool) (q : RSel E) (a : Option String) (cols : List String), (∀ rows tail, q ≠ .values rows tail) →
      parseFrom x has (.sub lat q a cols) = parseFrom x has (.sub lat q a [])) ∧
    (∀ (x : Exprs E X) (has : String → Bool) (f : E) (fs : List E) (ord : Bool) (a : Option String) (cols : List String),
      parseFrom x has (.func (f :: fs) ord a cols) = parseFrom x has (.func [f] false a [])) ∧
    (∀ (x : Exprs E X) (has : String → Bool) (n : String) (cols : List String) (mat : Mat) (q : RSel E) (rest : RCtes E), (∀ rows tail, q ≠ .values rows tail) →
      parseCtes x has (.cons n cols mat q rest) = parseCtes x has (.cons n [] mat q rest)) ∧
    ∃ p, parseSel numbers someLimit (fromOnly (.table "" "t" (some "a") ["c"] true)) = some p ∧
      value probe (fun n => n) p ≠ meaning probe (fun n => n) (fromOnly (.table "" "t" (some "a") ["c"] true)) := by
  refine ⟨fun _ _ _ _ _ _ _ => by simp only [parseFrom], ?_, fun _ _ _ _ _ _ _ => by simp only [parseFrom], ?_, ⟨_, by with_unfolding_all rfl, by decide +kernel⟩⟩
  · intro x has lat q a cols hq
    cases q with
    | values rows tail => exact absurd rfl (hq rows tail)
    | plain => simp only [parseFrom]
    | setop => simp only [parseFrom]
  · intro x has n cols mat q rest hq
    cases q with
    | values rows tail => exact absurd rfl (hq rows tail)
    | plain => simp only [parseCtes]
    | setop => simp only [parseCtes]

/-- **C161 is false in general**: ORDER BY, LIMIT and OFFSET of VALUES have no influence on the result: `(VALUES (1), (2) LIMIT 1) AS v` has two rows after the translation. -/
theorem C161_values_violated : (∀ (x : Exprs E X) (has : String → Bool) (lat : Bool) (rows : List (List E)) (tail : Bool) (a : Option String) (cols : List String),
      parseFrom x has (.sub lat (.values rows tail) a cols) = parseFrom x has (.sub lat (.values rows false) a cols)) ∧
    (∀ (x : Exprs E X) (has : String → Bool) (n : String) (cols : List String) (mat : Mat) (rows : List (List E)) (tail : Bool) (rest : RCtes E),
      parseCtes x has (.cons n cols mat (.values rows tail) rest) = parseCtes x has (.cons n cols mat (.values rows false) rest)) ∧
    ∃ p, parseSel numbers someLimit (fromOnly (.sub false (.values [[1], [2]] true) (some "v") [])) = some p ∧
      value probe (fun n => n) p ≠ meaning probe (fun n => n) (fromOnly (.sub false (.values [[1], [2]] true) (some "v") [])) :=
  ⟨fun _ _ _ _ _ _ _ => by simp only [parseFrom], fun _ _ _ _ _ _ _ _ => by simp only [parseCtes], ⟨_, by with_unfolding_all rfl, by decide +kernel⟩⟩

/-- **C161 is false in general**: INTERSECT ALL and EXCEPT ALL become INTERSECT and EXCEPT. -/
theorem C161_all_violated : (∀ (x : Exprs E X) (has : String → Bool) (ctes : RCtes E) (isRec : Bool) (k : SetKind) (all : Bool) (l r : RSel E) (o : List (RSort E)) (lim : RLimits), k ≠ .union →
      parseSel x has (.setop ctes isRec k all l r o lim) = parseSel x has (.setop ctes isRec k false l r o lim)) ∧
    ∃ p, parseSel numbers someLimit (.setop .nil false .except true (limited noLimits) (limited noLimits) [] noLimits) = some p ∧
      value probe (fun n => n) p ≠ meaning probe (fun n => n) (.setop .nil false .except true (limited noLimits) (limited noLimits) [] noLimits) := by
  refine ⟨?_, ⟨_, by with_unfolding_all rfl, by decide +kernel⟩⟩
  intro x has ctes isRec k all l r o lim hk
  cases k with
  | union => exact absurd rfl hk
  | intersect => simp only [parseSel, parseSetOp]
  | except => simp only [parseSel, parseSetOp]

/-- **C161 is false in general**: `FETCH FIRST n ROWS WITH TIES` is dropped together with the OFFSET. -/
theorem C161_ties_violated : (∀ (x : Exprs E X) (has : String → Bool) (c o : Option RLimit) ctes isRec distinct targets sources wher group gs having order locked,
      parseSel x has (.plain ctes isRec distinct targets sources wher group gs having order ⟨.withTies, c, o⟩ locked) =
        parseSel x has (.plain ctes isRec distinct targets sources wher group gs having order ⟨.default, none, none⟩ locked)) ∧
    ∃ p, parseSel numbers someLimit (limited ⟨.withTies, some (.const 5), some (.const 2)⟩) = some p ∧
      value probe (fun n => n) p ≠ meaning probe (fun n => n) (limited ⟨.withTies, some (.const 5), some (.const 2)⟩) :=
  ⟨fun _ _ _ _ _ _ _ _ _ _ _ _ _ _ _ => by simp [parseSel, plainLimit], ⟨_, by with_unfolding_all rfl, by decide +kernel⟩⟩

/-- **C161 is false in general**: LIMIT 0 is not accepted, and LIMIT 0 OFFSET n becomes OFFSET n without limit. -/
theorem C161_limit_zero_violated : (∀ (has : String → Bool), parseLimit has ⟨.count, some (.const 0), none⟩ = none) ∧
    (∀ (has : String → Bool) (n : Int) (l : PLimit), parseLimit has ⟨.count, some (.const 0), some (.const n)⟩ = some (some l) → limitWindow (some l) = ⟨n, none, false⟩) ∧
    ∃ p, parseSel numbers someLimit (limited ⟨.count, some (.const 0), some (.const 2)⟩) = some p ∧
      value probe (fun n => n) p ≠ meaning probe (fun n => n) (limited ⟨.count, some (.const 0), some (.const 2)⟩) := by
  refine ⟨?_, ?_, ⟨_, by with_unfolding_all rfl, by decide +kernel⟩⟩
  · intro has
    cases h : fetchDirection has true <;> simp [parseLimit, parseCount, parseOffset, h]
  · intro has n l h
    cases h2 : fetchDirection has true <;> simp [parseLimit, parseCount, parseOffset, h2] at h
    subst h
    rfl

/-- **C161 is false in general**: FOR UPDATE and FOR SHARE are dropped. -/
theorem C161_locking_violated (x : Exprs E X) (has : String → Bool) ctes isRec distinct targets sources wher group gs having order limits (locked : Bool) :
    parseSel x has (.plain ctes isRec distinct targets sources wher group gs having order limits locked) =
      parseSel x has (.plain ctes isRec distinct targets sources wher group gs having order limits false) := by
  simp only [parseSel]

/-! ### The class of the statement -/

/-- The FROM entry is a table, or a join. -/
def tableEntry : RFrom E → Bool
  | .table _ _ _ _ _ => true
  | _ => false

def joinEntry : RFrom E → Bool
  | .join _ _ _ _ _ _ _ => true
  | _ => false

/-- The FROM entries as a list. -/
def entries : RFroms E → List (RFrom E)
  | .nil => []
  | .cons f fs => f :: entries fs

theorem parseFrom_kind {x : Exprs E X} {has : String → Bool} {f : RFrom E} {p : PFrom X} (h : parseFrom x has f = some p) : isTable p = tableEntry f ∧ isJoin p = joinEntry f := by
  cases f with
  | table => simp [parseFrom] at h; subst h; simp [isTable, isJoin, tableEntry, joinEntry]
  | join k l r q us nat a =>
    simp only [parseFrom, Option.bind_eq_some_iff] at h
    obtain ⟨l', _, r', _, h⟩ := h
    unfold mkJoin at h
    split at h
    · simp at h; subst h; simp [isTable, isJoin, tableEntry, joinEntry]
    · simp only [Option.map_eq_some_iff] at h
      obtain ⟨_, _, rfl⟩ := h
      simp [isTable, isJoin, tableEntry, joinEntry]
    · simp at h
  | sub lat q a cols =>
    cases q with
    | values rows tail =>
      simp only [parseFrom, Option.map_eq_some_iff] at h
      obtain ⟨_, _, rfl⟩ := h
      cases a <;> simp [mkValues, isTable, isJoin, tableEntry, joinEntry]
    | plain =>
      simp only [parseFrom, Option.map_eq_some_iff] at h
      obtain ⟨_, _, rfl⟩ := h
      simp [isTable, isJoin, tableEntry, joinEntry]
    | setop =>
      simp only [parseFrom, Option.map_eq_some_iff] at h
      obtain ⟨_, _, rfl⟩ := h
      simp [isTable, isJoin, tableEntry, joinEntry]
  | func fns ord a cols =>
    cases fns with
    | nil => simp [parseFrom] at h
    | cons f fs =>
      simp only [parseFrom, Option.map_eq_some_iff] at h
      obtain ⟨_, _, rfl⟩ := h
      simp [isTable, isJoin, tableEntry, joinEntry]
  | other => simp [parseFrom] at h

theorem parseFroms_kind {x : Exprs E X} {has : String → Bool} : ∀ (fs : RFroms E) {ps : List (PFrom X)}, parseFroms x has fs = some ps →
    ps.map isTable = (entries fs).map tableEntry ∧ ps.map isJoin = (entries fs).map joinEntry
  | .nil, ps, h => by simp [parseFroms] at h; subst h; simp [entries]
  | .cons f fs, ps, h => by
    simp only [parseFroms, Option.bind_eq_some_iff, Option.map_eq_some_iff] at h
    obtain ⟨p, hp, l, hl, rfl⟩ := h
    have h1 := parseFrom_kind hp
    have h2 := parseFroms_kind fs hl
    simp [entries, h1.1, h1.2, h2.1, h2.2]

theorem flags_eq : ∀ (l : List (PFrom X)) (p j m : Bool), (p = true → j = true → m = true) → flags l (p, j, m) =
    (p || l.any isTable, j || l.any isJoin, m || ((p || l.any isTable) && (j || l.any isJoin)) || l.any fun s => !isTable s && !isJoin s)
  | [], p, j, m, h => by cases p <;> cases j <;> cases m <;> simp_all [flags]
  | s :: l, p, j, m, h => by
    unfold flags
    have ex : isTable s = true → isJoin s = false := by cases s <;> simp [isTable, isJoin]
    by_cases ht : isTable s = true
    · have hj := ex ht
      rw [if_pos ht, flags_eq l true j (m || j) (by simp_all)]
      simp only [List.any_cons, ht, hj]
      cases p <;> cases j <;> cases m <;> simp_all
    · rw [if_neg ht]
      rw [Bool.not_eq_true] at ht
      by_cases hj : isJoin s = true
      · rw [if_pos hj, flags_eq l p true (m || p) (by simp_all)]
        simp only [List.any_cons, ht, hj]
        cases p <;> cases j <;> cases m <;> simp_all
      · rw [if_neg hj, flags_eq l p j true (by simp)]
        rw [Bool.not_eq_true] at hj
        simp only [List.any_cons, ht, hj]
        cases p <;> cases j <;> cases m <;> simp_all

theorem fromKind_eq (ss : List (PFrom X)) : fromKind ss = if ss.all isTable then some .implicit else if ss.all isJoin then (if ss.length = 1 then some .explicit else none) else some .mixed := by
  have hex : ∀ s : PFrom X, isTable s = true → isJoin s = false := by intro s; cases s <;> simp [isTable, isJoin]
  unfold fromKind
  rw [flags_eq ss false false false (by simp)]
  simp only [Bool.false_or]
  by_cases h1 : ss.all isTable = true
  · rw [if_pos h1]
    rw [List.all_eq_true] at h1
    have hj : ss.any isJoin = false := by
      rw [List.any_eq_false]
      intro s hs
      simp [hex s (h1 s hs)]
    have ho : (ss.any fun s => !isTable s && !isJoin s) = false := by
      rw [List.any_eq_false]
      intro s hs
      simp [h1 s hs]
    simp [hj, ho]
  · rw [if_neg h1]
    by_cases h2 : ss.all isJoin = true
    · rw [if_pos h2]
      rw [List.all_eq_true] at h2
      have ht : ss.any isTable = false := by
        rw [List.any_eq_false]
        intro s hs hc
        have := hex s hc
        rw [h2 s hs] at this
        simp at this
      have ho : (ss.any fun s => !isTable s && !isJoin s) = false := by
        rw [List.any_eq_false]
        intro s hs
        simp [h2 s hs]
      have hj : ss.any isJoin = true := by
        rw [List.any_eq_true]
        cases ss with
        | nil => simp at h1
        | cons s l => exact ⟨s, List.mem_cons_self, h2 s List.mem_cons_self⟩
      simp [ht, ho, hj]
    · rw [if_neg h2]
      have : ((ss.any isTable && ss.any isJoin) || ss.any fun s => !isTable s && !isJoin s) = true := by
        rw [Bool.or_eq_true]
        by_cases ho : (ss.any fun s => !isTable s && !isJoin s) = true
        · exact .inr ho
        · left
          rw [Bool.not_eq_true, List.any_eq_false] at ho
          simp only [Bool.and_eq_true, List.any_eq_true]
          rw [List.all_eq_true] at h1 h2
          push Not at h1 h2
          obtain ⟨s, hs, h1⟩ := h1
          obtain ⟨t, ht, h2⟩ := h2
          have hs' := ho s hs
          have ht' := ho t ht
          refine ⟨⟨t, ht, ?_⟩, ⟨s, hs, ?_⟩⟩
          · cases h : isTable t <;> cases h' : isJoin t <;> simp_all
          · cases h : isTable s <;> cases h' : isJoin s <;> simp_all
      rw [this]
      cases ss.any isTable <;> cases ss.any isJoin <;> rfl

/-- **C162.** The class of a parsed statement: without FROM there is no FROM clause; it is implicit exactly if all FROM entries are tables, explicit exactly if the only FROM entry is a join, and
mixed otherwise. -/
theorem C162_class_partial (x : Exprs E X) (has : String → Bool) {ctes isRec distinct targets} {sources : RFroms E} {wher group gs having order limits locked} {ctes' isRec' distinct' targets'} {kind : Option FromKind}
    {sources' wher' group' having' order' limit'}
    (h : parseSel x has (.plain ctes isRec distinct targets sources wher group gs having order limits locked) =
      some (.plain ctes' isRec' distinct' targets' kind sources' wher' group' having' order' limit')) :
    (kind = none ↔ entries sources = []) ∧ (kind = some .implicit ↔ entries sources ≠ [] ∧ ∀ f ∈ entries sources, tableEntry f = true) ∧
    (kind = some .explicit ↔ ∃ f, entries sources = [f] ∧ joinEntry f = true) ∧
    (kind = some .mixed ↔ entries sources ≠ [] ∧ (¬ ∀ f ∈ entries sources, tableEntry f = true) ∧ ¬ ∃ f, entries sources = [f] ∧ joinEntry f = true) := by
  simp only [parseSel, Option.bind_eq_some_iff, Option.map_eq_some_iff] at h
  obtain ⟨cs, _, ss, hss, k, hk, ds, _, ts, _, w, _, g, _, hv, _, o, _, lim, _, h⟩ := h
  simp only [PSel.plain.injEq] at h
  obtain ⟨_, _, _, _, rfl, _⟩ := h
  obtain ⟨ht, hj⟩ := parseFroms_kind sources hss
  have hlen : ss.length = (entries sources).length := by have := congrArg List.length ht; simpa using this
  have hat : ss.all isTable = (entries sources).all tableEntry := by
    have := congrArg (fun l => l.all id) ht
    simpa [List.all_map, Function.comp_def] using this
  have haj : ss.all isJoin = (entries sources).all joinEntry := by
    have := congrArg (fun l => l.all id) hj
    simpa [List.all_map, Function.comp_def] using this
  have hne : ss.isEmpty = (entries sources).isEmpty := by
    rw [Bool.eq_iff_iff, List.isEmpty_iff_length_eq_zero, List.isEmpty_iff_length_eq_zero, hlen]
  have hex : ∀ f : RFrom E, tableEntry f = true → joinEntry f = false := by intro f; cases f <;> simp [tableEntry, joinEntry]
  rw [fromKind_eq, hlen, hat, haj, hne] at hk
  generalize entries sources = es at hk ⊢
  cases es with
  | nil => simp at hk; subst hk; simp
  | cons f es =>
    simp only [List.isEmpty_cons, Bool.false_eq_true, if_false, Option.map_eq_some_iff] at hk
    obtain ⟨k', hk', rfl⟩ := hk
    by_cases h1 : (f :: es).all tableEntry = true
    · rw [if_pos h1] at hk'
      simp at hk'
      subst hk'
      have hf : joinEntry f = false := hex f (List.all_eq_true.1 h1 f List.mem_cons_self)
      have := List.all_eq_true.1 h1
      simp [hf]
      simpa using this
    · rw [if_neg h1] at hk'
      have h1' : ¬ ∀ g ∈ f :: es, tableEntry g = true := fun hc => h1 (List.all_eq_true.2 hc)
      by_cases h2 : (f :: es).all joinEntry = true
      · rw [if_pos h2] at hk'
        split at hk'
        · rename_i hl
          simp at hk'
          subst hk'
          have : es = [] := by simpa using hl
          subst this
          have hf : joinEntry f = true := by simpa using h2
          simp [hf]
          simpa using h1'
        · simp at hk'
      · rw [if_neg h2] at hk'
        simp at hk'
        subst hk'
        have h2' : ¬ ∃ g, f :: es = [g] ∧ joinEntry g = true := by
          rintro ⟨g, hg, hj⟩
          simp only [List.cons.injEq] at hg
          obtain ⟨rfl, rfl⟩ := hg
          exact h2 (by simp [hj])
        exact ⟨by simp, iff_of_false (by simp) (fun hc => h1' hc.2), iff_of_false (by simp) h2', iff_of_true rfl ⟨by simp, h1', h2'⟩⟩

example : ∃ p, parseSel numbers someLimit sample = some p ∧ (match p with
    | .plain _ _ _ _ k _ _ _ _ _ _ => k
    | _ => none) = some .mixed := ⟨_, by with_unfolding_all rfl, rfl⟩

/-- **C162 is false in general**: statements whose FROM clause consists of several joins, as in `FROM a JOIN b ON … , c JOIN d ON …`, are not accepted. -/
theorem C162_two_joins_violated (x : Exprs E X) (has : String → Bool) (ctes isRec distinct targets) (sources : RFroms E) (wher group gs having order limits locked)
    (h1 : 2 ≤ (entries sources).length) (h2 : ∀ f ∈ entries sources, joinEntry f = true) :
    parseSel x has (.plain ctes isRec distinct targets sources wher group gs having order limits locked) = none := by
  cases hs : parseFroms x has sources with
  | none => cases hc : parseCtes x has ctes <;> simp [parseSel, hs, hc]
  | some ss =>
    obtain ⟨ht, hj⟩ := parseFroms_kind sources hs
    have hlen : ss.length = (entries sources).length := by have := congrArg List.length ht; simpa using this
    have haj : ss.all isJoin = true := by
      have := congrArg (fun l => l.all id) hj
      simp only [List.all_map, Function.comp_def, id] at this
      rw [this, List.all_eq_true]
      exact h2
    have hat : ss.all isTable = false := by
      have hex : ∀ s : PFrom X, isJoin s = true → isTable s = false := by intro s; cases s <;> simp [isTable, isJoin]
      cases ss with
      | nil => rw [← hlen] at h1; simp at h1
      | cons s l => simp [hex s (List.all_eq_true.1 haj s List.mem_cons_self)]
    have hk : fromKind ss = none := by
      rw [fromKind_eq, hat, haj]
      simp
      omega
    have he : ss ≠ [] := by
      rintro rfl
      rw [← hlen] at h1
      simp at h1
    cases hc : parseCtes x has ctes <;> simp [parseSel, hs, hc, hk, he]

/-! ### Which statements are accepted -/

/-- The expression, or condition, can be translated. -/
def ExprOk (x : Exprs E X) (e : E) : Prop := ∃ v, x.pe e = some v

def CondOk (x : Exprs E X) : Option E → Prop
  | none => True
  | some e => ∃ v, x.pp e = some v

/-- Only constants. -/
def Constant : Option RLimit → Prop
  | none => True
  | some (.const _) => True
  | _ => False

/-- How the text of the query may introduce the number of rows: words with exactly one space between them. -/
def TextOk (has : String → Bool) : Prop := has "limit" = true ∨ has "fetch first" = true ∨ has "fetch next" = true ∨ has "fetch prior" = true ∨ has "fetch last" = true

/-- LIMIT and OFFSET must be constants, and LIMIT 0 needs an OFFSET. -/
def LimitSupported (has : String → Bool) (l : RLimits) : Prop :=
  Constant l.count ∧ Constant l.offset ∧ (l.count ≠ none → TextOk has) ∧ ((l.count ≠ none ∧ l.count ≠ some (.const 0)) ∨ l.offset ≠ none)

/-- The targets: `*`, or a list of expressions that is not empty. -/
def TargetsOk (x : Exprs E X) (l : List (E × Option String)) : Prop := l ≠ [] ∧ ((∃ t, l = [t] ∧ x.isStar t.1 = true) ∨ ∀ t ∈ l, ExprOk x t.1)

/-- Several joins and nothing else. -/
def OnlyJoins (l : List (RFrom E)) : Prop := 2 ≤ l.length ∧ ∀ f ∈ l, joinEntry f = true

mutual

/-- The FROM entries that can be translated. -/
def FromSupported (x : Exprs E X) (has : String → Bool) : RFrom E → Prop
  | .table _ _ _ _ _ => True
  | .join k l r q _ _ _ => FromSupported x has l ∧ FromSupported x has r ∧ CondOk x q ∧ (q.isNone = true → k = .inner)
  | .sub _ (.values rows _) _ _ => ∀ row ∈ rows, ∀ e ∈ row, ExprOk x e
  | .sub _ q _ _ => Supported x has q
  | .func fns _ _ _ => ∃ f l, fns = f :: l ∧ ExprOk x f
  | .other => False

def FromsSupported (x : Exprs E X) (has : String → Bool) : RFroms E → Prop
  | .nil => True
  | .cons f fs => FromSupported x has f ∧ FromsSupported x has fs

def CtesSupported (x : Exprs E X) (has : String → Bool) : RCtes E → Prop
  | .nil => True
  | .cons _ _ _ (.values rows _) rest => (∀ row ∈ rows, ∀ e ∈ row, ExprOk x e) ∧ CtesSupported x has rest
  | .cons _ _ _ q rest => Supported x has q ∧ CtesSupported x has rest

/-- The statements that can be translated. -/
def Supported (x : Exprs E X) (has : String → Bool) : RSel E → Prop
  | .plain ctes _ distinct targets sources wher group gs having order limits _ =>
    CtesSupported x has ctes ∧ FromsSupported x has sources ∧ ¬ OnlyJoins (entries sources) ∧ (∀ l, distinct = some l → ∀ e ∈ l, ExprOk x e) ∧ TargetsOk x targets ∧ CondOk x wher ∧
    (gs = false ∧ ∀ e ∈ group, ExprOk x e) ∧ CondOk x having ∧ (∀ s ∈ order, ExprOk x s.key ∧ s.dir ≠ .usingOp) ∧ (limits.option = .count → LimitSupported has limits)
  | .setop ctes _ _ _ l r order limits =>
    CtesSupported x has ctes ∧ Supported x has l ∧ Supported x has r ∧ (∀ s ∈ order, ExprOk x s.key ∧ s.dir ≠ .usingOp) ∧
    (limits.option = .count → LimitSupported has limits ∨ (limits.count = none ∧ limits.offset = none))
  | .values _ _ => False

end

theorem isSome_bind {A B : Type} (o : Option A) (f : A → Option B) : (o.bind f).isSome = true ↔ ∃ a, o = some a ∧ (f a).isSome = true := by
  cases o <;> simp

theorem exists_some_and {A : Type} {o : Option A} {p q : Prop} (ho : o.isSome = true ↔ p) {f : A → Prop} (hf : ∀ a, o = some a → (f a ↔ q)) : (∃ a, o = some a ∧ f a) ↔ p ∧ q := by
  rw [← ho]
  constructor
  · rintro ⟨a, ha, h⟩
    exact ⟨by simp [ha], (hf a ha).1 h⟩
  · rintro ⟨hp, hq⟩
    obtain ⟨a, ha⟩ := Option.isSome_iff_exists.1 hp
    exact ⟨a, ha, (hf a ha).2 hq⟩

theorem mapM_isSome {A B : Type} (f : A → Option B) : ∀ l : List A, (l.mapM f).isSome = true ↔ ∀ a ∈ l, ∃ b, f a = some b
  | [] => by simp
  | a :: l => by
    have ih := mapM_isSome f l
    simp only [List.mapM_cons, Option.bind_eq_bind, isSome_bind, Option.pure_def, Option.isSome_some, and_true, List.forall_mem_cons]
    rw [← ih, ← Option.isSome_iff_exists (x := List.mapM f l)]
    constructor
    · rintro ⟨b, hb, h⟩
      exact ⟨⟨b, hb⟩, h⟩
    · rintro ⟨⟨b, hb⟩, h⟩
      exact ⟨b, hb, h⟩

theorem rows_isSome (x : Exprs E X) (rows : List (List E)) : (parseRows x rows).isSome = true ↔ ∀ row ∈ rows, ∀ e ∈ row, ExprOk x e := by
  unfold parseRows
  rw [mapM_isSome]
  constructor
  · intro h row hr
    exact (mapM_isSome x.pe row).1 (Option.isSome_iff_exists.2 (h row hr))
  · intro h row hr
    exact Option.isSome_iff_exists.1 ((mapM_isSome x.pe row).2 (h row hr))

theorem cond_isSome (x : Exprs E X) (o : Option E) : (parseCond x o).isSome = true ↔ CondOk x o := by
  cases o with
  | none => simp [parseCond, CondOk]
  | some e => simp [parseCond, CondOk, Option.isSome_iff_exists]

theorem distinct_isSome (x : Exprs E X) (o : Option (List E)) : (parseDistinct x o).isSome = true ↔ ∀ l, o = some l → ∀ e ∈ l, ExprOk x e := by
  cases o with
  | none => simp [parseDistinct]
  | some l =>
    simp only [parseDistinct, Option.isSome_map, mapM_isSome, Option.some.injEq, forall_eq']
    rfl

theorem sort_isSome (x : Exprs E X) (l : List (RSort E)) : (l.mapM (parseSort x)).isSome = true ↔ ∀ s ∈ l, ExprOk x s.key ∧ s.dir ≠ .usingOp := by
  rw [mapM_isSome]
  have : ∀ s : RSort E, (∃ b, parseSort x s = some b) ↔ ExprOk x s.key ∧ s.dir ≠ .usingOp := by
    intro s
    unfold parseSort ExprOk
    rw [← Option.isSome_iff_exists, isSome_bind, ← Option.isSome_iff_exists]
    refine exists_some_and Iff.rfl fun k _ => ?_
    rw [Option.isSome_map]
    cases s.dir <;> simp [parseDir]
  simp only [this]

theorem targets_isSome (x : Exprs E X) (l : List (E × Option String)) : (parseTargets x l).isSome = true ↔ TargetsOk x l := by
  unfold parseTargets TargetsOk
  split
  · simp
  · rename_i e a
    by_cases hs : x.isStar e = true
    · simp [hs]
    · simp [hs, ExprOk, Option.isSome_iff_exists]
  · rename_i h1 h2
    rw [mapM_isSome]
    have hne : l ≠ [] := by rintro rfl; exact h1 rfl
    have hns : ¬ ∃ t, l = [t] ∧ x.isStar t.1 = true := by
      rintro ⟨⟨e, a⟩, rfl, _⟩
      exact h2 e a rfl
    simp only [hne, hns, ne_eq, not_false_eq_true, true_and, false_or]
    unfold ExprOk
    simp only [Option.map_eq_some_iff]
    constructor
    · intro h t ht
      obtain ⟨_, v, hv, _⟩ := h t ht
      exact ⟨v, hv⟩
    · intro h t ht
      obtain ⟨v, hv⟩ := h t ht
      exact ⟨_, v, hv, rfl⟩

theorem direction_isSome (has : String → Bool) (c : Bool) : (fetchDirection has c).isSome = true ↔ (c = true → TextOk has) := by
  unfold fetchDirection TextOk
  cases c <;> cases h1 : has "limit" <;> cases h2 : has "fetch first" <;> cases h3 : has "fetch next" <;> cases h4 : has "fetch prior" <;> cases h5 : has "fetch last" <;> simp

theorem limit_isSome (has : String → Bool) (l : RLimits) (hn : ¬ (l.count = none ∧ l.offset = none)) :
    ((parseLimit has l).bind fun r => r.map some).isSome = true ↔ LimitSupported has l := by
  unfold parseLimit LimitSupported
  have hne : (l.count.isNone && l.offset.isNone) = false := by
    cases hc : l.count <;> cases ho : l.offset <;> simp_all
  rw [hne]
  simp only [Bool.false_eq_true, if_false]
  have hd := direction_isSome has l.count.isSome
  cases hfd : fetchDirection has l.count.isSome with
  | none =>
    rw [hfd] at hd
    simp at hd
    have : ¬ ((parseCount l.count).bind fun n => (parseOffset l.offset).bind fun o => (none : Option String).bind fun d =>
        if (n.isNone && o.isNone) = true then none else some (some (⟨n, o, d⟩ : PLimit))).isSome = true := by
      cases parseCount l.count <;> cases parseOffset l.offset <;> simp
    cases hc : l.count with
    | none => rw [hc] at hd; simp at hd
    | some c =>
      have hd' : ¬ TextOk has := hd.2
      cases parseCount (some c) <;> cases parseOffset l.offset <;> simp [hd']
  | some d =>
    rw [hfd] at hd
    have hd' : l.count ≠ none → TextOk has := by
      intro hc
      refine hd.1 rfl ?_
      cases hc' : l.count with
      | none => exact absurd hc' hc
      | some c => rfl
    have : (l.count ≠ none → TextOk has) ↔ True := iff_true_intro hd'
    rw [this]
    rcases hc : l.count with _ | (c | _ | _) <;> rcases ho : l.offset with _ | (o | _ | _) <;> simp [parseCount, parseOffset, Constant]
    by_cases h0 : c = 0 <;> simp [h0]

theorem plain_isSome (has : String → Bool) (l : RLimits) : (plainLimit has l).isSome = true ↔ (l.option = .count → LimitSupported has l) := by
  unfold plainLimit
  split
  · rename_i ho
    simp only [ho, true_implies]
    by_cases hn : l.count = none ∧ l.offset = none
    · have : ¬ LimitSupported has l := by
        rintro ⟨_, _, _, h⟩
        rcases h with h | h
        · exact h.1 hn.1
        · exact h hn.2
      simp [parseLimit, hn.1, hn.2, this]
    · exact limit_isSome has l hn
  · rename_i ho
    simp [ho]

theorem set_isSome (has : String → Bool) (l : RLimits) : (setLimit has l).isSome = true ↔ (l.option = .count → LimitSupported has l ∨ (l.count = none ∧ l.offset = none)) := by
  unfold setLimit
  split
  · rename_i ho
    simp only [ho, true_implies]
    by_cases hn : l.count = none ∧ l.offset = none
    · simp [parseLimit, hn.1, hn.2]
    · rw [← limit_isSome has l hn]
      simp only [hn, or_false]
      have hnn : parseLimit has l ≠ some none := by
        unfold parseLimit
        have hne : (l.count.isNone && l.offset.isNone) = false := by
          cases hc : l.count <;> cases ho : l.offset <;> simp_all
        rw [hne]
        simp only [Bool.false_eq_true, if_false]
        intro hc
        simp only [Option.bind_eq_some_iff] at hc
        obtain ⟨_, _, _, _, _, _, hc⟩ := hc
        split at hc <;> simp at hc
      cases h : parseLimit has l with
      | none => simp
      | some r =>
        cases r with
        | none => exact absurd h hnn
        | some r => simp
  · rename_i ho
    simp [ho]

theorem kind_isSome {x : Exprs E X} {has : String → Bool} {sources : RFroms E} {ss : List (PFrom X)} (hss : parseFroms x has sources = some ss) :
    (if ss.isEmpty = true then some none else (fromKind ss).map some).isSome = true ↔ ¬ OnlyJoins (entries sources) := by
  obtain ⟨ht, hj⟩ := parseFroms_kind sources hss
  have hlen : ss.length = (entries sources).length := by have := congrArg List.length ht; simpa using this
  have haj : ss.all isJoin = (entries sources).all joinEntry := by
    have := congrArg (fun l => l.all id) hj
    simpa [List.all_map, Function.comp_def] using this
  have hex : ∀ s : PFrom X, isJoin s = true → isTable s = false := by intro s; cases s <;> simp [isTable, isJoin]
  unfold OnlyJoins
  rw [← hlen]
  have hall : (∀ f ∈ entries sources, joinEntry f = true) ↔ ss.all isJoin = true := by rw [haj, List.all_eq_true]
  rw [hall]
  cases ss with
  | nil => simp
  | cons s l =>
    simp only [List.isEmpty_cons, Bool.false_eq_true, if_false, Option.isSome_map, fromKind_eq]
    by_cases h2 : (s :: l).all isJoin = true
    · have h1 : (s :: l).all isTable = false := by simp [hex s (List.all_eq_true.1 h2 s List.mem_cons_self)]
      rw [h1, h2]
      cases l with
      | nil => simp
      | cons t l => simp
    · by_cases h1 : (s :: l).all isTable = true
      · simp only [h1, if_true, h2]; simp
      · simp only [h1, h2]; simp

theorem join_isSome (x : Exprs E X) (k : JKind) (l r : PFrom X) (q : Option E) : (mkJoin x k l r q).isSome = true ↔ CondOk x q ∧ (q.isNone = true → k = .inner) := by
  cases q with
  | none => cases k <;> simp [mkJoin, parseJoin, CondOk]
  | some q => cases k <;> simp [mkJoin, parseJoin, CondOk, Option.isSome_iff_exists]

mutual

theorem from_isSome (x : Exprs E X) (has : String → Bool) : ∀ r : RFrom E, (parseFrom x has r).isSome = true ↔ FromSupported x has r
  | .table s n a cols only => by simp [parseFrom, FromSupported]
  | .join k l r q us nat a => by
    simp only [parseFrom, isSome_bind, FromSupported]
    exact exists_some_and (from_isSome x has l) fun l' _ => exists_some_and (from_isSome x has r) fun r' _ => join_isSome x k l' r' q
  | .sub lat (.values rows tail) a cols => by simp only [parseFrom, Option.isSome_map, FromSupported, rows_isSome]
  | .sub lat (.plain c1 c2 c3 c4 c5 c6 c7 c8 c9 c10 c11 c12) a cols => by
    simp only [parseFrom, Option.isSome_map, FromSupported]
    exact sel_isSome x has _
  | .sub lat (.setop c1 c2 c3 c4 c5 c6 c7 c8) a cols => by
    simp only [parseFrom, Option.isSome_map, FromSupported]
    exact sel_isSome x has _
  | .func fns ord a cols => by
    simp only [parseFrom, FromSupported]
    cases fns with
    | nil => simp
    | cons f l => simp [ExprOk, Option.isSome_iff_exists]
  | .other => by simp [parseFrom, FromSupported]

theorem froms_isSome (x : Exprs E X) (has : String → Bool) : ∀ r : RFroms E, (parseFroms x has r).isSome = true ↔ FromsSupported x has r
  | .nil => by simp [parseFroms, FromsSupported]
  | .cons f fs => by
    simp only [parseFroms, isSome_bind, Option.isSome_map, FromsSupported]
    exact exists_some_and (from_isSome x has f) fun _ _ => froms_isSome x has fs

theorem ctes_isSome (x : Exprs E X) (has : String → Bool) : ∀ r : RCtes E, (parseCtes x has r).isSome = true ↔ CtesSupported x has r
  | .nil => by simp [parseCtes, CtesSupported]
  | .cons n cols mat (.values rows tail) rest => by
    simp only [parseCtes, isSome_bind, Option.isSome_map, CtesSupported]
    exact exists_some_and (rows_isSome x rows) fun _ _ => ctes_isSome x has rest
  | .cons n cols mat (.plain c1 c2 c3 c4 c5 c6 c7 c8 c9 c10 c11 c12) rest => by
    simp only [parseCtes, isSome_bind, Option.isSome_map, CtesSupported]
    exact exists_some_and (sel_isSome x has _) fun _ _ => ctes_isSome x has rest
  | .cons n cols mat (.setop c1 c2 c3 c4 c5 c6 c7 c8) rest => by
    simp only [parseCtes, isSome_bind, Option.isSome_map, CtesSupported]
    exact exists_some_and (sel_isSome x has _) fun _ _ => ctes_isSome x has rest

theorem sel_isSome (x : Exprs E X) (has : String → Bool) : ∀ r : RSel E, (parseSel x has r).isSome = true ↔ Supported x has r
  | .plain ctes isRec distinct targets sources wher group gs having order limits locked => by
    simp only [parseSel, isSome_bind, Option.isSome_map, Supported]
    have hg : (parseGroup x gs group).isSome = true ↔ (gs = false ∧ ∀ e ∈ group, ExprOk x e) := by
      unfold parseGroup
      cases gs with
      | true => simp
      | false => simp only [Bool.false_eq_true, if_false, mapM_isSome, true_and]; rfl
    exact exists_some_and (ctes_isSome x has ctes) fun _ _ => exists_some_and (froms_isSome x has sources) fun ss hss => exists_some_and (kind_isSome hss) fun _ _ =>
      exists_some_and (distinct_isSome x distinct) fun _ _ => exists_some_and (targets_isSome x targets) fun _ _ => exists_some_and (cond_isSome x wher) fun _ _ =>
      exists_some_and hg fun _ _ => exists_some_and (cond_isSome x having) fun _ _ => exists_some_and (sort_isSome x order) fun _ _ => plain_isSome has limits
  | .setop ctes isRec k all l r order limits => by
    simp only [parseSel, isSome_bind, Option.isSome_map, Supported]
    exact exists_some_and (ctes_isSome x has ctes) fun _ _ => exists_some_and (sel_isSome x has l) fun _ _ => exists_some_and (sel_isSome x has r) fun _ _ =>
      exists_some_and (sort_isSome x order) fun _ _ => set_isSome has limits
  | .values rows tail => by simp [parseSel, Supported]

end

/-- **C163.** Exactly the supported statements are translated; all others raise an error. -/
theorem C163_accepted (x : Exprs E X) (has : String → Bool) (r : RSel E) : (parseSel x has r).isSome = true ↔ Supported x has r := sel_isSome x has r

example : Supported numbers someLimit sample := (C163_accepted numbers someLimit sample).1 (by decide +kernel)

/-- LIMIT ALL, LIMIT 0 and a LIMIT that is written as `FETCH  FIRST` (two spaces) are not accepted. -/
example : ¬ Supported numbers someLimit (limited ⟨.count, some .all, none⟩) ∧ ¬ Supported numbers someLimit (limited ⟨.count, some (.const 0), none⟩) ∧
    ¬ Supported numbers (fun s => s == "fetch  first") (limited ⟨.count, some (.const 5), none⟩) := by
  simp only [← C163_accepted]
  decide +kernel

end PB.PStmtProps
