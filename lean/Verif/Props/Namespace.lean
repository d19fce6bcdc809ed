import Verif.Model.Namespace

/-!
Properties of the resolution of names in the SQL parser (C156-C159).
-/

set_option linter.unusedSimpArgs false
set_option linter.unusedVariables false
set_option linter.unusedSectionVars false
set_option linter.unnecessarySimpa false
set_option linter.unnecessarySeqFocus false
set_option linter.dupNamespace false

namespace PB.NspProps

open PB PB.Nsp

/-! ### The column cache -/

/-- A scope without its cache. -/
def strip (s : Scope) : Scope := { s with cache := [] }

/-- The parser without column cache. -/
def uncached (x : Cfg) : Cfg := { x with caching := false }

theorem strip_subs {s t : Scope} (h : strip s = strip t) : s.subs = t.subs ∧ s.ctes = t.ctes ∧ s.setops = t.setops ∧ s.ctx = t.ctx ∧ s.tables = t.tables ∧
    s.shape = t.shape ∧ s.produced = t.produced := by
  simp only [strip, Scope.mk.injEq] at h
  tauto

theorem resolveTable_strip {a b : List Scope} (h : a.map strip = b.map strip) (k : Name) : resolveTable a k = resolveTable b k := by
  induction a generalizing b with
  | nil => cases b with
    | nil => rfl
    | cons => simp at h
  | cons s a ih => cases b with
    | nil => simp at h
    | cons t b =>
      simp only [List.map_cons, List.cons.injEq] at h
      obtain ⟨h1, h2⟩ := h
      obtain ⟨e1, e2, e3, e4, e5, e6, e7⟩ := strip_subs h1
      simp only [resolveTable, e5, e2, ih h2]

theorem lookupNs_strip {a b : List Scope} (h : a.map strip = b.map strip) (k : Name) : lookupNs a k = lookupNs b k := by
  induction a generalizing b with
  | nil => cases b with
    | nil => rfl
    | cons => simp at h
  | cons s a ih => cases b with
    | nil => simp at h
    | cons t b =>
      simp only [List.map_cons, List.cons.injEq] at h
      obtain ⟨h1, h2⟩ := h
      obtain ⟨e1, e2, e3, e4, e5, e6, e7⟩ := strip_subs h1
      simp only [lookupNs, e1, e2, ih h2]

theorem provides_strip {x : Cfg} {s s' : Scope} {up up' : List Scope} (h : strip s = strip s') (hu : up.map strip = up'.map strip) (k : Name) (t : Tab) :
    provides x s up k t = provides (uncached x) s' up' k t := by
  obtain ⟨e1, e2, e3, e4, e5, e6, e7⟩ := strip_subs h
  unfold provides
  have : columnsOf x t = columnsOf (uncached x) t := rfl
  rw [this, e1, e2]
  cases t.ident with
  | none => rfl
  | some i => simp only [lookupNs_strip (a := s :: up) (b := s' :: up') (by simp [h, hu])]

theorem starAll_strip {x : Cfg} {a b : List Scope} (h : a.map strip = b.map strip) (ts : List Tab) : starAll x a ts = starAll (uncached x) b ts := by
  induction ts with
  | nil => rfl
  | cons t ts ih =>
    have : starColumns x a t = starColumns (uncached x) b t := by
      unfold starColumns
      simp only [lookupNs_strip h]
      rfl
    simp only [starAll, ih, this]

/-- The cache contains what the lookup would find. -/
def CacheOk (x : Cfg) (up : List Scope) (s : Scope) : Prop := ∀ k t, s.cache.get? k = some t → s.ctx.find? (provides x s up k) = some t

theorem cacheOk_nil (x : Cfg) (up : List Scope) (s : Scope) (h : s.cache = []) : CacheOk x up s := by
  intro k t hk; rw [h] at hk; simp [Dict.get?] at hk

/-- The same result and the same scope up to the cache. -/
def Agree {α : Type} (x : Cfg) (up : List Scope) (o o' : Option (α × Scope)) : Prop :=
  match o, o' with
  | none, none => True
  | some (a, s), some (a', s') => a = a' ∧ strip s = strip s' ∧ CacheOk x up s
  | _, _ => False

theorem Agree.none {α : Type} {x : Cfg} {up : List Scope} : Agree (α := α) x up none none := trivial

theorem Agree.bind {α β : Type} {x : Cfg} {up up2 : List Scope} {o o' : Option (α × Scope)} {f f' : α × Scope → Option (β × Scope)} (h : Agree x up o o')
    (hf : ∀ a s s', strip s = strip s' → CacheOk x up s → Agree x up2 (f (a, s)) (f' (a, s'))) : Agree x up2 (o.bind f) (o'.bind f') := by
  match o, o', h with
  | .none, .none, _ => trivial
  | some (a, s), some (a', s'), h =>
    obtain ⟨rfl, h1, h2⟩ := h
    exact hf a s s' h1 h2
  | .none, some _, h => exact h.elim
  | some _, .none, h => exact h.elim

theorem Agree.map {α β : Type} {x : Cfg} {up up2 : List Scope} {o o' : Option (α × Scope)} {f f' : α × Scope → β × Scope} (h : Agree x up o o')
    (hf : ∀ a s s', strip s = strip s' → CacheOk x up s → (f (a, s)).1 = (f' (a, s')).1 ∧ strip (f (a, s)).2 = strip (f' (a, s')).2 ∧ CacheOk x up2 (f (a, s)).2) :
    Agree x up2 (o.map f) (o'.map f') := by
  match o, o', h with
  | .none, .none, _ => trivial
  | some (a, s), some (a', s'), h =>
    obtain ⟨rfl, h1, h2⟩ := h
    exact hf a s s' h1 h2
  | .none, some _, h => exact h.elim
  | some _, .none, h => exact h.elim

theorem agree_ref (x : Cfg) {up up' : List Scope} {s s' : Scope} (hu : up.map strip = up'.map strip) (h : strip s = strip s') (hc : CacheOk x up s) (r : Raw) :
    Agree x up (parseRef x up s r) (parseRef (uncached x) up' s' r) := by
  have hch : (s :: up).map strip = (s' :: up').map strip := by simp [h, hu]
  cases r with
  | star => exact ⟨rfl, h, hc⟩
  | qstar t => exact ⟨by rw [resolveTable_strip hch], h, hc⟩
  | qcol t c =>
    simp only [parseRef, resolveTable_strip hch]
    cases resolveTable (s' :: up') t with
    | none => trivial
    | some tab => exact ⟨rfl, h, hc⟩
  | col c =>
    obtain ⟨e1, e2, e3, e4, e5, e6, e7⟩ := strip_subs h
    have hpr : provides x s up c = provides (uncached x) s' up' c := funext fun t => provides_strip h hu c t
    simp only [parseRef, lookupColumn]
    by_cases hp : c ∈ s.produced
    · simp only [hp, e7 ▸ hp, if_true]; exact ⟨rfl, h, hc⟩
    · have hp' : c ∉ s'.produced := e7 ▸ hp
      simp only [hp, hp', if_false, show (uncached x).caching = false from rfl, Bool.false_eq_true]
      rw [← hpr, ← e4]
      have hset : ∀ t, s.ctx.find? (provides x s up c) = some t → CacheOk x up { s with cache := s.cache.set c t } := by
        intro t ht k t' hk
        rw [Dict.get?_set] at hk
        split at hk
        · rename_i hkc; simp at hk; subst hk; subst hkc; exact ht
        · exact hc k t' hk
      cases hx : x.caching with
      | false =>
        simp only [Bool.false_eq_true, if_false]
        cases s.ctx.find? (provides x s up c) with
        | none => exact ⟨rfl, h, hc⟩
        | some t => exact ⟨rfl, h, hc⟩
      | true =>
        simp only [if_true]
        cases hg : s.cache.get? c with
        | some t => rw [hc c t hg]; exact ⟨rfl, h, hc⟩
        | none =>
          cases hf : s.ctx.find? (provides x s up c) with
          | none => exact ⟨rfl, h, hc⟩
          | some t => exact ⟨rfl, by rw [← h]; rfl, hset t hf⟩

theorem projShape_strip {x : Cfg} {s s' : Scope} {up up' : List Scope} (hu : up.map strip = up'.map strip) (h : strip s = strip s') (e : PExpr Bound Tab) (als : Option Name) :
    projShape x s up e als = projShape (uncached x) s' up' e als := by
  obtain ⟨e1, e2, e3, e4, e5, e6, e7⟩ := strip_subs h
  have hch : (s :: up).map strip = (s' :: up').map strip := by simp [h, hu]
  unfold projShape
  simp only [starAll_strip hch, e4]

theorem targetsShape_strip {x : Cfg} {s s' : Scope} {up up' : List Scope} (hu : up.map strip = up'.map strip) (h : strip s = strip s') :
    (ts : PTargets Bound Tab) → targetsShape x s up ts = targetsShape (uncached x) s' up' ts
  | .nil => rfl
  | .cons e als ts => by simp only [targetsShape, projShape_strip hu h, targetsShape_strip hu h ts]

theorem nameColumns_shape {s s' : Scope} (h : s.shape = s'.shape) (cols : List Name) : (nameColumns s cols).shape = (nameColumns s' cols).shape := by
  unfold nameColumns; split <;> simp [h]

theorem stripped {s s' : Scope} (e1 : s.subs = s'.subs) (e2 : s.ctes = s'.ctes) (e3 : s.setops = s'.setops) (e4 : s.ctx = s'.ctx) (e5 : s.tables = s'.tables)
    (e6 : s.shape = s'.shape) (e7 : s.produced = s'.produced) : strip s = strip s' := by
  simp [strip, e1, e2, e3, e4, e5, e6, e7]

mutual

theorem agree_expr (x : Cfg) {up up' : List Scope} (hu : up.map strip = up'.map strip) {s s' : Scope} (h : strip s = strip s') (hc : CacheOk x up s) :
    (e : PExpr Raw RangeVar) → Agree x up (parseExpr x up s e) (parseExpr (uncached x) up' s' e)
  | .ref r => by
    simp only [parseExpr]
    exact (agree_ref x hu h hc r).map fun a s s' h hc => ⟨rfl, h, hc⟩
  | .op args => by
    simp only [parseExpr]
    exact (agree_exprs x hu h hc args).map fun a s s' h hc => ⟨rfl, h, hc⟩
  | .sub q tests => by
    simp only [parseExpr]
    split
    · trivial
    · exact (agree_query x (up := s :: up) (up' := s' :: up') (by simp [h, hu]) rfl (cacheOk_nil x _ _ rfl) q).bind fun a _ _ _ _ =>
        (agree_exprs x hu h hc tests).map fun a s s' h hc => ⟨rfl, h, hc⟩

theorem agree_exprs (x : Cfg) {up up' : List Scope} (hu : up.map strip = up'.map strip) {s s' : Scope} (h : strip s = strip s') (hc : CacheOk x up s) :
    (es : PExprs Raw RangeVar) → Agree x up (parseExprs x up s es) (parseExprs (uncached x) up' s' es)
  | .nil => ⟨rfl, h, hc⟩
  | .cons e es => by
    simp only [parseExprs]
    exact (agree_expr x hu h hc e).bind fun a s s' h hc => (agree_exprs x hu h hc es).map fun a s s' h hc => ⟨rfl, h, hc⟩

theorem agree_from (x : Cfg) {up up' : List Scope} (hu : up.map strip = up'.map strip) {s s' : Scope} (h : strip s = strip s') (hc : CacheOk x up s) :
    (f : PFrom Raw RangeVar) → Agree x up (parseFrom x up s f) (parseFrom (uncached x) up' s' f)
  | .rel v => by
    obtain ⟨e1, e2, e3, e4, e5, e6, e7⟩ := strip_subs h
    have : rangeTable (s :: up) v = rangeTable (s' :: up') v := by
      unfold rangeTable; rw [resolveTable_strip (a := s :: up) (b := s' :: up') (by simp [h, hu])]
    simp only [parseFrom, this]
    exact ⟨rfl, stripped e1 e2 e3 (by simp [register, e4]) (by simp [register, e5]) e6 e7, cacheOk_nil x _ _ rfl⟩
  | .join l r quals => by
    simp only [parseFrom]
    exact (agree_from x hu h hc l).bind fun a s s' h hc => (agree_from x hu h hc r).bind fun a s s' h hc =>
      (agree_exprs x hu h hc quals).map fun a s s' h hc => ⟨rfl, h, hc⟩
  | .sub q none cols => by simp only [parseFrom]; trivial
  | .sub q (some a) cols => by
    obtain ⟨e1, e2, e3, e4, e5, e6, e7⟩ := strip_subs h
    have hs : strip (openSub s a) = strip (openSub s' a) := stripped (by simp [openSub, e1]) e2 e3 (by simp [openSub, e4]) (by simp [openSub, e5]) e6 e7
    simp only [parseFrom]
    refine (agree_query x (up := openSub s a :: up) (up' := openSub s' a :: up') (by simp [hs, hu]) rfl (cacheOk_nil x _ _ rfl) q).map fun o t t' ht _ => ⟨rfl, ?_, cacheOk_nil x _ _ rfl⟩
    have hsh : (if isValues q then nameColumns t cols else t).shape = (if isValues q then nameColumns t' cols else t').shape := by
      have := (strip_subs ht).2.2.2.2.2.1
      split
      · exact nameColumns_shape this cols
      · exact this
    exact stripped (by simp [openSub, e1, hsh]) e2 e3 (by simp [openSub, e4]) (by simp [openSub, e5]) e6 e7
  | .func e als => by
    simp only [parseFrom]
    exact (agree_expr x hu h hc e).map fun a s s' h hc => ⟨rfl, h, hc⟩

theorem agree_froms (x : Cfg) {up up' : List Scope} (hu : up.map strip = up'.map strip) {s s' : Scope} (h : strip s = strip s') (hc : CacheOk x up s) :
    (fs : PFroms Raw RangeVar) → Agree x up (parseFroms x up s fs) (parseFroms (uncached x) up' s' fs)
  | .nil => ⟨rfl, h, hc⟩
  | .cons f fs => by
    simp only [parseFroms]
    exact (agree_from x hu h hc f).bind fun a s s' h hc => (agree_froms x hu h hc fs).map fun a s s' h hc => ⟨rfl, h, hc⟩

theorem agree_targets (x : Cfg) {up up' : List Scope} (hu : up.map strip = up'.map strip) {s s' : Scope} (h : strip s = strip s') (hc : CacheOk x up s) :
    (ts : PTargets Raw RangeVar) → Agree x up (parseTargets x up s ts) (parseTargets (uncached x) up' s' ts)
  | .nil => ⟨rfl, h, hc⟩
  | .cons e als ts => by
    simp only [parseTargets]
    exact (agree_expr x hu h hc e).bind fun a s s' h hc => (agree_targets x hu h hc ts).map fun a s s' h hc => ⟨rfl, h, hc⟩

theorem agree_ctes (x : Cfg) {up up' : List Scope} (hu : up.map strip = up'.map strip) {s s' : Scope} (h : strip s = strip s') (hc : CacheOk x up s) :
    (cs : PCtes Raw RangeVar) → Agree x up (parseCtes x up s cs) (parseCtes (uncached x) up' s' cs)
  | .nil => ⟨rfl, h, hc⟩
  | .cons n q cols cs => by
    obtain ⟨e1, e2, e3, e4, e5, e6, e7⟩ := strip_subs h
    have hs : strip (openCte s n) = strip (openCte s' n) := stripped e1 (by simp [openCte, e2]) e3 e4 e5 e6 e7
    simp only [parseCtes]
    refine (agree_query x (up := openCte s n :: up) (up' := openCte s' n :: up') (by simp [hs, hu]) rfl (cacheOk_nil x _ _ rfl) q).bind fun o t t' ht _ => ?_
    have hsh : (if isValues q then nameColumns t cols else t).shape = (if isValues q then nameColumns t' cols else t').shape := by
      have := (strip_subs ht).2.2.2.2.2.1
      split
      · exact nameColumns_shape this cols
      · exact this
    refine (agree_ctes x hu ?_ (cacheOk_nil x _ _ rfl) cs).map fun a s s' h hc => ⟨rfl, h, hc⟩
    exact stripped e1 (by simp [openCte, e2, hsh]) e3 e4 e5 e6 e7

theorem agree_query (x : Cfg) {up up' : List Scope} (hu : up.map strip = up'.map strip) {s s' : Scope} (h : strip s = strip s') (hc : CacheOk x up s) :
    (q : PQuery Raw RangeVar) → Agree x up (parseQuery x up s q) (parseQuery (uncached x) up' s' q)
  | .select cs fs dist ts rest order => by
    simp only [parseQuery]
    refine (agree_ctes x hu h hc cs).bind fun _ s s' h hc => (agree_froms x hu h hc fs).bind fun _ s s' h hc => (agree_exprs x hu h hc dist).bind fun _ s s' h hc =>
      (agree_targets x hu h hc ts).bind fun d s s' h hc => ?_
    simp only [targetsShape_strip hu h]
    cases targetsShape (uncached x) s' up' d with
    | none => trivial
    | some sh =>
      obtain ⟨e1, e2, e3, e4, e5, e6, e7⟩ := strip_subs h
      simp only [Option.bind_some]
      have hst : strip { s with shape := sh, produced := s.produced ++ aliases ts } = strip { s' with shape := sh, produced := s'.produced ++ aliases ts } :=
        stripped e1 e2 e3 e4 e5 rfl (by simp [e7])
      have hco : CacheOk x up { s with shape := sh, produced := s.produced ++ aliases ts } := fun k t hk => hc k t hk
      apply Agree.bind (agree_exprs x hu hst hco rest)
      intro _ s s' h hc
      exact (agree_exprs x hu h hc order).map fun a s s' h hc => ⟨rfl, h, hc⟩
  | .setop cs l r order => by
    simp only [parseQuery]
    split
    · trivial
    · refine (agree_ctes x hu h hc cs).bind fun _ s s' h hc => ?_
      obtain ⟨e1, e2, e3, e4, e5, e6, e7⟩ := strip_subs h
      refine (agree_query x ?_ rfl (cacheOk_nil x _ _ rfl) l).bind fun _ t t' ht _ => ?_
      · simp only [List.map_cons, hu, List.cons.injEq, and_true]
        exact stripped e1 e2 (by simp [e3]) e4 e5 e6 e7
      · have hsh := (strip_subs ht).2.2.2.2.2.1
        refine (agree_query x ?_ rfl (cacheOk_nil x _ _ rfl) r).bind fun _ w w' hw _ => ?_
        · simp only [List.map_cons, hu, List.cons.injEq, and_true]
          exact stripped e1 e2 (by simp [e3, hsh]) e4 e5 e6 e7
        · have hsw := (strip_subs hw).2.2.2.2.2.1
          refine (agree_exprs x hu ?_ (cacheOk_nil x _ _ rfl) order).map fun a s s' h hc => ⟨rfl, ?_, fun k t hk => hc k t hk⟩
          · exact stripped e1 e2 (by simp [e3, hsh, hsw]) e4 e5 e6 e7
          · obtain ⟨g1, g2, g3, g4, g5, g6, g7⟩ := strip_subs h
            exact stripped g1 g2 g3 g4 g5 (by simp [g3]) g7
  | .values rows => by
    simp only [parseQuery]
    exact (agree_exprs x hu h hc rows).map fun a s s' h hc => ⟨rfl, h, hc⟩

end

/-- **C157.** The column cache has no influence: for every statement and every schema, the parser yields the same result (or exception) as without the cache. -/
theorem C157_cache (x : Cfg) (q : PQuery Raw RangeVar) : parse x q = parse { x with caching := false } q := by
  unfold parse
  split
  · rfl
  · have h := agree_query x (up := []) (up' := []) rfl (s := {}) (s' := {}) rfl (cacheOk_nil x _ _ rfl) q
    unfold uncached at h
    match h1 : parseQuery x [] {} q, h2 : parseQuery { x with caching := false } [] {} q, h with
    | none, none, _ => rfl
    | some (a, s), some (a', s'), h => simp [h.1]
    | none, some _, h => exact h.elim
    | some _, none, h => exact h.elim

/-! ### Specification: the names of SQL

The specification resolves the names in a statement by the rules of SQL. It does not use any of the parser's data structures. It yields no result for statements that are
invalid or to which the theorem below does not apply; the comments say which. -/

/-- The role of a name in a statement: a table of the database that is never given an alias (`plain`) or always (`renamed`), a WITH query that is never given an alias
(`cte`) or always (`cteRenamed`), an alias of a table or WITH query, or the name of a subquery in a FROM clause. -/
inductive Role where
  | plain | renamed | cte | cteRenamed | tableAlias | subAlias
deriving DecidableEq

/-- A table in a FROM clause: the name by which it can be referenced, the reference that stands for it, its columns, whether it is a renamed WITH query and whether it
is a subquery whose definition is not complete yet. -/
structure Entry where
  vis : Name
  tab : Tab
  cols : List Name
  renamedCte : Bool := false
  hole : Bool := false

/-- The tables of one FROM clause. -/
abbrev Frame := List Entry

/-- The table with a given name in the innermost FROM clause that has one. -/
def visible (fs : List Frame) (t : Name) : Option Entry := match fs.flatten.find? fun e => e.vis == t with
  | some e => if e.hole then none else some e
  | none => none

/-- References: `t.c` and `t.*` refer to the visible table `t`. An unqualified column `c` refers to the table in the FROM clause of the same query that has this column; if
there is none in any FROM clause around, it stays without table. (Not covered: columns that belong to an outer query, that have the name of a column alias of the
query in `own`, or that belong to a renamed WITH query.) -/
def sqlRef (f : Frame) (outer : List Frame) (own : List Name) : Raw → Option Bound
  | .col c => match f.filter fun e => decide (c ∈ e.cols) with
    | [e] => if c ∈ own ∨ e.renamedCte = true then none else some (.col c (some e.tab))
    | [] => if outer.any fun g => g.any fun e => decide (c ∈ e.cols) then none else some (.col c none)
    | _ => none
  | .qcol t c => (visible (f :: outer) t).map fun e => .col c (some e.tab)
  | .star => some (.star none)
  | .qstar t => (visible (f :: outer) t).map fun e => .star (some e.tab)

/-- Tables in a FROM clause: a WITH query in scope or a table of the database. The names must have the roles in which they are used and must be unique in the clause. -/
def sqlRel (ro : Name → Role) (sch : Name → List Name) (ctes : List (Name × List Name)) (f : Frame) (v : RangeVar) : Option Entry :=
  if f.any fun e => e.vis == v.als.getD v.name then none
  else match ctes.lookup v.name, v.als with
    | some cols, none => if ro v.name = .cte then some { vis := v.name, tab := ⟨none, some v.name, true⟩, cols := cols } else none
    | some cols, some a =>
      if ro v.name = .cteRenamed ∧ ro a = .tableAlias then some { vis := a, tab := ⟨some v.name, some a, true⟩, cols := cols, renamedCte := true } else none
    | none, none => if ro v.name = .plain then some { vis := v.name, tab := ⟨some v.name, none, false⟩, cols := sch v.name } else none
    | none, some a => if ro v.name = .renamed ∧ ro a = .tableAlias then some { vis := a, tab := ⟨some v.name, some a, false⟩, cols := sch v.name } else none

/-- The output columns of one target of a SELECT clause: its alias, the name of the column, or all columns of the tables. Other expressions have no name. -/
def sqlTarget (f : Frame) (outer : List Frame) (e : PExpr Raw RangeVar) (als : Option Name) : List Name :=
  match als with
  | some a => [a]
  | none => match e with
    | .ref (.col c) => [c]
    | .ref (.qcol _ c) => [c]
    | .ref .star => f.flatMap Entry.cols
    | .ref (.qstar t) => match visible (f :: outer) t with
      | some e => e.cols
      | none => []
    | _ => []

/-- The column aliases of a SELECT clause. -/
def ownNames : PTargets Raw RangeVar → List Name
  | .nil => []
  | .cons _ none ts => ownNames ts
  | .cons _ (some a) ts => a :: ownNames ts

/-- VALUES lists. -/
def isRows : PQuery Raw RangeVar → Bool
  | .values _ => true
  | _ => false

/-- The output columns of a SELECT clause. -/
def sqlShape (f : Frame) (outer : List Frame) : PTargets Raw RangeVar → List Name
  | .nil => []
  | .cons e als ts => sqlTarget f outer e als ++ sqlShape f outer ts

mutual

/-- Expressions. A subquery is resolved with the FROM clauses around it. -/
def sqlExpr (ro : Name → Role) (sch : Name → List Name) (ctes : List (Name × List Name)) (outer : List Frame) (f : Frame) (own : List Name) :
    PExpr Raw RangeVar → Option (PExpr Bound Tab)
  | .ref r => (sqlRef f outer own r).map .ref
  | .op args => (sqlExprs ro sch ctes outer f own args).map .op
  | .sub q tests =>
    if isRows q then none
    else (sqlQuery ro sch ctes (f :: outer) q).bind fun o => (sqlExprs ro sch ctes outer f own tests).map fun p => .sub o.1 p

/-- Lists of expressions. -/
def sqlExprs (ro : Name → Role) (sch : Name → List Name) (ctes : List (Name × List Name)) (outer : List Frame) (f : Frame) (own : List Name) :
    PExprs Raw RangeVar → Option (PExprs Bound Tab)
  | .nil => some .nil
  | .cons e es => (sqlExpr ro sch ctes outer f own e).bind fun o => (sqlExprs ro sch ctes outer f own es).map fun p => .cons o p

/-- The items of an ORDER BY clause: a column alias of the query refers to the output column. -/
def sqlOrder (ro : Name → Role) (sch : Name → List Name) (ctes : List (Name × List Name)) (outer : List Frame) (f : Frame) (own : List Name) :
    PExprs Raw RangeVar → Option (PExprs Bound Tab)
  | .nil => some .nil
  | .cons (.ref (.col c)) es =>
    (if c ∈ own then some (.ref (.col c none)) else (sqlRef f outer own (.col c)).map .ref).bind fun o =>
      (sqlOrder ro sch ctes outer f own es).map fun p => .cons o p
  | .cons e es => (sqlExpr ro sch ctes outer f own e).bind fun o => (sqlOrder ro sch ctes outer f own es).map fun p => .cons o p

/-- Entries of a FROM clause with the entries before them. The name of a subquery must not be visible yet. (Not covered: table functions and column aliases of
subqueries; a subquery can refer to the entries before it, as with LATERAL.) -/
def sqlFrom (ro : Name → Role) (sch : Name → List Name) (ctes : List (Name × List Name)) (outer : List Frame) (f : Frame) :
    PFrom Raw RangeVar → Option (PFrom Bound Tab × Frame)
  | .rel v => (sqlRel ro sch ctes f v).map fun e => (.rel e.tab, f ++ [e])
  | .join l r quals => (sqlFrom ro sch ctes outer f l).bind fun a => (sqlFrom ro sch ctes outer a.2 r).bind fun b =>
    (sqlExprs ro sch ctes outer b.2 [] quals).map fun c => (.join a.1 b.1 c, b.2)
  | .sub q als cols => match als with
    | none => none
    | some a =>
      if ro a ≠ .subAlias ∨ ((f :: outer).any fun g => g.any fun e => e.vis == a) = true ∨ (isRows q = false ∧ cols ≠ []) then none
      else (sqlQuery ro sch ctes ((f ++ [{ vis := a, tab := ⟨none, some a, true⟩, cols := [], hole := true }]) :: outer) q).map fun o =>
        (.sub o.1 (some a) cols, f ++ [{ vis := a, tab := ⟨none, some a, true⟩, cols := if isRows q then cols else o.2 }])
  | .func _ _ => none

/-- The entries of a FROM clause from left to right. -/
def sqlFroms (ro : Name → Role) (sch : Name → List Name) (ctes : List (Name × List Name)) (outer : List Frame) (f : Frame) :
    PFroms Raw RangeVar → Option (PFroms Bound Tab × Frame)
  | .nil => some (.nil, f)
  | .cons g gs => (sqlFrom ro sch ctes outer f g).bind fun a => (sqlFroms ro sch ctes outer a.2 gs).map fun b => (.cons a.1 b.1, b.2)

/-- The targets of a SELECT clause. -/
def sqlTargets (ro : Name → Role) (sch : Name → List Name) (ctes : List (Name × List Name)) (outer : List Frame) (f : Frame) :
    PTargets Raw RangeVar → Option (PTargets Bound Tab)
  | .nil => some .nil
  | .cons e als ts => (sqlExpr ro sch ctes outer f [] e).bind fun o => (sqlTargets ro sch ctes outer f ts).map fun p => .cons o als p

/-- WITH queries: each one is visible in the queries after it. (Not covered: recursive queries, names that hide another WITH query, column aliases.) -/
def sqlCtes (ro : Name → Role) (sch : Name → List Name) (ctes : List (Name × List Name)) (outer : List Frame) :
    PCtes Raw RangeVar → Option (PCtes Bound Tab × List (Name × List Name))
  | .nil => some (.nil, ctes)
  | .cons n q cols cs =>
    if (ro n ≠ .cte ∧ ro n ≠ .cteRenamed) ∨ ctes.lookup n ≠ none ∨ (isRows q = false ∧ cols ≠ []) then none
    else (sqlQuery ro sch ctes ([] :: outer) q).bind fun o =>
      (sqlCtes ro sch ((n, if isRows q then cols else o.2) :: ctes) outer cs).map fun p => (.cons n o.1 cols p.1, p.2)

/-- Queries with their output columns. `outer` are the FROM clauses around the query. -/
def sqlQuery (ro : Name → Role) (sch : Name → List Name) (ctes : List (Name × List Name)) (outer : List Frame) :
    PQuery Raw RangeVar → Option (PQuery Bound Tab × List Name)
  | .select cs fs dist ts rest order =>
    (sqlCtes ro sch ctes outer cs).bind fun a => (sqlFroms ro sch a.2 outer [] fs).bind fun b =>
      (sqlExprs ro sch a.2 outer b.2 [] dist).bind fun c => (sqlTargets ro sch a.2 outer b.2 ts).bind fun d =>
        (sqlExprs ro sch a.2 outer b.2 (ownNames ts) rest).bind fun e => (sqlOrder ro sch a.2 outer b.2 (ownNames ts) order).map fun g =>
          (.select a.1 b.1 c d e g, sqlShape b.2 outer ts)
  | .setop cs l r order =>
    if isRows l || isRows r then none
    else (sqlCtes ro sch ctes outer cs).bind fun a => (sqlQuery ro sch a.2 ([] :: outer) l).bind fun b => (sqlQuery ro sch a.2 ([] :: outer) r).bind fun c =>
      (sqlExprs ro sch a.2 outer [] [] order).map fun d => (.setop a.1 b.1 c.1 d, b.2)
  | .values rows => (sqlExprs ro sch ctes outer [] [] rows).map fun o => (.values o, [])

end

/-- A whole statement. -/
def sql (ro : Name → Role) (sch : Name → List Name) (q : PQuery Raw RangeVar) : Option (PQuery Bound Tab) :=
  if isRows q then none else (sqlQuery ro sch [] [] q).map Prod.fst

/-! ### The parser follows the rules of SQL -/

theorem rows_eq (q : PQuery Raw RangeVar) : isRows q = isValues q := by cases q <;> rfl

theorem own_eq : ∀ ts : PTargets Raw RangeVar, ownNames ts = aliases ts
  | .nil => rfl
  | .cons _ none ts => by simp [ownNames, aliases, own_eq ts]
  | .cons _ (some a) ts => by simp [ownNames, aliases, own_eq ts]

variable {ro : Name → Role} {sch : Name → List Name}

/-- What is known about an entry of a FROM clause and the scope. -/
inductive EntryOk (ro : Name → Role) (sch : Name → List Name) (ctes : List (Name × List Name)) (s : Scope) : Entry → Prop
  | plain (n : Name) : ro n = .plain → EntryOk ro sch ctes s { vis := n, tab := ⟨some n, none, false⟩, cols := sch n }
  | renamed (n a : Name) : ro n = .renamed → ro a = .tableAlias → EntryOk ro sch ctes s { vis := a, tab := ⟨some n, some a, false⟩, cols := sch n }
  | cte (n : Name) (cols : List Name) : ro n = .cte → ctes.lookup n = some cols → EntryOk ro sch ctes s { vis := n, tab := ⟨none, some n, true⟩, cols := cols }
  | cteRenamed (n a : Name) (cols : List Name) : ro n = .cteRenamed → ro a = .tableAlias → ctes.lookup n = some cols →
      EntryOk ro sch ctes s { vis := a, tab := ⟨some n, some a, true⟩, cols := cols, renamedCte := true }
  | sub (b : Name) (cols : List Name) (h : Bool) : ro b = .subAlias → s.subs.get? b = some cols →
      EntryOk ro sch ctes s { vis := b, tab := ⟨none, some b, true⟩, cols := cols, hole := h }

/-- The roles of the names that can be referenced. -/
def shown : Role → Bool
  | .plain | .cte | .tableAlias | .subAlias => true
  | _ => false

structure ScopeOk (ro : Name → Role) (sch : Name → List Name) (ctes : List (Name × List Name)) (s : Scope) (f : Frame) : Prop where
  ctx : s.ctx = f.map Entry.tab
  entries : ∀ e ∈ f, EntryOk ro sch ctes s e
  tables : ∀ t, shown (ro t) = true → s.tables.get? t = (f.find? fun e => e.vis == t).map Entry.tab
  phys : ∀ t, ro t = .renamed → ∀ tab, s.tables.get? t = some tab → tab.virt = false
  virt : ∀ t, ro t = .cteRenamed → ∀ tab, s.tables.get? t = some tab → tab.virt = true
  subs : ∀ b ∈ Dict.keys s.subs, ro b = .subAlias ∧ ∃ e ∈ f, e.vis = b
  ctes : ∀ n ∈ Dict.keys s.ctes, ro n = .cte ∨ ro n = .cteRenamed

/-- The WITH queries in scope are found. -/
def CtesOk (ro : Name → Role) (ctes : List (Name × List Name)) (chain : List Scope) : Prop :=
  ∀ n cols, ctes.lookup n = some cols → (ro n = .cte ∨ ro n = .cteRenamed) ∧ lookupNs chain n = some cols

abbrev ChainOk (ro : Name → Role) (sch : Name → List Name) (ctes : List (Name × List Name)) (chain : List Scope) (fs : List Frame) : Prop :=
  List.Forall₂ (ScopeOk ro sch ctes) chain fs

theorem get?_none_of {κ ν : Type} [DecidableEq κ] {d : Dict κ ν} {k : κ} (h : k ∉ Dict.keys d) : Dict.get? d k = none := (Dict.get?_eq_none d k).2 h

theorem EntryOk.mono {ctes : List (Name × List Name)} {s s' : Scope} {e : Entry} (h : EntryOk ro sch ctes s e) (n : Name) (cols : List Name) (hn : ctes.lookup n = none)
    (hs : ∀ b l, s.subs.get? b = some l → s'.subs.get? b = some l) : EntryOk ro sch ((n, cols) :: ctes) s' e := by
  have key : ∀ m l, ctes.lookup m = some l → ((n, cols) :: ctes).lookup m = some l := by
    intro m l hm
    have : m ≠ n := by rintro rfl; rw [hn] at hm; simp at hm
    rw [List.lookup_cons]
    have hb : (m == n) = false := by simpa using this
    rw [hb]
    exact hm
  cases h with
  | plain n h => exact .plain n h
  | renamed n a h h' => exact .renamed n a h h'
  | cte n cols h h' => exact .cte n cols h (key _ _ h')
  | cteRenamed n a cols h h' h'' => exact .cteRenamed n a cols h h' (key _ _ h'')
  | sub b cols hh h h' => exact .sub b cols hh h (hs _ _ h')

theorem EntryOk.scope {ctes : List (Name × List Name)} {s s' : Scope} {e : Entry} (h : EntryOk ro sch ctes s e)
    (hs : ∀ b l, s.subs.get? b = some l → ro b = .subAlias → b = e.vis → s'.subs.get? b = some l) : EntryOk ro sch ctes s' e := by
  cases h with
  | plain n h => exact .plain n h
  | renamed n a h h' => exact .renamed n a h h'
  | cte n cols h h' => exact .cte n cols h h'
  | cteRenamed n a cols h h' h'' => exact .cteRenamed n a cols h h' h''
  | sub b cols hh h h' => exact .sub b cols hh h (hs _ _ h' h rfl)

theorem ScopeOk.mono {ctes : List (Name × List Name)} {s : Scope} {f : Frame} (h : ScopeOk ro sch ctes s f) (n : Name) (cols : List Name) (hn : ctes.lookup n = none) :
    ScopeOk ro sch ((n, cols) :: ctes) s f :=
  ⟨h.ctx, fun e he => (h.entries e he).mono n cols hn fun _ _ h => h, h.tables, h.phys, h.virt, h.subs, h.ctes⟩

theorem chain_mono {ctes : List (Name × List Name)} {chain : List Scope} {fs : List Frame} (h : ChainOk ro sch ctes chain fs) (n : Name) (cols : List Name)
    (hn : ctes.lookup n = none) : ChainOk ro sch ((n, cols) :: ctes) chain fs := h.imp fun _ _ h => h.mono n cols hn

/-- Names of tables and aliases do not belong to children. -/
theorem lookupNs_none {ctes : List (Name × List Name)} {chain : List Scope} {fs : List Frame} (h : ChainOk ro sch ctes chain fs) (t : Name)
    (h1 : ro t ≠ .cte) (h2 : ro t ≠ .cteRenamed) (h3 : ro t ≠ .subAlias) : lookupNs chain t = none := by
  induction h with
  | nil => rfl
  | cons hs _ ih =>
    simp only [lookupNs]
    rw [get?_none_of fun hk => (hs.ctes t hk).elim h1 h2, get?_none_of fun hk => h3 (hs.subs t hk).1]
    exact ih

/-- A visible table is found. -/
theorem resolve_visible {ctes : List (Name × List Name)} {chain : List Scope} {fs : List Frame} (h : ChainOk ro sch ctes chain fs) (t : Name) (e : Entry)
    (he : fs.flatten.find? (fun e => e.vis == t) = some e) : resolveTable chain t = some e.tab ∧ ∃ s f, ScopeOk ro sch ctes s f ∧ e ∈ f := by
  induction h with
  | nil => simp at he
  | @cons s f up fs hs _ ih =>
    rw [List.flatten_cons, List.find?_append] at he
    have hvis : shown (ro t) = true → s.tables.get? t = (f.find? fun e => e.vis == t).map Entry.tab := hs.tables t
    cases hf : f.find? fun e => e.vis == t with
    | some e' =>
      rw [hf] at he
      simp at he
      subst he
      have hm := List.mem_of_find?_eq_some hf
      have hv : e'.vis = t := by simpa using List.find?_some hf
      have hsh : shown (ro t) = true := by
        have := hs.entries e' hm
        rw [← hv]
        cases this <;> simp [shown, *]
      refine ⟨?_, s, f, hs, hm⟩
      simp only [resolveTable, hvis hsh, hf, Option.map_some]
    | none =>
      rw [hf, Option.none_or] at he
      obtain ⟨h1, s', f', h2, h3⟩ := ih he
      refine ⟨?_, s', f', h2, h3⟩
      have hv : e.vis = t := by simpa using List.find?_some he
      have hok := h2.entries e h3
      have hsh : shown (ro t) = true := by rw [← hv]; cases hok <;> simp [shown, *]
      simp only [resolveTable, hvis hsh, hf, Option.map_none]
      by_cases hc : s.ctes.has t = true
      · rw [if_pos hc]
        have hro := hs.ctes t ((Dict.has_iff _ _).1 hc)
        rw [← hv] at hro ⊢
        cases hok <;> simp_all [shown, virtual]
      · rw [if_neg hc]; exact h1

theorem resolve_cte {ctes : List (Name × List Name)} {chain : List Scope} {fs : List Frame} (h : ChainOk ro sch ctes chain fs) (n : Name) (l : List Name)
    (hn : lookupNs chain n = some l) (hro : ro n = .cte) : resolveTable chain n = some (virtual n) := by
  induction h with
  | nil => simp [lookupNs] at hn
  | @cons s f up fs hs _ ih =>
    simp only [resolveTable]
    rw [hs.tables n (by rw [hro]; rfl)]
    cases hf : f.find? fun e => e.vis == n with
    | some e =>
      have hm := List.mem_of_find?_eq_some hf
      have hv : e.vis = n := by simpa using List.find?_some hf
      have := hs.entries e hm
      subst hv
      cases this <;> simp_all [virtual]
    | none =>
      simp only [Option.map_none]
      by_cases hc : s.ctes.has n = true
      · rw [if_pos hc]
      · rw [if_neg hc]
        apply ih
        simp only [lookupNs] at hn
        rw [get?_none_of fun hk => hc ((Dict.has_iff _ _).2 hk), get?_none_of fun hk => by have := (hs.subs n hk).1; rw [hro] at this; simp at this] at hn
        exact hn

theorem resolve_cteRenamed {ctes : List (Name × List Name)} {chain : List Scope} {fs : List Frame} (h : ChainOk ro sch ctes chain fs) (n : Name) (l : List Name)
    (hn : lookupNs chain n = some l) (hro : ro n = .cteRenamed) : ∃ t, resolveTable chain n = some t ∧ t.virt = true := by
  induction h with
  | nil => simp [lookupNs] at hn
  | @cons s f up fs hs _ ih =>
    simp only [resolveTable]
    cases hg : s.tables.get? n with
    | some t => exact ⟨t, rfl, hs.virt n hro t hg⟩
    | none =>
      simp only
      by_cases hc : s.ctes.has n = true
      · rw [if_pos hc]; exact ⟨_, rfl, rfl⟩
      · rw [if_neg hc]
        apply ih
        simp only [lookupNs] at hn
        rw [get?_none_of fun hk => hc ((Dict.has_iff _ _).2 hk), get?_none_of fun hk => by have := (hs.subs n hk).1; rw [hro] at this; simp at this] at hn
        exact hn

theorem resolve_phys {ctes : List (Name × List Name)} {chain : List Scope} {fs : List Frame} (h : ChainOk ro sch ctes chain fs) (n : Name)
    (hro : ro n = .plain ∨ ro n = .renamed) (t : Tab) (ht : resolveTable chain n = some t) : t.virt = false := by
  induction h with
  | nil => simp [resolveTable] at ht
  | @cons s f up fs hs _ ih =>
    simp only [resolveTable] at ht
    cases hg : s.tables.get? n with
    | some t' =>
      rw [hg] at ht
      simp at ht
      subst ht
      rcases hro with hro | hro
      · rw [hs.tables n (by rw [hro]; rfl)] at hg
        cases hf : f.find? fun e => e.vis == n with
        | none => rw [hf] at hg; simp at hg
        | some e =>
          rw [hf] at hg
          simp at hg
          have hm := List.mem_of_find?_eq_some hf
          have hv : e.vis = n := by simpa using List.find?_some hf
          have := hs.entries e hm
          subst hv
          subst hg
          cases this <;> simp_all
      · exact hs.phys n hro t' hg
    | none =>
      rw [hg] at ht
      simp only at ht
      rw [if_neg] at ht
      · exact ih ht
      · intro hc
        have := hs.ctes n ((Dict.has_iff _ _).1 hc)
        rcases hro with h | h <;> rw [h] at this <;> simp at this

/-- The state of the parser and of the specification agree. -/
structure Good (ro : Name → Role) (sch : Name → List Name) (ctes : List (Name × List Name)) (up : List Scope) (outer : List Frame) (s : Scope) (f : Frame) : Prop where
  chain : ChainOk ro sch ctes (s :: up) (f :: outer)
  ctes : CtesOk ro ctes (s :: up)

theorem Good.scope {ctes : List (Name × List Name)} {up : List Scope} {outer : List Frame} {s : Scope} {f : Frame} (h : Good ro sch ctes up outer s f) : ScopeOk ro sch ctes s f := by
  cases h.chain; assumption

/-- Which tables provide a column. -/
theorem provides_entry {x : Cfg} (hx : x.schema = sch) {ctes : List (Name × List Name)} {up : List Scope} {outer : List Frame} {s : Scope} {f : Frame}
    (h : Good ro sch ctes up outer s f) (e : Entry) (he : e ∈ f) (c : Name) : provides x s up c e.tab = (decide (c ∈ e.cols) && !e.renamedCte) := by
  have hs := h.scope
  have hctes : ∀ n, ro n ≠ .cte → ro n ≠ .cteRenamed → s.ctes.get? n = none := fun n h1 h2 => get?_none_of fun hk => (hs.ctes n hk).elim h1 h2
  have hsubs : ∀ n, ro n ≠ .subAlias → s.subs.get? n = none := fun n h1 => get?_none_of fun hk => h1 (hs.subs n hk).1
  have hok := hs.entries e he
  cases hok with
  | plain n hr =>
    simp only [provides, Tab.ident, columnsOf, hx, Bool.not_false, Bool.true_and, hsubs n (by simp [hr]), hctes n (by simp [hr]) (by simp [hr]),
      lookupNs_none h.chain n (by simp [hr]) (by simp [hr]) (by simp [hr]), given, Bool.or_false, Bool.and_true]
  | renamed n a hr ha =>
    simp only [provides, Tab.ident, columnsOf, hx, Bool.not_false, Bool.true_and, hsubs a (by simp [ha]), hctes a (by simp [ha]) (by simp [ha]),
      lookupNs_none h.chain a (by simp [ha]) (by simp [ha]) (by simp [ha]), given, Bool.or_false, Bool.and_true]
  | cteRenamed n a cols hr ha hl =>
    simp only [provides, Tab.ident, columnsOf, hx, Bool.not_true, Bool.false_and, hsubs a (by simp [ha]), hctes a (by simp [ha]) (by simp [ha]),
      lookupNs_none h.chain a (by simp [ha]) (by simp [ha]) (by simp [ha]), given, Bool.or_false, Bool.and_false]
  | cte n cols hr hl =>
    have hl' := (h.ctes n cols hl).2
    have : given c (s.ctes.get? n) = true → c ∈ cols := by
      intro hg
      cases hc : s.ctes.get? n with
      | none => rw [hc] at hg; simp [given] at hg
      | some l =>
        simp only [lookupNs, hc, Option.some.injEq] at hl'
        rw [hc] at hg
        subst hl'
        simpa [given] using hg
    simp only [provides, Tab.ident, hl', hsubs n (by simp [hr]), Bool.not_true, Bool.false_and, Bool.false_or, Bool.not_false, Bool.and_true]
    simp only [given, Bool.false_or]
    by_cases hc : c ∈ cols
    · simp [hc]
    · have : given c (s.ctes.get? n) = false := by
        rw [← Bool.not_eq_true]; exact fun h => hc (this h)
      unfold given at this
      simp [hc, this]
  | sub b cols hh hr hl =>
    have hlk : lookupNs (s :: up) b = some cols := by
      simp only [lookupNs, hctes b (by simp [hr]) (by simp [hr]), hl]
    simp only [provides, Tab.ident, hlk, hl, hctes b (by simp [hr]) (by simp [hr]), Bool.not_true, Bool.false_and, Bool.false_or, Bool.not_false, Bool.and_true, given,
      Bool.or_false, Bool.or_self]

theorem find_filter {x : Cfg} (hx : x.schema = sch) {ctes : List (Name × List Name)} {up : List Scope} {outer : List Frame} {s : Scope} {f : Frame}
    (h : Good ro sch ctes up outer s f) (c : Name) (g : Frame) (hg : ∀ e ∈ g, e ∈ f) :
    (∀ e, g.filter (fun e => decide (c ∈ e.cols)) = [e] → e.renamedCte = false → (g.map Entry.tab).find? (provides x s up c) = some e.tab) ∧
    (g.filter (fun e => decide (c ∈ e.cols)) = [] → (g.map Entry.tab).find? (provides x s up c) = none) := by
  induction g with
  | nil => simp
  | cons e g ih =>
    obtain ⟨ih1, ih2⟩ := ih fun e he => hg e (List.mem_cons_of_mem _ he)
    have hp := provides_entry hx h e (hg e List.mem_cons_self) c
    by_cases hc : c ∈ e.cols
    · refine ⟨?_, ?_⟩
      · intro e' he' hr
        simp [List.filter_cons, hc] at he'
        obtain ⟨rfl, _⟩ := he'
        rw [List.map_cons, List.find?_cons, hp]
        simp [hc, hr]
      · intro h0; simp [List.filter_cons, hc] at h0
    · simp only [List.filter_cons, hc, decide_false, Bool.false_eq_true, if_false, List.map_cons, List.find?_cons, hp, Bool.false_and]
      exact ⟨ih1, ih2⟩

theorem ref_ok {x : Cfg} (hx : x.schema = sch) (hca : x.caching = false) {ctes : List (Name × List Name)} {up : List Scope} {outer : List Frame} {s : Scope} {f : Frame}
    (h : Good ro sch ctes up outer s f) {own : List Name} (ho : ∀ c, c ∈ own ↔ c ∈ s.produced) (r : Raw) (b : Bound) (hr : sqlRef f outer own r = some b) :
    parseRef x up s r = some (b, s) := by
  have hvis : ∀ t e, visible (f :: outer) t = some e → resolveTable (s :: up) t = some e.tab := by
    intro t e he
    unfold visible at he
    cases hf : (f :: outer).flatten.find? (fun e => e.vis == t) with
    | none => rw [hf] at he; simp at he
    | some e' =>
      rw [hf] at he
      simp only at he
      split at he
      · simp at he
      · simp at he; subst he; exact (resolve_visible h.chain t e' hf).1
  cases r with
  | star => simp [sqlRef] at hr; subst hr; rfl
  | qcol t c =>
    simp only [sqlRef, Option.map_eq_some_iff] at hr
    obtain ⟨e, he, rfl⟩ := hr
    simp only [parseRef, hvis t e he, Option.map_some]
  | qstar t =>
    simp only [sqlRef, Option.map_eq_some_iff] at hr
    obtain ⟨e, he, rfl⟩ := hr
    simp only [parseRef, hvis t e he]
  | col c =>
    obtain ⟨h1, h2⟩ := find_filter hx h c f (fun _ h => h)
    rw [← h.scope.ctx] at h1 h2
    simp only [sqlRef] at hr
    simp only [parseRef, lookupColumn, hca, Bool.false_eq_true, if_false]
    split at hr
    · rename_i e hf
      split at hr
      · simp at hr
      · rename_i hn
        simp at hr
        subst hr
        simp only [not_or, Bool.not_eq_true] at hn
        rw [if_neg fun hp => hn.1 ((ho c).2 hp), h1 e hf hn.2]
    · rename_i hf
      split at hr
      · simp at hr
      · simp at hr
        subst hr
        split
        · rfl
        · rw [h2 hf]
    · simp at hr

theorem lookup_sub {ctes : List (Name × List Name)} {chain : List Scope} {fs : List Frame} (h : ChainOk ro sch ctes chain fs) (b : Name) (hb : ro b = .subAlias) (e : Entry)
    (he : fs.flatten.find? (fun e => e.vis == b) = some e) : lookupNs chain b = some e.cols := by
  induction h with
  | nil => simp at he
  | @cons s f up fs hs _ ih =>
    rw [List.flatten_cons, List.find?_append] at he
    have hc : s.ctes.get? b = none := get?_none_of fun hk => by rcases hs.ctes b hk with h | h <;> rw [hb] at h <;> simp at h
    cases hf : f.find? fun e => e.vis == b with
    | some e' =>
      rw [hf, Option.some_or] at he
      obtain rfl := Option.some.inj he
      have hm := List.mem_of_find?_eq_some hf
      have hv : e'.vis = b := by simpa using List.find?_some hf
      have hok := hs.entries e' hm
      subst hv
      cases hok <;> simp_all [lookupNs]
    | none =>
      rw [hf, Option.none_or] at he
      simp only [lookupNs, hc]
      rw [get?_none_of fun hk => by
        obtain ⟨_, e', he', hv⟩ := hs.subs b hk
        rw [List.find?_eq_none] at hf
        exact hf e' he' (by simp [hv])]
      exact ih he

theorem star_entry {x : Cfg} (hx : x.schema = sch) {ctes : List (Name × List Name)} {chain : List Scope} {fs : List Frame} (h : ChainOk ro sch ctes chain fs)
    (hc : CtesOk ro ctes chain) {s : Scope} {e : Entry} (hok : EntryOk ro sch ctes s e) (hsub : ro e.vis = .subAlias → lookupNs chain e.vis = some e.cols) :
    starColumns x chain e.tab = some e.cols := by
  cases hok with
  | plain n hr => simp [starColumns, columnsOf, hx]
  | renamed n a hr ha => simp [starColumns, columnsOf, hx]
  | cte n cols hr hl => simp [starColumns, (hc n cols hl).2]
  | cteRenamed n a cols hr ha hl =>
    simp [starColumns, (hc n cols hl).2, lookupNs_none h a (by simp [ha]) (by simp [ha]) (by simp [ha])]
  | sub b cols hh hr hl => simp [starColumns, hsub hr]

theorem star_head {x : Cfg} (hx : x.schema = sch) {ctes : List (Name × List Name)} {up : List Scope} {outer : List Frame} {s : Scope} {f : Frame}
    (h : Good ro sch ctes up outer s f) (g : Frame) (hg : ∀ e ∈ g, e ∈ f) : starAll x (s :: up) (g.map Entry.tab) = some (g.flatMap Entry.cols) := by
  induction g with
  | nil => rfl
  | cons e g ih =>
    have hok := h.scope.entries e (hg e List.mem_cons_self)
    have h1 : starColumns x (s :: up) e.tab = some e.cols := by
      refine star_entry hx h.chain h.ctes hok ?_
      intro hr
      have hc : s.ctes.get? e.vis = none := get?_none_of fun hk => by rcases h.scope.ctes _ hk with h | h <;> rw [hr] at h <;> simp at h
      cases hok <;> simp_all [lookupNs]
    simp only [List.map_cons, starAll, h1, Option.bind_some, ih fun e he => hg e (List.mem_cons_of_mem _ he), Option.map_some, List.flatMap_cons]

theorem visible_find {fs : List Frame} {t : Name} {e : Entry} (h : visible fs t = some e) : fs.flatten.find? (fun e => e.vis == t) = some e := by
  unfold visible at h
  cases hf : fs.flatten.find? (fun e => e.vis == t) with
  | none => rw [hf] at h; simp at h
  | some e' =>
    rw [hf] at h
    simp only at h
    split at h
    · simp at h
    · exact h

theorem target_ok {x : Cfg} (hx : x.schema = sch) {ctes : List (Name × List Name)} {up : List Scope} {outer : List Frame} {s : Scope} {f : Frame}
    (h : Good ro sch ctes up outer s f) (e : PExpr Raw RangeVar) (als : Option Name) (o : PExpr Bound Tab) (he : sqlExpr ro sch ctes outer f [] e = some o) :
    projShape x s up o als = some (sqlTarget f outer e als) := by
  cases als with
  | some a => rfl
  | none =>
    cases e with
    | op args =>
      simp only [sqlExpr, Option.map_eq_some_iff] at he
      obtain ⟨o', _, rfl⟩ := he
      rfl
    | sub q tests =>
      simp only [sqlExpr, rows_eq] at he
      split at he
      · simp at he
      · simp only [Option.bind_eq_some_iff, Option.map_eq_some_iff] at he
        obtain ⟨_, _, _, _, rfl⟩ := he
        rfl
    | ref r =>
      simp only [sqlExpr, Option.map_eq_some_iff] at he
      obtain ⟨b, hb, rfl⟩ := he
      cases r with
      | col c =>
        simp only [sqlRef] at hb
        split at hb
        · split at hb
          · simp at hb
          · simp at hb; subst hb; rfl
        · split at hb
          · simp at hb
          · simp at hb; subst hb; rfl
        · simp at hb
      | qcol t c =>
        simp only [sqlRef, Option.map_eq_some_iff] at hb
        obtain ⟨_, _, rfl⟩ := hb
        rfl
      | star =>
        simp [sqlRef] at hb
        subst hb
        simp only [projShape, sqlTarget, h.scope.ctx]
        exact star_head hx h f fun _ h => h
      | qstar t =>
        simp only [sqlRef, Option.map_eq_some_iff] at hb
        obtain ⟨e, hv, rfl⟩ := hb
        obtain ⟨_, s', f', hs', hm⟩ := resolve_visible h.chain t e (visible_find hv)
        have hvt : e.vis = t := by simpa using List.find?_some (visible_find hv)
        have := star_entry hx h.chain h.ctes (hs'.entries e hm) (fun hr => by
          rw [hvt] at hr ⊢
          exact lookup_sub h.chain t hr e (visible_find hv))
        simp only [projShape, sqlTarget, hv, starAll, this, Option.bind_some, Option.map_some, List.append_nil]

theorem Good.child {ctes : List (Name × List Name)} {up : List Scope} {outer : List Frame} {s : Scope} {f : Frame} (h : Good ro sch ctes up outer s f) :
    Good ro sch ctes (s :: up) (f :: outer) {} [] where
  chain := .cons ⟨rfl, by simp, by intro t _; rfl, by intro t _ tab h; simp [Dict.get?] at h, by intro t _ tab h; simp [Dict.get?] at h, by intro b hb; simp [Dict.keys] at hb,
    by intro b hb; simp [Dict.keys] at hb⟩ h.chain
  ctes := h.ctes

theorem Good.of {ctes : List (Name × List Name)} {up : List Scope} {outer : List Frame} {s s' : Scope} {f f' : Frame} (h : Good ro sch ctes up outer s f)
    (h' : ScopeOk ro sch ctes s' f') (hl : ∀ n, ro n = .cte ∨ ro n = .cteRenamed → ctes.lookup n ≠ none → lookupNs (s' :: up) n = lookupNs (s :: up) n) : Good ro sch ctes up outer s' f' where
  chain := by cases h.chain with | cons _ h2 => exact .cons h' h2
  ctes := fun n cols hn => ⟨(h.ctes n cols hn).1, by rw [hl n (h.ctes n cols hn).1 (by simp [hn])]; exact (h.ctes n cols hn).2⟩

/-- Changes of fields that do not take part in the resolution. -/
theorem Good.same {ctes : List (Name × List Name)} {up : List Scope} {outer : List Frame} {s s' : Scope} {f : Frame} (h : Good ro sch ctes up outer s f)
    (h1 : s'.ctx = s.ctx) (h2 : s'.tables = s.tables) (h3 : s'.subs = s.subs) (h4 : s'.ctes = s.ctes) : Good ro sch ctes up outer s' f := by
  refine h.of ⟨h1.trans h.scope.ctx, ?_, by rw [h2]; exact h.scope.tables, by rw [h2]; exact h.scope.phys, by rw [h2]; exact h.scope.virt, by rw [h3]; exact h.scope.subs,
    by rw [h4]; exact h.scope.ctes⟩ ?_
  · intro e he
    exact (h.scope.entries e he).scope fun b l hb _ _ => by rw [h3]; exact hb
  · intro n _ _
    simp only [lookupNs, h3, h4]

theorem find_append_fresh {f : Frame} {e : Entry} (hf : (f.any fun e' => e'.vis == e.vis) = false) (t : Name) :
    (f ++ [e]).find? (fun e => e.vis == t) = if e.vis = t then some e else f.find? fun e => e.vis == t := by
  rw [List.find?_append]
  by_cases h : e.vis = t
  · rw [if_pos h]
    subst h
    have : f.find? (fun e' => e'.vis == e.vis) = none := by
      rw [List.find?_eq_none]
      intro e' he' hv
      rw [List.any_eq_false] at hf
      exact hf e' he' hv
    rw [this]
    simp
  · rw [if_neg h]
    have : [e].find? (fun e => e.vis == t) = none := by simp [h]
    rw [this, Option.or_none]

theorem rel_ok {x : Cfg} (hx : x.schema = sch) {ctes : List (Name × List Name)} {up : List Scope} {outer : List Frame} {s : Scope} {f : Frame}
    (h : Good ro sch ctes up outer s f) (v : RangeVar) (e : Entry) (he : sqlRel ro sch ctes f v = some e) :
    rangeTable (s :: up) v = e.tab ∧ Good ro sch ctes up outer (register s e.tab) (f ++ [e]) := by
  obtain ⟨n, als⟩ := v
  simp only [sqlRel] at he
  split at he
  · simp at he
  rename_i hf
  have hs := h.scope
  have fin : ∀ (e : Entry), (f.any fun e' => e'.vis == e.vis) = false → EntryOk ro sch ctes s e →
      (∀ t, (shown (ro t) = true → (register s e.tab).tables.get? t = if e.vis = t then some e.tab else s.tables.get? t) ∧
        (ro t = .renamed → ∀ tab, (register s e.tab).tables.get? t = some tab → tab.virt = false) ∧
        (ro t = .cteRenamed → ∀ tab, (register s e.tab).tables.get? t = some tab → tab.virt = true)) → Good ro sch ctes up outer (register s e.tab) (f ++ [e]) := by
    intro e hfr hok ht
    refine h.of ⟨?_, ?_, ?_, fun t => (ht t).2.1, fun t => (ht t).2.2, ?_, hs.ctes⟩ fun n _ _ => rfl
    · simp [register, hs.ctx]
    · intro e' he'
      rcases List.mem_append.1 he' with he' | he'
      · exact (hs.entries e' he').scope fun b l hb _ _ => hb
      · rw [List.mem_singleton] at he'
        subst he'
        exact hok.scope fun b l hb _ _ => hb
    · intro t hsh
      rw [(ht t).1 hsh, find_append_fresh hfr, hs.tables t hsh]
      split <;> rfl
    · intro b hb
      obtain ⟨h1, e', h2, h3⟩ := hs.subs b hb
      exact ⟨h1, e', List.mem_append_left _ h2, h3⟩
  cases hl : ctes.lookup n with
  | some cols =>
    rw [hl] at he
    obtain ⟨hro, hns⟩ := h.ctes n cols hl
    cases als with
    | none =>
      simp only [Option.getD_none] at hf he
      split at he
      · rename_i hc
        simp at he
        subst he
        refine ⟨?_, fin _ (by simpa using hf) (.cte n cols hc hl) ?_⟩
        · simp only [rangeTable, resolve_cte h.chain n cols hns hc]
          rfl
        · intro t
          simp only [register]
          refine ⟨fun _ => Dict.get?_set _ _ _ _, fun hr tab ht => ?_, fun hr tab ht => ?_⟩
          all_goals
            rw [Dict.get?_set] at ht
            split at ht
            · rename_i hnt; subst hnt; rw [hc] at hr; simp at hr
          · exact hs.phys t hr tab ht
          · exact hs.virt t hr tab ht
      · simp at he
    | some a =>
      simp only [Option.getD_some] at hf he
      split at he
      · rename_i hc
        simp at he
        subst he
        obtain ⟨hc, ha⟩ := hc
        refine ⟨?_, fin _ (by simpa using hf) (.cteRenamed n a cols hc ha hl) ?_⟩
        · obtain ⟨t, h1, h2⟩ := resolve_cteRenamed h.chain n cols hns hc
          simp only [rangeTable, h1, h2]
        · intro t
          simp only [register]
          refine ⟨fun hsh => ?_, fun hr tab ht => ?_, fun hr tab ht => ?_⟩
          · rw [Dict.get?_set, if_neg (by rintro rfl; rw [hc] at hsh; simp [shown] at hsh), Dict.get?_set]
          · rw [Dict.get?_set, if_neg (by rintro rfl; rw [hc] at hr; simp at hr), Dict.get?_set, if_neg (by rintro rfl; rw [ha] at hr; simp at hr)] at ht
            exact hs.phys t hr tab ht
          · rw [Dict.get?_set] at ht
            split at ht
            · simp at ht; subst ht; rfl
            · rw [Dict.get?_set, if_neg (by rintro rfl; rw [ha] at hr; simp at hr)] at ht
              exact hs.virt t hr tab ht
      · simp at he
  | none =>
    rw [hl] at he
    cases als with
    | none =>
      simp only [Option.getD_none] at hf he
      split at he
      · rename_i hc
        simp at he
        subst he
        refine ⟨?_, fin _ (by simpa using hf) (.plain n hc) ?_⟩
        · cases hr : resolveTable (s :: up) n with
          | none => simp only [rangeTable, hr]
          | some t => simp only [rangeTable, hr, resolve_phys h.chain n (.inl hc) t hr, Bool.false_eq_true, if_false]
        · intro t
          simp only [register]
          refine ⟨fun _ => Dict.get?_set _ _ _ _, fun hr tab ht => ?_, fun hr tab ht => ?_⟩
          all_goals
            rw [Dict.get?_set] at ht
            split at ht
            · rename_i hnt; subst hnt; rw [hc] at hr; simp at hr
          · exact hs.phys t hr tab ht
          · exact hs.virt t hr tab ht
      · simp at he
    | some a =>
      simp only [Option.getD_some] at hf he
      split at he
      · rename_i hc
        simp at he
        subst he
        obtain ⟨hc, ha⟩ := hc
        refine ⟨?_, fin _ (by simpa using hf) (.renamed n a hc ha) ?_⟩
        · cases hr : resolveTable (s :: up) n with
          | none => simp only [rangeTable, hr]
          | some t => simp only [rangeTable, hr, resolve_phys h.chain n (.inr hc) t hr]
        · intro t
          simp only [register]
          refine ⟨fun hsh => ?_, fun hr tab ht => ?_, fun hr tab ht => ?_⟩
          · rw [Dict.get?_set, if_neg (by rintro rfl; rw [hc] at hsh; simp [shown] at hsh), Dict.get?_set]
          · rw [Dict.get?_set] at ht
            split at ht
            · simp at ht; subst ht; rfl
            · rw [Dict.get?_set, if_neg (by rintro rfl; rw [ha] at hr; simp at hr)] at ht
              exact hs.phys t hr tab ht
          · rw [Dict.get?_set, if_neg (by rintro rfl; rw [hc] at hr; simp at hr), Dict.get?_set, if_neg (by rintro rfl; rw [ha] at hr; simp at hr)] at ht
            exact hs.virt t hr tab ht
      · simp at he

/-- Opening a subquery in the FROM clause. -/
theorem sub_ok {ctes : List (Name × List Name)} {up : List Scope} {outer : List Frame} {s : Scope} {f : Frame} (h : Good ro sch ctes up outer s f) (a : Name) (ha : ro a = .subAlias)
    (hf : (f.any fun e => e.vis == a) = false) (cols : List Name) (hole : Bool) (s' : Scope) (h1 : s'.ctx = s.ctx ++ [virtual a]) (h2 : s'.tables = s.tables.set a (virtual a))
    (h3 : ∀ b, s'.subs.get? b = if a = b then some cols else s.subs.get? b) (h4 : s'.ctes = s.ctes) :
    Good ro sch ctes up outer s' (f ++ [{ vis := a, tab := ⟨none, some a, true⟩, cols := cols, hole := hole }]) := by
  have hs := h.scope
  refine h.of ⟨?_, ?_, ?_, ?_, ?_, ?_, by rw [h4]; exact hs.ctes⟩ ?_
  · rw [h1, hs.ctx]; simp [virtual]
  · intro e he
    rcases List.mem_append.1 he with he | he
    · refine (hs.entries e he).scope fun b l hb _ hv => ?_
      rw [h3, if_neg]
      · exact hb
      · rintro rfl
        rw [List.any_eq_false] at hf
        exact hf e he (by simp [hv])
    · rw [List.mem_singleton] at he
      subst he
      exact .sub a cols hole ha (by rw [h3, if_pos rfl])
  · intro t hsh
    rw [h2, Dict.get?_set, find_append_fresh hf, hs.tables t hsh]
    simp only
    split <;> rfl
  · intro t hr tab ht
    rw [h2, Dict.get?_set, if_neg (by rintro rfl; rw [ha] at hr; simp at hr)] at ht
    exact hs.phys t hr tab ht
  · intro t hr tab ht
    rw [h2, Dict.get?_set, if_neg (by rintro rfl; rw [ha] at hr; simp at hr)] at ht
    exact hs.virt t hr tab ht
  · intro b hb
    by_cases hab : a = b
    · subst hab
      exact ⟨ha, _, List.mem_append_right _ List.mem_cons_self, rfl⟩
    · have : b ∈ Dict.keys s.subs := by
        by_contra hk
        have h0 := get?_none_of hk
        have := h3 b
        rw [if_neg hab, h0, Dict.get?_eq_none] at this
        exact this hb
      obtain ⟨e1, e, e2, e3⟩ := hs.subs b this
      exact ⟨e1, e, List.mem_append_left _ e2, e3⟩
  · intro n hr _
    simp only [lookupNs, h4, h3]
    rw [if_neg]
    rintro rfl
    rw [ha] at hr
    simp at hr

/-- Adding a WITH query. -/
theorem cte_ok {ctes : List (Name × List Name)} {up : List Scope} {outer : List Frame} {s : Scope} (h : Good ro sch ctes up outer s []) (n : Name)
    (hn : ro n = .cte ∨ ro n = .cteRenamed) (hl : ctes.lookup n = none) (s' : Scope) (h1 : s'.ctx = s.ctx) (h2 : s'.tables = s.tables) (h3 : s'.subs = s.subs)
    (cols : List Name) (h4 : ∀ m, s'.ctes.get? m = if n = m then some cols else s.ctes.get? m) :
    Good ro sch ctes up outer s' [] ∧ Good ro sch ((n, cols) :: ctes) up outer s' [] := by
  have hs := h.scope
  have hk : ∀ m ∈ Dict.keys s'.ctes, ro m = .cte ∨ ro m = .cteRenamed := by
    intro m hm
    by_cases hnm : n = m
    · subst hnm; exact hn
    · refine hs.ctes m ?_
      by_contra hk
      have h0 := get?_none_of hk
      have := h4 m
      rw [if_neg hnm, h0, Dict.get?_eq_none] at this
      exact this hm
  have g1 : Good ro sch ctes up outer s' [] := by
    refine h.of ⟨h1.trans hs.ctx, by simp, by rw [h2]; exact hs.tables, by rw [h2]; exact hs.phys, by rw [h2]; exact hs.virt, by rw [h3]; exact hs.subs, hk⟩ ?_
    intro m _ hm
    have : n ≠ m := by rintro rfl; exact hm hl
    simp only [lookupNs, h3, h4, if_neg this]
  refine ⟨g1, chain_mono g1.chain n cols hl, ?_⟩
  intro m l hm
  rw [List.lookup_cons] at hm
  by_cases hmn : m = n
  · subst hmn
    simp at hm
    subst hm
    exact ⟨hn, by simp [lookupNs, h4]⟩
  · have hb : (m == n) = false := by simpa using hmn
    rw [hb] at hm
    exact g1.ctes m l hm

theorem values_shape {ctes : List (Name × List Name)} {outer : List Frame} {q : PQuery Raw RangeVar} (hv : isValues q = true) {o : PQuery Bound Tab × List Name}
    (h : sqlQuery ro sch ctes outer q = some o) : o.2 = [] := by
  cases q with
  | values rows =>
    simp only [sqlQuery, Option.map_eq_some_iff] at h
    obtain ⟨_, _, rfl⟩ := h
    rfl
  | select => simp [isValues] at hv
  | setop => simp [isValues] at hv

theorem named_shape {ctes : List (Name × List Name)} {outer : List Frame} {q : PQuery Raw RangeVar} {o : PQuery Bound Tab × List Name}
    (h : sqlQuery ro sch ctes outer q = some o) (s : Scope) (hs : s.shape = o.2) (cols : List Name) :
    (if isValues q then nameColumns s cols else s).shape = if isValues q then cols else o.2 := by
  by_cases hv : isValues q = true
  · rw [if_pos hv, if_pos hv]
    unfold nameColumns
    split
    · rename_i hc; rw [hs, values_shape hv h, hc]
    · rfl
  · rw [if_neg hv, if_neg hv]; exact hs

/-- The fields that the other clauses start from. -/
def Fresh (s : Scope) : Prop := s.produced = [] ∧ s.setops = []

theorem fresh_own {s : Scope} (h : Fresh s) (c : Name) : c ∈ ([] : List Name) ↔ c ∈ s.produced := by rw [h.1]

set_option maxHeartbeats 1000000 in
mutual

theorem expr_ok {x : Cfg} (hx : x.schema = sch) (hca : x.caching = false) : ∀ (e : PExpr Raw RangeVar) {ctes up outer s f own o}, Good ro sch ctes up outer s f →
    (∀ c, c ∈ own ↔ c ∈ s.produced) → sqlExpr ro sch ctes outer f own e = some o → parseExpr x up s e = some (o, s)
  | .ref r, ctes, up, outer, s, f, own, o, h, ho, he => by
    simp only [sqlExpr, Option.map_eq_some_iff] at he
    obtain ⟨b, hb, rfl⟩ := he
    simp only [parseExpr, ref_ok hx hca h ho r b hb, Option.map_some]
  | .op args, ctes, up, outer, s, f, own, o, h, ho, he => by
    simp only [sqlExpr, Option.map_eq_some_iff] at he
    obtain ⟨b, hb, rfl⟩ := he
    simp only [parseExpr, exprs_ok hx hca args h ho hb, Option.map_some]
  | .sub q tests, ctes, up, outer, s, f, own, o, h, ho, he => by
    simp only [sqlExpr, rows_eq] at he
    split at he
    · simp at he
    · rename_i hv
      simp only [Option.bind_eq_some_iff, Option.map_eq_some_iff] at he
      obtain ⟨a, ha, p, hp, rfl⟩ := he
      obtain ⟨s', h1, _⟩ := query_ok hx hca q h.child ha
      simp only [parseExpr, if_neg hv, h1, Option.bind_some, exprs_ok hx hca tests h ho hp, Option.map_some]

theorem exprs_ok {x : Cfg} (hx : x.schema = sch) (hca : x.caching = false) : ∀ (e : PExprs Raw RangeVar) {ctes up outer s f own o}, Good ro sch ctes up outer s f →
    (∀ c, c ∈ own ↔ c ∈ s.produced) → sqlExprs ro sch ctes outer f own e = some o → parseExprs x up s e = some (o, s)
  | .nil, ctes, up, outer, s, f, own, o, h, ho, he => by
    simp only [sqlExprs, Option.some.injEq] at he
    subst he
    rfl
  | .cons e es, ctes, up, outer, s, f, own, o, h, ho, he => by
    simp only [sqlExprs, Option.bind_eq_some_iff, Option.map_eq_some_iff] at he
    obtain ⟨a, ha, p, hp, rfl⟩ := he
    simp only [parseExprs, expr_ok hx hca e h ho ha, Option.bind_some, exprs_ok hx hca es h ho hp, Option.map_some]

theorem order_ok {x : Cfg} (hx : x.schema = sch) (hca : x.caching = false) : ∀ (e : PExprs Raw RangeVar) {ctes up outer s f own o}, Good ro sch ctes up outer s f →
    (∀ c, c ∈ own ↔ c ∈ s.produced) → sqlOrder ro sch ctes outer f own e = some o → parseExprs x up s e = some (o, s)
  | .nil, ctes, up, outer, s, f, own, o, h, ho, he => by
    simp only [sqlOrder, Option.some.injEq] at he
    subst he
    rfl
  | .cons e es, ctes, up, outer, s, f, own, o, h, ho, he => by
    have ih : ∀ {p}, sqlOrder ro sch ctes outer f own es = some p → parseExprs x up s es = some (p, s) := fun hp => order_ok hx hca es h ho hp
    have ie : ∀ {p}, sqlExpr ro sch ctes outer f own e = some p → parseExpr x up s e = some (p, s) := fun hp => expr_ok hx hca e h ho hp
    unfold sqlOrder at he
    split at he
    · rename_i heq; simp at heq
    · rename_i c es' heq
      simp only [PExprs.cons.injEq] at heq
      obtain ⟨rfl, rfl⟩ := heq
      simp only [Option.bind_eq_some_iff, Option.map_eq_some_iff] at he
      obtain ⟨a, ha, p, hp, rfl⟩ := he
      simp only [parseExprs]
      by_cases hc : c ∈ own
      · rw [if_pos hc] at ha
        simp at ha
        subst ha
        have : parseExpr x up s (.ref (.col c)) = some (.ref (.col c none), s) := by
          simp only [parseExpr, parseRef, lookupColumn, if_pos ((ho c).1 hc), Option.map_some]
        simp only [this, Option.bind_some, ih hp, Option.map_some]
      · rw [if_neg hc] at ha
        have : sqlExpr ro sch ctes outer f own (.ref (.col c)) = some a := by simpa only [sqlExpr] using ha
        simp only [ie this, Option.bind_some, ih hp, Option.map_some]
    · rename_i e' es' _ heq
      simp only [PExprs.cons.injEq] at heq
      obtain ⟨rfl, rfl⟩ := heq
      simp only [Option.bind_eq_some_iff, Option.map_eq_some_iff] at he
      obtain ⟨a, ha, p, hp, rfl⟩ := he
      simp only [parseExprs, ie ha, Option.bind_some, ih hp, Option.map_some]

theorem from_ok {x : Cfg} (hx : x.schema = sch) (hca : x.caching = false) : ∀ (g : PFrom Raw RangeVar) {ctes up outer s f o}, Good ro sch ctes up outer s f → Fresh s →
    sqlFrom ro sch ctes outer f g = some o → ∃ s', parseFrom x up s g = some (o.1, s') ∧ Good ro sch ctes up outer s' o.2 ∧ Fresh s'
  | .rel v, ctes, up, outer, s, f, o, h, hfr, he => by
    simp only [sqlFrom, Option.map_eq_some_iff] at he
    obtain ⟨e, he, rfl⟩ := he
    obtain ⟨h1, h2⟩ := rel_ok hx h v e he
    refine ⟨register s e.tab, ?_, h2, hfr⟩
    simp only [parseFrom, h1]
  | .join l r quals, ctes, up, outer, s, f, o, h, hfr, he => by
    simp only [sqlFrom, Option.bind_eq_some_iff, Option.map_eq_some_iff] at he
    obtain ⟨a, ha, b, hb, c, hc, rfl⟩ := he
    obtain ⟨s1, p1, g1, f1⟩ := from_ok hx hca l h hfr ha
    obtain ⟨s2, p2, g2, f2⟩ := from_ok hx hca r g1 f1 hb
    refine ⟨s2, ?_, g2, f2⟩
    simp only [parseFrom, p1, Option.bind_some, p2, exprs_ok hx hca quals g2 (fresh_own f2) hc, Option.map_some]
  | .sub q als cols, ctes, up, outer, s, f, o, h, hfr, he => by
    cases als with
    | none => simp [sqlFrom] at he
    | some a =>
      simp only [sqlFrom, rows_eq] at he
      split at he
      · simp at he
      · rename_i hcond
        simp only [not_or, ne_eq, not_not, Bool.not_eq_true] at hcond
        obtain ⟨ha, hvis, _⟩ := hcond
        simp only [Option.map_eq_some_iff] at he
        obtain ⟨o', ho', rfl⟩ := he
        have hf : (f.any fun e => e.vis == a) = false := by
          rw [List.any_cons, Bool.or_eq_false_iff] at hvis
          exact hvis.1
        have g1 := sub_ok h a ha hf [] true (openSub s a) rfl rfl (fun b => Dict.get?_set _ _ _ _) rfl
        obtain ⟨s', p1, hsh⟩ := query_ok hx hca q g1.child ho'
        have g2 := sub_ok h a ha hf (if isValues q then cols else o'.2) false
          { openSub s a with subs := (openSub s a).subs.set a (if isValues q then nameColumns s' cols else s').shape } rfl rfl
          (fun b => by
            show Dict.get? (Dict.set (Dict.set s.subs a []) a _) b = _
            rw [Dict.get?_set, Dict.get?_set, named_shape ho' s' hsh cols]
            split <;> rfl) rfl
        refine ⟨_, ?_, g2, hfr⟩
        simp only [parseFrom, p1, Option.map_some]
  | .func e als, ctes, up, outer, s, f, o, h, hfr, he => by simp [sqlFrom] at he

theorem froms_ok {x : Cfg} (hx : x.schema = sch) (hca : x.caching = false) : ∀ (g : PFroms Raw RangeVar) {ctes up outer s f o}, Good ro sch ctes up outer s f → Fresh s →
    sqlFroms ro sch ctes outer f g = some o → ∃ s', parseFroms x up s g = some (o.1, s') ∧ Good ro sch ctes up outer s' o.2 ∧ Fresh s'
  | .nil, ctes, up, outer, s, f, o, h, hfr, he => by
    simp only [sqlFroms, Option.some.injEq] at he
    subst he
    exact ⟨s, rfl, h, hfr⟩
  | .cons g gs, ctes, up, outer, s, f, o, h, hfr, he => by
    simp only [sqlFroms, Option.bind_eq_some_iff, Option.map_eq_some_iff] at he
    obtain ⟨a, ha, b, hb, rfl⟩ := he
    obtain ⟨s1, p1, g1, f1⟩ := from_ok hx hca g h hfr ha
    obtain ⟨s2, p2, g2, f2⟩ := froms_ok hx hca gs g1 f1 hb
    refine ⟨s2, ?_, g2, f2⟩
    simp only [parseFroms, p1, Option.bind_some, p2, Option.map_some]

theorem targets_ok {x : Cfg} (hx : x.schema = sch) (hca : x.caching = false) : ∀ (ts : PTargets Raw RangeVar) {ctes up outer s f o}, Good ro sch ctes up outer s f → Fresh s →
    sqlTargets ro sch ctes outer f ts = some o → parseTargets x up s ts = some (o, s) ∧ targetsShape x s up o = some (sqlShape f outer ts)
  | .nil, ctes, up, outer, s, f, o, h, hfr, he => by
    simp only [sqlTargets, Option.some.injEq] at he
    subst he
    exact ⟨rfl, rfl⟩
  | .cons e als ts, ctes, up, outer, s, f, o, h, hfr, he => by
    simp only [sqlTargets, Option.bind_eq_some_iff, Option.map_eq_some_iff] at he
    obtain ⟨a, ha, b, hb, rfl⟩ := he
    obtain ⟨p1, p2⟩ := targets_ok hx hca ts h hfr hb
    simp only [parseTargets, expr_ok hx hca e h (fresh_own hfr) ha, Option.bind_some, p1, Option.map_some, targetsShape, target_ok hx h e als a ha, p2, sqlShape, and_self]

theorem ctes_ok {x : Cfg} (hx : x.schema = sch) (hca : x.caching = false) : ∀ (cs : PCtes Raw RangeVar) {ctes up outer s o}, Good ro sch ctes up outer s [] → Fresh s →
    sqlCtes ro sch ctes outer cs = some o → ∃ s', parseCtes x up s cs = some (o.1, s') ∧ Good ro sch o.2 up outer s' [] ∧ Fresh s'
  | .nil, ctes, up, outer, s, o, h, hfr, he => by
    simp only [sqlCtes, Option.some.injEq] at he
    subst he
    exact ⟨s, rfl, h, hfr⟩
  | .cons n q cols cs, ctes, up, outer, s, o, h, hfr, he => by
    simp only [sqlCtes, rows_eq] at he
    split at he
    · simp at he
    · rename_i hcond
      simp only [not_or, ne_eq, not_not] at hcond
      obtain ⟨hro, hl, _⟩ := hcond
      have hn : ro n = .cte ∨ ro n = .cteRenamed := by
        by_contra hc
        rw [not_or] at hc
        exact hro hc
      simp only [Option.bind_eq_some_iff, Option.map_eq_some_iff] at he
      obtain ⟨a, ha, p, hp, rfl⟩ := he
      have g1 := (cte_ok h n hn hl (openCte s n) rfl rfl rfl [] (fun m => Dict.get?_set _ _ _ _)).1
      obtain ⟨s', p1, hsh⟩ := query_ok hx hca q g1.child ha
      have g2 := (cte_ok h n hn hl
        { openCte s n with ctes := (openCte s n).ctes.set n (if isValues q then nameColumns s' cols else s').shape } rfl rfl rfl (if isValues q then cols else a.2)
        (fun m => by
          show Dict.get? (Dict.set (Dict.set s.ctes n []) n _) m = _
          rw [Dict.get?_set, Dict.get?_set, named_shape ha s' hsh cols]
          split <;> rfl)).2
      obtain ⟨s2, p2, g3, f3⟩ := ctes_ok hx hca cs g2 hfr hp
      refine ⟨s2, ?_, g3, f3⟩
      simp only [parseCtes, p1, Option.bind_some, p2, Option.map_some]

theorem query_ok {x : Cfg} (hx : x.schema = sch) (hca : x.caching = false) : ∀ (q : PQuery Raw RangeVar) {ctes up outer o}, Good ro sch ctes up outer {} [] →
    sqlQuery ro sch ctes outer q = some o → ∃ s', parseQuery x up {} q = some (o.1, s') ∧ s'.shape = o.2
  | .select cs fs dist ts rest order, ctes, up, outer, o, h, he => by
    simp only [sqlQuery, own_eq, Option.bind_eq_some_iff, Option.map_eq_some_iff] at he
    obtain ⟨a, ha, b, hb, c, hc, d, hd, e, he, g, hg, rfl⟩ := he
    obtain ⟨s1, p1, g1, f1⟩ := ctes_ok hx hca cs h ⟨rfl, rfl⟩ ha
    obtain ⟨s2, p2, g2, f2⟩ := froms_ok hx hca fs g1 f1 hb
    have p3 := exprs_ok hx hca dist g2 (fresh_own f2) hc
    obtain ⟨p4, p5⟩ := targets_ok hx hca ts g2 f2 hd
    have g3 : Good ro sch a.2 up outer { s2 with shape := sqlShape b.2 outer ts, produced := s2.produced ++ aliases ts } b.2 := g2.same rfl rfl rfl rfl
    have ho : ∀ c, c ∈ aliases ts ↔ c ∈ s2.produced ++ aliases ts := by intro c; rw [f2.1]; rfl
    have p6 := exprs_ok hx hca rest g3 ho he
    have p7 := order_ok hx hca order g3 ho hg
    refine ⟨{ s2 with shape := sqlShape b.2 outer ts, produced := s2.produced ++ aliases ts }, ?_, rfl⟩
    simp only [parseQuery, p1, p2, p3, p4, p5, p6, p7, Option.bind_some, Option.map_some]
  | .setop cs l r order, ctes, up, outer, o, h, he => by
    simp only [sqlQuery, rows_eq] at he
    split at he
    · simp at he
    · rename_i hv
      simp only [Option.bind_eq_some_iff, Option.map_eq_some_iff] at he
      obtain ⟨a, ha, b, hb, c, hc, d, hd, rfl⟩ := he
      obtain ⟨s1, p1, g1, f1⟩ := ctes_ok hx hca cs h ⟨rfl, rfl⟩ ha
      have g2 : Good ro sch a.2 up outer { s1 with cache := [], setops := s1.setops ++ [[]] } [] := g1.same rfl rfl rfl rfl
      obtain ⟨s2, p2, h2⟩ := query_ok hx hca l g2.child hb
      have g3 : Good ro sch a.2 up outer { s1 with cache := [], setops := s1.setops ++ [s2.shape] ++ [[]] } [] := g1.same rfl rfl rfl rfl
      obtain ⟨s3, p3, h3⟩ := query_ok hx hca r g3.child hc
      have g4 : Good ro sch a.2 up outer { s1 with cache := [], setops := s1.setops ++ [s2.shape] ++ [s3.shape] } [] := g1.same rfl rfl rfl rfl
      have p4 := exprs_ok hx hca order g4 (fun c => by show _ ↔ c ∈ s1.produced; rw [f1.1]) hd
      refine ⟨{ s1 with cache := [], setops := s1.setops ++ [s2.shape] ++ [s3.shape], shape := (s1.setops ++ [s2.shape] ++ [s3.shape]).headD [] }, ?_, ?_⟩
      · simp only [parseQuery, if_neg hv, p1, p2, p3, p4, Option.bind_some, Option.map_some]
      · show (s1.setops ++ [s2.shape] ++ [s3.shape]).headD [] = b.2
        rw [f1.2, ← h2]
        rfl
  | .values rows, ctes, up, outer, o, h, he => by
    simp only [sqlQuery, Option.map_eq_some_iff] at he
    obtain ⟨a, ha, rfl⟩ := he
    refine ⟨{}, ?_, rfl⟩
    simp only [parseQuery, exprs_ok hx hca rows h (fun c => by simp) ha, Option.map_some]

end

/-- C156: whenever the rules of SQL determine the tables of all references in a statement, the parser finds exactly these tables, with any number of nested subqueries, WITH queries,
joins and set operations. Missing: the statements for which `sql` has no result, see there and the theorems below. -/
theorem C156_resolution_partial (ro : Name → Role) (x : Cfg) (q : PQuery Raw RangeVar) (q' : PQuery Bound Tab) (h : sql ro x.schema q = some q') : parse x q = some q' := by
  rw [C157_cache]
  unfold sql at h
  unfold parse
  rw [rows_eq] at h
  split at h
  · simp at h
  · rename_i hv
    rw [if_neg hv]
    simp only [Option.map_eq_some_iff] at h
    obtain ⟨o, ho, rfl⟩ := h
    have hg : Good ro x.schema [] [] [] {} [] :=
      ⟨.cons ⟨rfl, by simp, by intro t _; rfl, by intro t _ tab h; simp [Dict.get?] at h, by intro t _ tab h; simp [Dict.get?] at h, by intro b hb; simp [Dict.keys] at hb,
        by intro b hb; simp [Dict.keys] at hb⟩ .nil, by intro n cols h; simp at h⟩
    obtain ⟨s', h1, _⟩ := query_ok (x := { x with caching := false }) (ro := ro) rfl rfl q hg ho
    rw [h1]
    rfl

section Examples

/-- Lists of expressions and so on. -/
def es : List (PExpr Raw RangeVar) → PExprs Raw RangeVar
  | [] => .nil
  | e :: l => .cons e (es l)

def ts : List (PExpr Raw RangeVar × Option Name) → PTargets Raw RangeVar
  | [] => .nil
  | e :: l => .cons e.1 e.2 (ts l)

def fr : List (PFrom Raw RangeVar) → PFroms Raw RangeVar
  | [] => .nil
  | f :: l => .cons f (fr l)

def es' : List (PExpr Bound Tab) → PExprs Bound Tab
  | [] => .nil
  | e :: l => .cons e (es' l)

def ts' : List (PExpr Bound Tab × Option Name) → PTargets Bound Tab
  | [] => .nil
  | e :: l => .cons e.1 e.2 (ts' l)

def fr' : List (PFrom Bound Tab) → PFroms Bound Tab
  | [] => .nil
  | f :: l => .cons f (fr' l)

/-- The tables R(a, b), S(c, d) and T(e) with the numbers 100 to 102; columns have the numbers 1 to 5. -/
def cat : Name → List Name
  | 100 => [1, 2]
  | 101 => [3, 4]
  | 102 => [5]
  | _ => []

/-- The roles in the example: w (200) is a WITH query, u (201) a subquery, t (202) an alias of T. -/
def roles : Name → Role
  | 200 => .cte
  | 201 => .subAlias
  | 202 => .tableAlias
  | 102 => .renamed
  | _ => .plain

/-- `WITH w AS (SELECT a AS x, R.b FROM R) SELECT x AS k, S.* FROM w, S JOIN (SELECT * FROM T AS t WHERE t.e = 1) AS u ON u.e = d
WHERE EXISTS (SELECT * FROM R WHERE R.a = w.b AND b = 2) ORDER BY k` with x = 6 and k = 7. -/
def statement : PQuery Raw RangeVar :=
  .select (.cons 200 (.select .nil (fr [.rel ⟨100, none⟩]) .nil (ts [(.ref (.col 1), some 6), (.ref (.qcol 100 2), none)]) .nil .nil) [] .nil)
    (fr [.rel ⟨200, none⟩, .join (.rel ⟨101, none⟩)
      (.sub (.select .nil (fr [.rel ⟨102, some 202⟩]) .nil (ts [(.ref .star, none)]) (es [.op (es [.ref (.qcol 202 5)])]) .nil) (some 201) [])
      (es [.op (es [.ref (.qcol 201 5), .ref (.col 4)])])])
    .nil (ts [(.ref (.col 6), some 7), (.ref (.qstar 101), none)])
    (es [.sub (.select .nil (fr [.rel ⟨100, none⟩]) .nil (ts [(.ref .star, none)]) (es [.op (es [.ref (.qcol 100 1), .ref (.qcol 200 2)]), .op (es [.ref (.col 2)])]) .nil) .nil])
    (es [.ref (.col 7)])

/-- The statement with the tables of all columns. -/
def resolved : PQuery Bound Tab :=
  let r : Tab := ⟨some 100, none, false⟩
  let s : Tab := ⟨some 101, none, false⟩
  let t : Tab := ⟨some 102, some 202, false⟩
  let w : Tab := ⟨none, some 200, true⟩
  let u : Tab := ⟨none, some 201, true⟩
  .select (.cons 200 (.select .nil (fr' [.rel r]) .nil (ts' [(.ref (.col 1 (some r)), some 6), (.ref (.col 2 (some r)), none)]) .nil .nil) [] .nil)
    (fr' [.rel w, .join (.rel s)
      (.sub (.select .nil (fr' [.rel t]) .nil (ts' [(.ref (.star none), none)]) (es' [.op (es' [.ref (.col 5 (some t))])]) .nil) (some 201) [])
      (es' [.op (es' [.ref (.col 5 (some u)), .ref (.col 4 (some s))])])])
    .nil (ts' [(.ref (.col 6 (some w)), some 7), (.ref (.star (some s)), none)])
    (es' [.sub (.select .nil (fr' [.rel r]) .nil (ts' [(.ref (.star none), none)]) (es' [.op (es' [.ref (.col 1 (some r)), .ref (.col 2 (some w))]), .op (es' [.ref (.col 2 (some r))])]) .nil)
      .nil])
    (es' [.ref (.col 7 none)])

example : sql roles cat statement = some resolved := by with_unfolding_all rfl
example : parse ⟨cat, true⟩ statement = some resolved := C156_resolution_partial roles ⟨cat, true⟩ _ _ (by with_unfolding_all rfl)

/-- SELECT without WITH queries, DISTINCT ON and ORDER BY. -/
def sel (fs : List (PFrom Raw RangeVar)) (t : List (PExpr Raw RangeVar × Option Name)) (w : List (PExpr Raw RangeVar)) : PQuery Raw RangeVar := .select .nil (fr fs) .nil (ts t) (es w) .nil

def sel' (fs : List (PFrom Bound Tab)) (t : List (PExpr Bound Tab × Option Name)) (w : List (PExpr Bound Tab)) : PQuery Bound Tab := .select .nil (fr' fs) .nil (ts' t) (es' w) .nil

/-- C156: in `SELECT R.a FROM R, R AS y` the column is taken from `y`. -/
theorem C156_selfjoin_violated : parse ⟨cat, true⟩ (sel [.rel ⟨100, none⟩, .rel ⟨100, some 300⟩] [(.ref (.qcol 100 1), none)] []) =
    some (sel' [.rel ⟨some 100, none, false⟩, .rel ⟨some 100, some 300, false⟩] [(.ref (.col 1 (some ⟨some 100, some 300, false⟩)), none)] []) := by
  with_unfolding_all rfl

/-- C156: in `SELECT * FROM R WHERE EXISTS (SELECT * FROM R AS y WHERE y.a = R.b)` the correlated column `R.b` is taken from `y`. -/
theorem C156_correlated_selfjoin_violated :
    parse ⟨cat, true⟩ (sel [.rel ⟨100, none⟩] [(.ref .star, none)]
      [.sub (sel [.rel ⟨100, some 300⟩] [(.ref .star, none)] [.op (es [.ref (.qcol 300 1), .ref (.qcol 100 2)])]) .nil]) =
    some (sel' [.rel ⟨some 100, none, false⟩] [(.ref (.star none), none)]
      [.sub (sel' [.rel ⟨some 100, some 300, false⟩] [(.ref (.star none), none)]
        [.op (es' [.ref (.col 1 (some ⟨some 100, some 300, false⟩)), .ref (.col 2 (some ⟨some 100, some 300, false⟩))])]) .nil]) := by
  with_unfolding_all rfl

/-- C156: in `SELECT * FROM R WHERE EXISTS (SELECT * FROM S WHERE c = a)` the correlated column `a` stays without table. -/
theorem C156_correlated_unqualified_violated :
    parse ⟨cat, true⟩ (sel [.rel ⟨100, none⟩] [(.ref .star, none)] [.sub (sel [.rel ⟨101, none⟩] [(.ref .star, none)] [.op (es [.ref (.col 3), .ref (.col 1)])]) .nil]) =
    some (sel' [.rel ⟨some 100, none, false⟩] [(.ref (.star none), none)]
      [.sub (sel' [.rel ⟨some 101, none, false⟩] [(.ref (.star none), none)] [.op (es' [.ref (.col 3 (some ⟨some 101, none, false⟩)), .ref (.col 1 none)])]) .nil]) := by
  with_unfolding_all rfl

/-- C156: in `SELECT a AS b FROM R WHERE b = 1` the column `b` of the WHERE clause stays without table because the SELECT clause has an alias with this name. -/
theorem C156_alias_violated : parse ⟨cat, true⟩ (sel [.rel ⟨100, none⟩] [(.ref (.col 1), some 2)] [.op (es [.ref (.col 2)])]) =
    some (sel' [.rel ⟨some 100, none, false⟩] [(.ref (.col 1 (some ⟨some 100, none, false⟩)), some 2)] [.op (es' [.ref (.col 2 none)])]) := by
  with_unfolding_all rfl

/-- C156: in `WITH w AS (SELECT a FROM R) SELECT a FROM w AS v` the column stays without table. -/
theorem C156_renamed_cte_violated :
    parse ⟨cat, true⟩ (.select (.cons 200 (sel [.rel ⟨100, none⟩] [(.ref (.col 1), none)] []) [] .nil) (fr [.rel ⟨200, some 300⟩]) .nil (ts [(.ref (.col 1), none)]) .nil .nil) =
    some (.select (.cons 200 (sel' [.rel ⟨some 100, none, false⟩] [(.ref (.col 1 (some ⟨some 100, none, false⟩)), none)] []) [] .nil)
      (fr' [.rel ⟨some 200, some 300, true⟩]) .nil (ts' [(.ref (.col 1 none), none)]) .nil .nil) := by
  with_unfolding_all rfl

/-- C156: in `WITH R AS (SELECT R.a FROM R) SELECT a FROM R` the table in the definition of the WITH query is taken for the WITH query itself. -/
theorem C156_shadowing_cte_violated :
    parse ⟨cat, true⟩ (.select (.cons 100 (sel [.rel ⟨100, none⟩] [(.ref (.qcol 100 1), none)] []) [] .nil) (fr [.rel ⟨100, none⟩]) .nil (ts [(.ref (.col 1), none)]) .nil .nil) =
    some (.select (.cons 100 (sel' [.rel ⟨none, some 100, true⟩] [(.ref (.col 1 (some ⟨none, some 100, true⟩)), none)] []) [] .nil)
      (fr' [.rel ⟨none, some 100, true⟩]) .nil (ts' [(.ref (.col 1 (some ⟨none, some 100, true⟩)), none)]) .nil .nil) := by
  with_unfolding_all rfl

/-- C156: in `SELECT * FROM (SELECT a FROM R) AS S, (SELECT c FROM S) AS v` the table of the second subquery is taken for the first subquery, and `c` stays without table. -/
theorem C156_subquery_name_violated :
    parse ⟨cat, true⟩ (sel [.sub (sel [.rel ⟨100, none⟩] [(.ref (.col 1), none)] []) (some 101) [], .sub (sel [.rel ⟨101, none⟩] [(.ref (.col 3), none)] []) (some 300) []]
      [(.ref .star, none)] []) =
    some (sel' [.sub (sel' [.rel ⟨some 100, none, false⟩] [(.ref (.col 1 (some ⟨some 100, none, false⟩)), none)] []) (some 101) [],
      .sub (sel' [.rel ⟨none, some 101, true⟩] [(.ref (.col 3 none), none)] []) (some 300) []] [(.ref (.star none), none)] []) := by
  with_unfolding_all rfl

/-- C156: in `SELECT k FROM (SELECT a FROM R) AS v (k)` the column stays without table, and in `SELECT a FROM (SELECT a FROM R) AS v (k)`, which is not valid, it is found. -/
theorem C156_column_aliases_violated :
    parse ⟨cat, true⟩ (sel [.sub (sel [.rel ⟨100, none⟩] [(.ref (.col 1), none)] []) (some 300) [7]] [(.ref (.col 7), none), (.ref (.col 1), none)] []) =
    some (sel' [.sub (sel' [.rel ⟨some 100, none, false⟩] [(.ref (.col 1 (some ⟨some 100, none, false⟩)), none)] []) (some 300) [7]]
      [(.ref (.col 7 none), none), (.ref (.col 1 (some ⟨none, some 300, true⟩)), none)] []) := by
  with_unfolding_all rfl

end Examples

mutual

theorem expr_scope {x : Cfg} (hca : x.caching = false) : ∀ (e : PExpr Raw RangeVar) {up s o}, parseExpr x up s e = some o → o.2 = s
  | .ref r, up, s, o, h => by
    simp only [parseExpr, Option.map_eq_some_iff] at h
    obtain ⟨b, hb, rfl⟩ := h
    cases r with
    | col c =>
      simp only [parseRef, Option.some.injEq] at hb
      subst hb
      simp only [lookupColumn, hca, Bool.false_eq_true, if_false]
      repeat' split
      all_goals rfl
    | qcol t c =>
      simp only [parseRef, Option.map_eq_some_iff] at hb
      obtain ⟨_, _, rfl⟩ := hb
      rfl
    | star => simp only [parseRef, Option.some.injEq] at hb; subst hb; rfl
    | qstar t => simp only [parseRef, Option.some.injEq] at hb; subst hb; rfl
  | .op args, up, s, o, h => by
    simp only [parseExpr, Option.map_eq_some_iff] at h
    obtain ⟨b, hb, rfl⟩ := h
    exact exprs_scope hca args hb
  | .sub q tests, up, s, o, h => by
    simp only [parseExpr] at h
    split at h
    · simp at h
    · simp only [Option.bind_eq_some_iff, Option.map_eq_some_iff] at h
      obtain ⟨_, _, b, hb, rfl⟩ := h
      exact exprs_scope hca tests hb

theorem exprs_scope {x : Cfg} (hca : x.caching = false) : ∀ (e : PExprs Raw RangeVar) {up s o}, parseExprs x up s e = some o → o.2 = s
  | .nil, up, s, o, h => by
    simp only [parseExprs, Option.some.injEq] at h
    subst h
    rfl
  | .cons e es, up, s, o, h => by
    simp only [parseExprs, Option.bind_eq_some_iff, Option.map_eq_some_iff] at h
    obtain ⟨a, ha, b, hb, rfl⟩ := h
    have := exprs_scope hca es hb
    rw [expr_scope hca e ha] at this
    exact this

end

/-- C156: columns of functions in the FROM clause cannot be referenced with the alias of the function: the parser fails for any statement of the form
`SELECT f.c FROM f(…) AS f`. -/
theorem C156_function_violated (x : Cfg) (e : PExpr Raw RangeVar) (a c : Name) : parse x (sel [.func e (some a)] [(.ref (.qcol a c), none)] []) = none := by
  rw [C157_cache]
  generalize hy : ({ x with caching := false } : Cfg) = y
  have hca : y.caching = false := by rw [← hy]
  cases he : parseExpr y [] {} e with
  | none => simp [parse, isValues, sel, fr, parseQuery, parseCtes, parseFroms, parseFrom, he]
  | some o =>
    have ho := expr_scope hca e he
    simp [parse, isValues, sel, fr, ts, es, parseQuery, parseCtes, parseFroms, parseFrom, he, ho, parseExprs, parseTargets, parseExpr, parseRef, resolveTable, Dict.get?, Dict.has]

/-- C156: columns without qualifier are always taken from the first table that has them, although the statement is ambiguous in SQL and rejected by the database. -/
theorem C156_ambiguous_violated (x : Cfg) (n m c : Name) (hnm : n ≠ m) (hn : c ∈ x.schema n) :
    parse x (sel [.rel ⟨n, none⟩, .rel ⟨m, none⟩] [(.ref (.col c), none)] []) =
      some (sel' [.rel ⟨some n, none, false⟩, .rel ⟨some m, none, false⟩] [(.ref (.col c (some ⟨some n, none, false⟩)), none)] []) := by
  rw [C157_cache]
  simp [parse, isValues, sel, sel', fr, ts, es, fr', ts', es', parseQuery, parseCtes, parseFroms, parseFrom, rangeTable, resolveTable, Dict.get?, Dict.has, register, parseExprs,
    parseTargets, parseExpr, parseRef, lookupColumn, provides, columnsOf, hn, targetsShape, projShape, Dict.set]
  rw [if_neg hnm]

example : (1 : Name) ∈ (fun _ => [1] : Name → List Name) 100 ∧ (100 : Nat) ≠ 101 := by decide

/-! ### The schema cache -/

/-- The calls to the cache of the schema: a new statement with a schema, or none, and questions for the columns of a table. -/
inductive SchemaCall (S : Type) where
  | start (s : Option S)
  | ask (t : Name)

/-- The answers of the cache. -/
def answers {S : Type} (same : S → S → Bool) (cols : S → Name → List Name) : SchemaState S → List (SchemaCall S) → List (List Name)
  | _, [] => []
  | st, .start s :: l => answers same cols (st.init same s) l
  | st, .ask t :: l => (st.columns cols t).1 :: answers same cols (st.columns cols t).2 l

/-- The columns in the schema of the current statement, without schema none. -/
def direct {S : Type} (cols : S → Name → List Name) : Option S → List (SchemaCall S) → List (List Name)
  | _, [] => []
  | _, .start s :: l => direct cols s l
  | o, .ask t :: l => (match o with
    | some s => cols s t
    | none => []) :: direct cols o l

theorem answers_eq {S : Type} (same : S → S → Bool) (cols : S → Name → List Name) (hs : ∀ s s', same s s' = true → cols s = cols s') :
    ∀ (l : List (SchemaCall S)) (st : SchemaState S) (o : Option S), (o.map cols = st.schema.map cols) →
      (∀ t v, st.cache.get? t = some v → ∃ s, st.schema = some s ∧ v = cols s t) → answers same cols st l = direct cols o l := by
  intro l
  induction l with
  | nil => intros; rfl
  | cons c l ih =>
    intro st o ho hc
    cases c with
    | start s =>
      simp only [answers, direct]
      unfold SchemaState.init
      cases hst : st.schema with
      | none =>
        refine ih _ _ rfl ?_
        intro t v hv
        obtain ⟨s', h1, _⟩ := hc t v hv
        rw [hst] at h1
        simp at h1
      | some s0 =>
        cases s with
        | none => exact ih _ _ rfl (by intro t v hv; simp [Dict.get?] at hv)
        | some s1 =>
          simp only
          split
          · rename_i hsame
            exact ih _ _ (by rw [hst]; simp [hs _ _ hsame]) hc
          · exact ih _ _ rfl (by intro t v hv; simp [Dict.get?] at hv)
    | ask t =>
      simp only [answers, direct]
      unfold SchemaState.columns
      cases hst : st.schema with
      | none =>
        rw [hst] at ho
        cases o with
        | some s => simp at ho
        | none =>
          simp only
          rw [ih st none (by rw [hst]) hc]
      | some s0 =>
        rw [hst] at ho
        cases o with
        | none => simp at ho
        | some s =>
          simp at ho
          cases hg : st.cache.get? t with
          | some v =>
            obtain ⟨s', h1, h2⟩ := hc t v hg
            rw [hst] at h1
            obtain rfl := Option.some.inj h1
            simp only
            rw [ih st (some s) (by rw [hst]; simp [ho]) hc, h2, ho]
          | none =>
            simp only
            rw [ho, ih _ (some s) (by simp [ho]) ?_]
            intro t' v hv
            rw [Dict.get?_set] at hv
            split at hv
            · rename_i htt
              subst htt
              exact ⟨s0, rfl, (Option.some.inj hv).symm⟩
            · obtain ⟨s', h1, h2⟩ := hc t' v hv
              rw [hst] at h1
              exact ⟨s', h1, h2⟩

/-- C158: for every sequence of statements and questions, with any schemas in any order, the answers of the cache are the columns in the schema that was passed for the statement. Missing: schemas
that are considered equal but have different columns, see below. -/
theorem C158_schema_cache_partial {S : Type} (same : S → S → Bool) (cols : S → Name → List Name) (hs : ∀ s s', same s s' = true → cols s = cols s') (l : List (SchemaCall S)) :
    answers same cols {} l = direct cols none l :=
  answers_eq same cols hs l {} none rfl (by intro t v hv; simp [Dict.get?] at hv)

example : answers (S := Nat) (fun a b => a == b) (fun s t => [s, t]) {} [.ask 1, .start (some 5), .ask 1, .ask 1, .start none, .ask 1, .start (some 6), .ask 1, .start (some 5), .ask 1] =
    [[], [5, 1], [5, 1], [], [6, 1], [5, 1]] := by decide

/-- C158: schemas are equal if they belong to the same database connection. If a table changes between two statements (`s` and `s'` describe the same connection before and after), the
answers are the old columns. -/
theorem C158_changed_table_violated {S : Type} (same : S → S → Bool) (cols : S → Name → List Name) (s s' : S) (t : Name) (h : same s s' = true) :
    answers same cols {} [.start (some s), .ask t, .start (some s'), .ask t] = [cols s t, cols s t] := by
  simp [answers, SchemaState.init, SchemaState.columns, h, Dict.get?, Dict.set]

end PB.NspProps
