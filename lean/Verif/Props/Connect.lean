import Verif.Model.Connect
import Mathlib.Data.List.Basic
import Mathlib.Data.List.Nodup
import Mathlib.Data.List.Perm.Subperm

/-!
# Connections and the database pool: properties
-/

set_option linter.unusedSimpArgs false
set_option linter.unusedVariables false
set_option linter.unnecessarySimpa false
set_option linter.unnecessarySeqFocus false

namespace PB.ConnectProps

open PB.Connect

/-! ## Specification -/

/-- What can happen: calls of `connect` for all systems, clearing the pool, and breaking connections. -/
inductive Event
  | pg (name : String) (target : Option String) (refresh priv : Bool)
  | duck (name file : String) (refresh priv : Bool)
  | mysql (name : String) (target : Option String) (priv : Bool)
  | clear
  | break (id : Nat)

/-- The effect of an event. An error does not have any effect. -/
def step (w : World) : Event → World
  | .pg n t r p => match pgConnect w n t r p with | some (_, w') => w' | none => w
  | .duck n f r p => match duckConnect w n f r p with | some (_, w') => w' | none => w
  | .mysql n t p => match mysqlConnect w n t p with | some (_, w') => w' | none => w
  | .clear => clear w
  | .break i => { w with broken := i :: w.broken }

/-- The worlds that are reached by a history. -/
def run (es : List Event) : World := es.foldl step World.empty

/-- Events of the Postgres interface that keep the pool. -/
def Event.postgresOnly : Event → Prop
  | .pg .. => True
  | .break _ => True
  | _ => False

/-! ## Lemmas -/

theorem repr_inj {a b : Nat} (h : Nat.repr a = Nat.repr b) : a = b := by
  have h2 := congrArg String.toList h
  rw [Nat.toList_repr, Nat.toList_repr] at h2
  have e1 := Nat.ofDigitChars_toDigits (b := 10) (n := a) (by decide) (by decide)
  have e2 := Nat.ofDigitChars_toDigits (b := 10) (n := b) (by decide) (by decide)
  rw [← e1, ← e2, h2]

theorem suffixed_inj (n : String) {a b : Nat} (h : suffixed n a = suffixed n b) : a = b := by
  apply repr_inj
  have := congrArg String.toList h
  simp only [suffixed, String.toList_append] at this
  exact String.toList_inj.mp (List.append_cancel_left this)

theorem freeName_spec (pool : Dict String Inst) (orig : String) : ∀ fuel cur k n, freeName pool orig fuel cur k = some n → pool.get? n = none := by
  intro fuel
  induction fuel with
  | zero =>
    intro cur k n h
    simp only [freeName] at h
    split at h
    · cases h
    · rename_i hc
      obtain rfl := Option.some.inj h
      simpa [Dict.has] using hc
  | succ fuel ih =>
    intro cur k n h
    simp only [freeName] at h
    split at h
    · exact ih _ _ _ h
    · rename_i hc
      obtain rfl := Option.some.inj h
      simpa [Dict.has] using hc

theorem freeName_none (pool : Dict String Inst) (orig : String) : ∀ fuel cur k, freeName pool orig fuel cur k = none → ∀ j, j < fuel → suffixed orig (k + j) ∈ pool.keys := by
  intro fuel
  induction fuel with
  | zero => intro cur k h j hj; omega
  | succ fuel ih =>
    intro cur k h j hj
    simp only [freeName] at h
    split at h
    · cases j with
      | zero =>
        cases fuel with
        | zero =>
          simp only [freeName] at h
          split at h
          · rename_i hh; exact (Dict.has_iff _ _).mp hh
          · cases h
        | succ f =>
          simp only [freeName] at h
          split at h
          · rename_i hh; exact (Dict.has_iff _ _).mp hh
          · cases h
      | succ j =>
        have := ih _ _ h j (by omega)
        rw [show k + (j + 1) = k + 1 + j by omega]
        exact this
    · cases h

/-- There is always an unused name. -/
theorem freeName_some (pool : Dict String Inst) (orig cur : String) (k : Nat) : ∃ n, freeName pool orig (pool.length + 1) cur k = some n := by
  cases h : freeName pool orig (pool.length + 1) cur k with
  | some n => exact ⟨n, rfl⟩
  | none =>
    exfalso
    have h1 := freeName_none pool orig _ _ _ h
    have hsub : ((List.range (pool.length + 1)).map fun j => suffixed orig (k + j)) ⊆ pool.keys := by
      intro x hx
      obtain ⟨j, hj, rfl⟩ := List.mem_map.mp hx
      exact h1 j (List.mem_range.mp hj)
    have hnd : ((List.range (pool.length + 1)).map fun j => suffixed orig (k + j)).Nodup := by
      apply List.Nodup.map_on _ List.nodup_range
      intro a _ b _ hab
      have := suffixed_inj orig hab
      omega
    have := (hnd.subperm hsub).length_le
    simp [Dict.keys] at this
    omega

/-- All pooled objects have been created. -/
def Inv (w : World) : Prop := w.pool.WF ∧ ∀ n i, w.pool.get? n = some i → i.id < w.next

theorem inv_register {w : World} (h : Inv w) (n : String) (sys : Sys) (t : String) : Inv (register { w with next := w.next + 1 } n ⟨w.next, sys, t⟩) := by
  refine ⟨Dict.WF_set h.1 _ _, ?_⟩
  intro m i hm
  simp only [register] at hm ⊢
  rw [Dict.get?_set] at hm
  split at hm
  · obtain rfl := Option.some.inj hm; simp
  · have := h.2 m i hm; omega

theorem inv_next {w : World} (h : Inv w) : Inv { w with next := w.next + 1 } :=
  ⟨h.1, fun n i hn => by have := h.2 n i hn; simp only; omega⟩

theorem inv_reconnect {w w' : World} (h : Inv w) {sys : Sys} {n : String} {i : Inst} (hr : reconnect w sys n = some (i, w')) : Inv w' := by
  unfold reconnect at hr
  split at hr
  · cases hr
  · split at hr
    · cases hr; exact ⟨h.1, h.2⟩
    · cases hr

theorem inv_pg {w w' : World} (h : Inv w) {n : String} {t : Option String} {r p : Bool} {i : Inst} (hc : pgConnect w n t r p = some (i, w')) : Inv w' := by
  unfold pgConnect at hc
  split at hc
  · exact inv_reconnect h hc
  · split at hc
    · cases hc
    · split at hc
      · cases hc; exact inv_next h
      · split at hc
        · cases hc
        · cases hc; exact inv_register h _ _ _

theorem inv_duck {w w' : World} (h : Inv w) {n f : String} {r p : Bool} {i : Inst} (hc : duckConnect w n f r p = some (i, w')) : Inv w' := by
  unfold duckConnect at hc
  split at hc
  · exact inv_reconnect h hc
  · split at hc
    · cases hc; exact inv_next h
    · cases hc; exact inv_register h _ _ _

theorem inv_mysql {w w' : World} (h : Inv w) {n : String} {t : Option String} {p : Bool} {i : Inst} (hc : mysqlConnect w n t p = some (i, w')) : Inv w' := by
  unfold mysqlConnect at hc
  split at hc
  · cases hc
  · split at hc
    · cases hc; exact inv_next h
    · cases hc; exact inv_register h _ _ _

theorem inv_step {w : World} (h : Inv w) (e : Event) : Inv (step w e) := by
  cases e with
  | pg n t r p =>
    simp only [step]
    cases hc : pgConnect w n t r p with
    | none => exact h
    | some x => exact inv_pg h hc
  | duck n f r p =>
    simp only [step]
    cases hc : duckConnect w n f r p with
    | none => exact h
    | some x => exact inv_duck h hc
  | mysql n t p =>
    simp only [step]
    cases hc : mysqlConnect w n t p with
    | none => exact h
    | some x => exact inv_mysql h hc
  | clear => exact ⟨Dict.WF_nil, fun n i hn => by simp [step, clear, Dict.get?] at hn⟩
  | «break» i => exact h

theorem inv_foldl (es : List Event) : ∀ w, Inv w → Inv (es.foldl step w) := by
  induction es with
  | nil => intro w h; exact h
  | cons e es ih => intro w h; exact ih _ (inv_step h e)

theorem inv_run (es : List Event) : Inv (run es) := inv_foldl es _ ⟨Dict.WF_nil, fun n i h => by simp [World.empty, Dict.get?] at h⟩

/-! ## C211 -/

/-- C211. After any history, if the name is not used yet or a refresh is requested, connecting to a Postgres server yields a new object that is connected as requested. A private connection does not change
the pool. Otherwise, the object is registered with a name that has been free, and nothing else changes. -/
theorem C211_new (es : List Event) (name t : String) (refresh priv : Bool) (h : (run es).pool.get? name = none ∨ refresh = true) :
    ∃ new w', pgConnect (run es) name (some t) refresh priv = some (new, w')
      ∧ new.target = t ∧ new.sys = .postgres ∧ (∀ n i, (run es).pool.get? n = some i → i.id ≠ new.id)
      ∧ (priv = true → w'.pool = (run es).pool)
      ∧ (priv = false → ∃ key, (run es).pool.get? key = none ∧ w'.pool.get? key = some new
          ∧ ((run es).pool.get? name = none → key = name) ∧ ∀ n, n ≠ key → w'.pool.get? n = (run es).pool.get? n) := by
  have hI := inv_run es
  generalize run es = w at hI h
  have hcond : (w.pool.has name && !refresh) = false := by
    rcases h with h | h
    · simp [Dict.has, h]
    · simp [h]
  simp only [pgConnect, hcond]
  have hids : ∀ n i, w.pool.get? n = some i → i.id ≠ w.next := fun n i h => by have := hI.2 n i h; omega
  cases priv with
  | true => exact ⟨⟨w.next, .postgres, t⟩, { w with next := w.next + 1 }, by simp, rfl, rfl, hids, by simp, by simp⟩
  | false =>
    obtain ⟨key, hk⟩ := freeName_some w.pool name name 2
    refine ⟨⟨w.next, .postgres, t⟩, register { w with next := w.next + 1 } key ⟨w.next, .postgres, t⟩, by simp [hk], rfl, rfl, hids, by simp, fun _ => ?_⟩
    refine ⟨key, freeName_spec _ _ _ _ _ _ hk, ?_, ?_, ?_⟩
    · simp only [register]; rw [Dict.get?_set]; simp
    · intro hn
      have : w.pool.has name = false := by simp [Dict.has, hn]
      simp [freeName, this] at hk
      exact hk.symm
    · intro n hn
      simp only [register]
      rw [Dict.get?_set]
      simp [hn, Ne.symm hn]

/-- C211. Otherwise, the pooled object is returned, independent of the parameters, with a working connection; the pool does not change. If the object belongs to another system, this is an error. -/
theorem C211_reuse (es : List Event) (name : String) (target : Option String) (priv : Bool) (old : Inst) (h : (run es).pool.get? name = some old) :
    (old.sys = .postgres → ∃ w', pgConnect (run es) name target false priv = some (old, w') ∧ w'.pool = (run es).pool ∧ old.id ∉ w'.broken)
    ∧ (old.sys ≠ .postgres → pgConnect (run es) name target false priv = none) := by
  generalize run es = w at h
  constructor
  · intro hs
    refine ⟨{ w with broken := w.broken.filter (· ≠ old.id) }, ?_, rfl, by simp⟩
    simp [pgConnect, Dict.has, h, reconnect, hs]
  · intro hs
    simp [pgConnect, Dict.has, h, reconnect, hs]

example : (run [.pg "postgres" (some "a") false false, .break 0]).pool.get? "postgres" = some ⟨0, .postgres, "a"⟩ := by decide +kernel

/-- A refreshed connection is registered with a suffix. -/
example : ((run [.pg "postgres" (some "a") false false, .pg "postgres" (some "b") true false]).pool.get? "postgres 2").isNone
    ∧ ((run [.pg "postgres" (some "a") false false, .pg "postgres" (some "b") true false]).pool.get? "postgres - 2" = some ⟨1, .postgres, "b"⟩) := by
  decide +kernel

/-- C211. The names of the Postgres interface are stable: whatever is connected afterwards, a name keeps referring to the same object. -/
theorem C211_stable (es later : List Event) (hl : ∀ e ∈ later, e.postgresOnly) (name : String) (i : Inst) (h : (run es).pool.get? name = some i) :
    (run (es ++ later)).pool.get? name = some i := by
  rw [run, List.foldl_append]
  change (later.foldl step (run es)).pool.get? name = some i
  generalize run es = w at h
  induction later generalizing w with
  | nil => exact h
  | cons e later ih =>
    simp only [List.foldl_cons]
    apply ih (fun e he => hl e (List.mem_cons_of_mem _ he))
    have he := hl e (by simp)
    cases e with
    | duck n f r p => cases he
    | mysql n t p => cases he
    | clear => cases he
    | «break» j => exact h
    | pg n t r p =>
      simp only [step]
      cases hc : pgConnect w n t r p with
      | none => exact h
      | some x =>
        obtain ⟨j, w'⟩ := x
        simp only
        unfold pgConnect at hc
        split at hc
        · unfold reconnect at hc
          split at hc
          · cases hc
          · split at hc
            · cases hc; exact h
            · cases hc
        · split at hc
          · cases hc
          · split at hc
            · cases hc; exact h
            · split at hc
              · cases hc
              · rename_i key hk
                cases hc
                have hne : key ≠ name := by
                  intro e
                  have := freeName_spec _ _ _ _ _ _ hk
                  rw [e, h] at this
                  cases this
                simp only [register]
                rw [Dict.get?_set]
                simp [hne, Ne.symm hne]
                exact h

example : ∀ e ∈ [Event.pg "postgres" (some "b") true false, .break 0], e.postgresOnly := by
  simp [Event.postgresOnly]

/-- C211 is violated for DuckDB: although the documentation announces a suffix that prevents collisions, a refreshed connection replaces the registered one, for each history. -/
theorem C211_duckdb_violated (es : List Event) (name file : String) (old : Inst) (h : (run es).pool.get? name = some old) :
    ∃ new w', duckConnect (run es) name file true false = some (new, w') ∧ w'.pool.get? name = some new ∧ new ≠ old
      ∧ ∀ n, n ≠ name → w'.pool.get? n = (run es).pool.get? n := by
  have hI := inv_run es
  generalize run es = w at hI h
  refine ⟨⟨w.next, .duckdb, file⟩, register { w with next := w.next + 1 } name ⟨w.next, .duckdb, file⟩, by simp [duckConnect], ?_, ?_, ?_⟩
  · simp only [register]; rw [Dict.get?_set]; simp
  · intro e
    have := hI.2 name old h
    rw [← e] at this
    simp at this
  · intro n hn
    simp only [register]; rw [Dict.get?_set]; simp [hn, Ne.symm hn]

example : (run [.duck "duckdb" "a.db" false false]).pool.get? "duckdb" = some ⟨0, .duckdb, "a.db"⟩ := by decide +kernel

/-- C211 is violated for the file of DuckDB and for private connections: if the name is in use, the file is ignored, and even private connections are shared. Since the name has a default, this concerns each
second call of `connect` with a different file. -/
theorem C211_file_violated (es : List Event) (name file : String) (priv : Bool) (old : Inst) (h : (run es).pool.get? name = some old) (hs : old.sys = .duckdb) :
    ∃ w', duckConnect (run es) name file false priv = some (old, w') := by
  refine ⟨{ run es with broken := (run es).broken.filter (· ≠ old.id) }, ?_⟩
  simp [duckConnect, Dict.has, h, reconnect, hs]

example : ∃ w', duckConnect (run [.duck "duckdb" "a.db" false false]) "duckdb" "b.db" false true = some (⟨0, .duckdb, "a.db"⟩, w') :=
  C211_file_violated _ _ _ _ _ (by decide +kernel) rfl

/-- C211. MySQL connections are always new, and the latest one that is not private replaces the registered one. -/
theorem C211_mysql (es : List Event) (name t : String) (priv : Bool) :
    ∃ new w', mysqlConnect (run es) name (some t) priv = some (new, w') ∧ new.target = t ∧ new.sys = .mysql
      ∧ (∀ n i, (run es).pool.get? n = some i → i.id ≠ new.id)
      ∧ ∀ n, w'.pool.get? n = if n = name ∧ priv = false then some new else (run es).pool.get? n := by
  have hI := inv_run es
  generalize run es = w at hI
  have hids : ∀ n i, w.pool.get? n = some i → i.id ≠ w.next := fun n i h => by have := hI.2 n i h; omega
  cases priv with
  | true => exact ⟨⟨w.next, .mysql, t⟩, { w with next := w.next + 1 }, by simp [mysqlConnect], rfl, rfl, hids, by simp⟩
  | false =>
    refine ⟨⟨w.next, .mysql, t⟩, register { w with next := w.next + 1 } name ⟨w.next, .mysql, t⟩, by simp [mysqlConnect], rfl, rfl, hids, ?_⟩
    intro n
    simp only [register]
    rw [Dict.get?_set]
    by_cases h : n = name
    · simp [h]
    · simp [h, Ne.symm h]

/-- C211. Reconnecting to a pooled object always yields a working connection, for Postgres and DuckDB. -/
theorem C211_live (es : List Event) (name file : String) (target : Option String) (priv : Bool) (old : Inst) (h : (run es).pool.get? name = some old) :
    (∀ i w', pgConnect (run es) name target false priv = some (i, w') → i = old ∧ i.id ∉ w'.broken)
    ∧ (∀ i w', duckConnect (run es) name file false priv = some (i, w') → i = old ∧ i.id ∉ w'.broken) := by
  constructor
  · intro i w' hc
    simp [pgConnect, Dict.has, h, reconnect] at hc
    obtain ⟨_, rfl, rfl⟩ := hc
    simp
  · intro i w' hc
    simp [duckConnect, Dict.has, h, reconnect] at hc
    obtain ⟨_, rfl, rfl⟩ := hc
    simp

example : (run [.pg "postgres" (some "a") false false, .break 0]).pool.get? "postgres" = some ⟨0, .postgres, "a"⟩ ∧ (0 ∈ (run [.pg "postgres" (some "a") false false, .break 0]).broken) := by
  decide +kernel

/-- C211. Any database is one of the registered databases; there is one unless nothing is registered. -/
theorem C211_any (es : List Event) : (∀ i, anyDb (run es) = some i → ∃ n, (run es).pool.get? n = some i) ∧ (anyDb (run es) = none ↔ ∀ n, (run es).pool.get? n = none) := by
  generalize run es = w
  obtain ⟨pool, nx, br⟩ := w
  cases pool with
  | nil => simp [anyDb, Dict.values, Dict.get?]
  | cons x pool =>
    obtain ⟨n, j⟩ := x
    refine ⟨fun i h => ⟨n, ?_⟩, ?_⟩
    · simp [anyDb, Dict.values] at h
      subst h
      simp [Dict.get?]
    · simp only [anyDb, Dict.values, List.map_cons, List.head?_cons, reduceCtorEq, false_iff]
      intro h
      have := h n
      simp [Dict.get?] at this

/-- C211. The current database is the only registered database; there is none if nothing is registered or if there are several names. -/
theorem C211_current (es : List Event) (i : Inst) : current (run es) = some i ↔ ∃ n, (run es).pool.get? n = some i ∧ ∀ m, (run es).pool.get? m ≠ none → m = n := by
  have hI := (inv_run es).1
  generalize run es = w at hI
  obtain ⟨pool, nx, br⟩ := w
  simp only at hI
  simp only [current]
  constructor
  · intro h
    split at h
    · cases h
    · rename_i hl
      have hl : pool.length = 1 := by simpa using hl
      obtain ⟨x, rfl⟩ := List.length_eq_one_iff.mp hl
      obtain ⟨n, j⟩ := x
      simp [Dict.values] at h
      subst h
      refine ⟨n, by simp [Dict.get?], ?_⟩
      intro m hm
      by_contra hne
      apply hm
      simp [Dict.get?, hne, Ne.symm hne]
  · rintro ⟨n, h1, h2⟩
    have hkeys : ∀ k ∈ pool.keys, k = n := by
      intro k hk
      apply h2
      intro hnone
      exact (Dict.get?_eq_none _ _).mp hnone hk
    have hlen : pool.length = 1 := by
      have hk : n ∈ pool.keys := (Dict.get?_isSome _ _).mp (by rw [h1]; rfl)
      have h3 : pool.keys.length ≤ 1 := by
        match hp : pool.keys, hI, hkeys with
        | [], _, _ => simp
        | [a], _, _ => simp
        | a :: b :: l, hI, hkeys =>
          exfalso
          have ha := hkeys a (by simp)
          have hb := hkeys b (by simp)
          have : (pool.keys).Nodup := hI
          rw [hp] at this
          simp [ha, hb] at this
      have h4 : 0 < pool.keys.length := List.length_pos_of_mem hk
      simp [Dict.keys] at h3 h4
      omega
    obtain ⟨x, rfl⟩ := List.length_eq_one_iff.mp hlen
    obtain ⟨m, j⟩ := x
    have hm : m = n := hkeys m (by simp)
    subst hm
    simp [Dict.get?] at h1
    simp [Dict.values, h1]

example : current (run [.pg "postgres" (some "a") false false]) = some ⟨0, .postgres, "a"⟩ ∧ current (run [.pg "postgres" (some "a") false false, .duck "duckdb" "f" false false]) = none := by
  decide +kernel

/-! ## C212 -/

/-- Names of parameters. -/
def IsKey (k : Text) : Prop := k ≠ [] ∧ ' ' ∉ k ∧ '=' ∉ k

theorem skip_noop (c : Char) (t : Text) (h : c ≠ ' ') : skip (c :: t) = c :: t := by
  rw [skip.eq_def]
  split
  · rename_i h1; simp at h1; exact absurd h1.1 h
  · rfl

theorem scanKey_append (k r : Text) (h1 : ' ' ∉ k) (h2 : '=' ∉ k) : scanKey (k ++ ' ' :: r) = (k, ' ' :: r) := by
  induction k with
  | nil => simp [scanKey]
  | cons c k ih =>
    simp only [List.mem_cons, not_or] at h1 h2
    have hc : ¬ (c = ' ' ∨ c = '=') := by
      rintro (h | h)
      · exact h1.1 h.symm
      · exact h2.1 h.symm
    simp only [List.cons_append, scanKey, if_neg hc, ih h1.2 h2.2]

theorem scanQuoted_append (v r : Text) (h1 : '\'' ∉ v) (h2 : '\\' ∉ v) : scanQuoted (v ++ '\'' :: r) = some (v, r) := by
  induction v with
  | nil => simp [scanQuoted]
  | cons c v ih =>
    simp only [List.mem_cons, not_or] at h1 h2
    have a : c ≠ '\'' := fun h => h1.1 h.symm
    have b : c ≠ '\\' := fun h => h2.1 h.symm
    rw [List.cons_append, scanQuoted.eq_4 _ _ (by intro e; exact absurd e a) (by intro _ _ e; exact absurd e b), ih h1.2 h2.2]
    rfl

theorem parse_one (k v r : Text) (n : Nat) (hk : IsKey k) (h1 : '\'' ∉ v) (h2 : '\\' ∉ v) :
    parse (n + 1) (renderOne (k, v) ++ r) = (parse n r).map ((k, v) :: ·) := by
  obtain ⟨h0, hs, he⟩ := hk
  cases k with
  | nil => exact absurd rfl h0
  | cons c k =>
    have hc : c ≠ ' ' := by intro e; apply hs; simp [e]
    have e1 : renderOne (c :: k, v) ++ r = c :: (k ++ ' ' :: '=' :: ' ' :: '\'' :: (v ++ '\'' :: r)) := by simp [renderOne]
    have e2 : scanKey (c :: (k ++ ' ' :: '=' :: ' ' :: '\'' :: (v ++ '\'' :: r))) = (c :: k, ' ' :: '=' :: ' ' :: '\'' :: (v ++ '\'' :: r)) := by
      have := scanKey_append (c :: k) ('=' :: ' ' :: '\'' :: (v ++ '\'' :: r)) hs he
      simpa using this
    have e3 : skip (' ' :: '=' :: ' ' :: '\'' :: (v ++ '\'' :: r)) = '=' :: ' ' :: '\'' :: (v ++ '\'' :: r) := by
      rw [skip, skip_noop _ _ (by decide)]
    have e4 : skip (' ' :: '\'' :: (v ++ '\'' :: r)) = '\'' :: (v ++ '\'' :: r) := by
      rw [skip, skip_noop _ _ (by decide)]
    rw [e1, parse, skip_noop _ _ hc]
    simp [e2, e3, e4, scanQuoted_append v r h1 h2]

theorem parse_space (n : Nat) (t : Text) : parse n (' ' :: t) = parse n t := by
  cases n <;> simp [parse, skip]

theorem parse_render (l : List (Text × Text)) (h : ∀ p ∈ l, IsKey p.1 ∧ '\'' ∉ p.2 ∧ '\\' ∉ p.2) : ∀ n, l.length ≤ n → parse n (render l) = some l := by
  induction l with
  | nil => intro n _; cases n <;> simp [parse, render, skip]
  | cons p l ih =>
    intro n hn
    obtain ⟨m, rfl⟩ : ∃ m, n = m + 1 := ⟨n - 1, by simp at hn; omega⟩
    obtain ⟨k, v⟩ := p
    obtain ⟨a, b, c⟩ := h (k, v) (by simp)
    cases l with
    | nil =>
      have := parse_one k v [] m a b c
      rw [List.append_nil] at this
      rw [render, this]
      cases m <;> simp [parse, skip]
    | cons q l =>
      rw [render, parse_one k v _ m a b c, parse_space, ih (fun p hp => h p (List.mem_cons_of_mem _ hp)) m (by simp at hn ⊢; omega)]
      rfl

/-- The length of a text bounds the number of its parameters. -/
theorem length_render (l : List (Text × Text)) : l.length ≤ (render l).length := by
  induction l with
  | nil => simp
  | cons p l ih =>
    cases l with
    | nil => simp [render, renderOne]; omega
    | cons q l => simp [render, renderOne] at ih ⊢; omega

/-- C212 (partial). The parameters of a config file and of the environment reach the server unchanged, unless they contain quotes or backslashes (`C212_quote_violated`, `C212_backslash_violated`). -/
theorem C212_params_partial (l : List (Text × Text)) (h : ∀ p ∈ l, IsKey p.1 ∧ '\'' ∉ p.2 ∧ '\\' ∉ p.2) (default : Option Text) (env : String → Option Text) :
    ∃ t, resolve [] (some (some (.params l))) default env = some t ∧ parse t.length t = some l :=
  ⟨render l, by simp [resolve, readFile], parse_render l h _ (length_render l)⟩

example : ∀ p ∈ [("dbname".toList, "imdb".toList), ("password".toList, "a b=c".toList)], IsKey p.1 ∧ '\'' ∉ p.2 ∧ '\\' ∉ p.2 := by
  unfold IsKey; decide +kernel

/-- The parameter of an environment variable. -/
def Documented (v p : String) : Prop :=
  (v, p) ∈ [("PGDATABASE", "dbname"), ("PGHOST", "host"), ("PGPORT", "port"), ("PGUSER", "user"), ("PGPASSWORD", "password"), ("PGPASSFILE", "passfile")]

/-- C212 (partial). If there is neither a connect string nor a file, the environment is used: the server receives exactly the non-empty variables. Missing: quotes and backslashes. -/
theorem C212_env_partial (env : String → Option Text) (hdb : ∃ c t, env "PGDATABASE" = some (c :: t)) (h : ∀ v t, env v = some t → '\'' ∉ t ∧ '\\' ∉ t) :
    ∃ t l, resolve [] none none env = some t ∧ parse t.length t = some l
      ∧ ∀ p x, (p, x) ∈ l ↔ ∃ v q, Documented v q ∧ p = q.toList ∧ env v = some x ∧ x ≠ [] := by
  obtain ⟨c, t, hd⟩ := hdb
  have hmem : ∀ p x, (p, x) ∈ envParams env ↔ ∃ v q, Documented v q ∧ p = q.toList ∧ env v = some x ∧ x ≠ [] := by
    intro p x
    simp only [envParams, List.mem_filterMap, Documented]
    constructor
    · rintro ⟨⟨v, q⟩, hvq, he⟩
      cases hv : env v with
      | none => simp [hv] at he
      | some y =>
        simp only [hv] at he
        split at he
        · cases he
        · rename_i hne
          simp at he
          obtain ⟨rfl, rfl⟩ := he
          exact ⟨v, q, hvq, rfl, hv, hne⟩
    · rintro ⟨v, q, hvq, rfl, hv, hne⟩
      exact ⟨(v, q), hvq, by simp [hv, hne]⟩
  refine ⟨render (envParams env), envParams env, ?_, ?_, hmem⟩
  · simp [resolve, hd]
  · apply parse_render _ _ _ (length_render _)
    rintro ⟨p, x⟩ hp
    obtain ⟨v, q, hq, rfl, hv, _⟩ := (hmem p x).mp hp
    refine ⟨?_, h v x hv⟩
    simp only [Documented, List.mem_cons, Prod.mk.injEq, List.not_mem_nil, or_false] at hq
    simp only
    rcases hq with ⟨_, rfl⟩ | ⟨_, rfl⟩ | ⟨_, rfl⟩ | ⟨_, rfl⟩ | ⟨_, rfl⟩ | ⟨_, rfl⟩ <;> (unfold IsKey; decide +kernel)

example : ∃ c t, (fun v => if v = "PGDATABASE" then some "imdb".toList else none : String → Option Text) "PGDATABASE" = some (c :: t) := ⟨'i', "mdb".toList, by decide +kernel⟩

/-- C212. The order of the sources: an explicit connect string wins, then the file that has been passed (and a missing or unsupported file is an error), then the default file, then the environment. -/
theorem C212_order (s : Text) (hs : s ≠ []) (f : Option (Option File)) (g : File) (d : Text) (default : Option Text) (env : String → Option Text) :
    resolve s f default env = some s
    ∧ resolve [] (some none) default env = none
    ∧ resolve [] (some (some .unsupported)) default env = none
    ∧ resolve [] (some (some g)) default env = resolve [] (some (some g)) none (fun _ => none)
    ∧ resolve [] none (some d) env = some d
    ∧ ((∀ v, env v = none ∨ env v = some []) → resolve [] none none env = none) := by
  refine ⟨by simp [resolve, hs], rfl, rfl, rfl, rfl, ?_⟩
  intro h
  rcases h "PGDATABASE" with h | h <;> simp [resolve, h]

example : "host=a".toList ≠ [] := by decide +kernel

/-- C212 is violated for quotes: a value can contain further parameters, which then become parameters of the connection. -/
theorem C212_quote_violated (p k a b : Text) (hp : IsKey p) (hk : IsKey k) (ha : '\'' ∉ a ∧ '\\' ∉ a) (hb : '\'' ∉ b ∧ '\\' ∉ b) :
    ∃ t, readFile (.params [(p, a ++ ['\'', ' '] ++ k ++ [' ', '=', ' ', '\''] ++ b)]) = some t ∧ parse t.length t = some [(p, a), (k, b)] := by
  have e : render [(p, a ++ ['\'', ' '] ++ k ++ [' ', '=', ' ', '\''] ++ b)] = render [(p, a), (k, b)] := by simp [render, renderOne]
  refine ⟨_, rfl, ?_⟩
  rw [e]
  apply parse_render _ _ _ (length_render _)
  intro x hx
  simp at hx
  rcases hx with rfl | rfl
  · exact ⟨hp, ha⟩
  · exact ⟨hk, hb⟩

example : IsKey "password".toList ∧ IsKey "host".toList ∧ ('\'' ∉ "a".toList ∧ '\\' ∉ "a".toList) := by unfold IsKey; decide +kernel

/-- C212 is violated for backslashes: they are dropped. -/
theorem C212_backslash_violated (p a b : Text) (c : Char) (hp : IsKey p) (ha : '\'' ∉ a ∧ '\\' ∉ a) (hb : '\'' ∉ b ∧ '\\' ∉ b) :
    ∃ t, readFile (.params [(p, a ++ '\\' :: c :: b)]) = some t ∧ parse t.length t = some [(p, a ++ c :: b)] := by
  refine ⟨_, rfl, ?_⟩
  have hq : ∀ (a : Text), ('\'' ∉ a ∧ '\\' ∉ a) → scanQuoted (a ++ '\\' :: c :: (b ++ ['\''])) = some (a ++ c :: b, []) := by
    intro a
    induction a with
    | nil =>
      intro _
      have := scanQuoted_append b [] hb.1 hb.2
      simp [scanQuoted, this]
    | cons d a ih =>
      intro h
      simp only [List.mem_cons, not_or] at h
      have x : d ≠ '\'' := fun e => h.1.1 e.symm
      have y : d ≠ '\\' := fun e => h.2.1 e.symm
      rw [List.cons_append, scanQuoted.eq_4 _ _ (by intro e; exact absurd e x) (by intro _ _ e; exact absurd e y), ih ⟨h.1.2, h.2.2⟩]
      rfl
  obtain ⟨h0, hs, he⟩ := hp
  cases p with
  | nil => exact absurd rfl h0
  | cons d k =>
    have hc : d ≠ ' ' := by intro e; apply hs; simp [e]
    have e1 : render [(d :: k, a ++ '\\' :: c :: b)] = d :: (k ++ ' ' :: '=' :: ' ' :: '\'' :: (a ++ '\\' :: c :: (b ++ ['\'']))) := by simp [render, renderOne]
    have e2 : scanKey (d :: (k ++ ' ' :: '=' :: ' ' :: '\'' :: (a ++ '\\' :: c :: (b ++ ['\''])))) = (d :: k, ' ' :: '=' :: ' ' :: '\'' :: (a ++ '\\' :: c :: (b ++ ['\'']))) := by
      have := scanKey_append (d :: k) ('=' :: ' ' :: '\'' :: (a ++ '\\' :: c :: (b ++ ['\'']))) hs he
      simpa using this
    have e3 : skip (' ' :: '=' :: ' ' :: '\'' :: (a ++ '\\' :: c :: (b ++ ['\'']))) = '=' :: ' ' :: '\'' :: (a ++ '\\' :: c :: (b ++ ['\''])) := by
      rw [skip, skip_noop _ _ (by decide)]
    have e4 : skip (' ' :: '\'' :: (a ++ '\\' :: c :: (b ++ ['\'']))) = '\'' :: (a ++ '\\' :: c :: (b ++ ['\''])) := by
      rw [skip, skip_noop _ _ (by decide)]
    rw [e1]
    simp only [List.length_cons]
    rw [parse, skip_noop _ _ hc]
    simp [e2, e3, e4, hq a ha]
    cases (k ++ ' ' :: '=' :: ' ' :: '\'' :: (a ++ '\\' :: c :: (b ++ ['\'']))).length <;> simp [parse, skip]

end PB.ConnectProps
