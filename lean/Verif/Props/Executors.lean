import Verif.Model.Executors
import Mathlib.Data.List.Perm.Basic

set_option linter.unusedSimpArgs false
set_option linter.unusedVariables false
set_option linter.unnecessarySimpa false
set_option linter.unnecessarySeqFocus false

/-!
# Properties of the executors (C181-C182)
-/

namespace PB.ExecProps

open PB PB.QExec PB.Exec

/-! ## C181: timeouts -/

/-- The query is executed with the given settings: the text of the query proper, after its preparatory statements. -/
inductive Prepared {D : Type} (S : Server D) (sess : Sess D) : QArg → Sess D → String → Prop
  | text (t : String) : Prepared S sess (.text t) sess t
  | plain (body : String) : Prepared S sess (.query "" body) sess body
  | prep (p body : String) (s : Sess D) (n : Int) (rows : Option (List (List Val))) : p ≠ "" → runText S sess p = (s, .ok n rows) →
      Prepared S sess (.query p body) s body

theorem not_cached {D : Type} (st : St D) (q : QArg) (flag : Option Bool) (hf : flag ≠ some true) :
    cachedResult st flag q = none := by
  cases q with
  | text t =>
    cases flag with
    | none => rfl
    | some b => cases b with
      | false => rfl
      | true => exact absurd rfl hf
  | query _ _ => rfl

theorem worker_prepared {D : Type} {S : Server D} {sess s : Sess D} {q : QArg} {text : String} (h : Prepared S sess q s text)
    (env : Env) (pid : Nat) (hb : env.backend = .ok pid) (raw : Bool) :
    worker S env sess q raw = (.connected pid :: (workerQuery S env s text raw).1, (workerQuery S env s text raw).2) := by
  cases h with
  | text => simp only [worker, hb]
  | plain => simp only [worker, hb, if_true]
  | prep p _ _ n rows hp hr => simp only [worker, hb, if_neg hp, hr]

theorem timeoutExecute_eq {D : Type} (S : Server D) (env : Env) (st : St D) (q : QArg) (flag : Option Bool) (raw : Bool)
    (hf : flag ≠ some true) (hk : env.killed = none) :
    timeoutExecute S env st q flag raw =
      conclude (finalData env st.sess.data (worker S env st.sess q raw).2.data (ctl env.inTime (worker S env st.sess q raw).1).1)
        (ctl env.inTime (worker S env st.sess q raw).1).2 (ctl env.inTime (worker S env st.sess q raw).1).1 := by
  unfold timeoutExecute
  rw [not_cached st q flag hf]
  simp only [arriving, hk]

/-- **C181** (partial).  A query that returns rows in time yields its rows, and its runtime is remembered; no backend is cancelled.

Missing: workers that are killed (`C181_killed_violated`), cached results (`C181_cached_violated`), commands without a result
(`C181_command_violated`). -/
theorem C181_in_time_partial {D : Type} (S : Server D) (env : Env) (st : St D) (q : QArg) (flag : Option Bool) (raw : Bool)
    (hf : flag ≠ some true) (hk : env.killed = none) (pid : Nat) (hb : env.backend = .ok pid) (ht : env.inTime = true)
    (s : Sess D) (text : String) (hp : Prepared S st.sess q s text) (s' : Sess D) (n : Int) (rows : List (List Val))
    (hr : runText S s text = (s', .ok n (some rows))) :
    timeoutExecute S env st q flag raw =
      ⟨.returned (if raw then .raw (some (rows.map fun vs => ⟨false, vs⟩)) else .simple (simplify (some (rows.map fun vs => ⟨false, vs⟩)))),
       s'.data, [], some (.ns env.runtime)⟩ := by
  rw [timeoutExecute_eq S env st q flag raw hf hk, worker_prepared hp env pid hb]
  simp only [workerQuery, hr, ctl, prepState, runQuery, ht, List.isEmpty_cons, Bool.not_false, Bool.and_self, if_true, awaitResult,
    conclude, finalData, give, asRows]

/-- **C181** (partial).  If the query proper is not finished in time, its backend is cancelled, a `TimeoutError` is raised and the
timeout is remembered as its runtime; the data is unchanged if the cancellation arrives before the commit. -/
theorem C181_timeout_partial {D : Type} (S : Server D) (env : Env) (st : St D) (q : QArg) (flag : Option Bool) (raw : Bool)
    (hf : flag ≠ some true) (hk : env.killed = none) (pid : Nat) (hb : env.backend = .ok pid) (ht : env.inTime = false)
    (hc : env.committed = false) (s : Sess D) (text : String) (hp : Prepared S st.sess q s text) :
    timeoutExecute S env st q flag raw = ⟨.timeoutError, st.sess.data, [pid], some .limit⟩ := by
  rw [timeoutExecute_eq S env st q flag raw hf hk, worker_prepared hp env pid hb]
  have : ∃ evs, (workerQuery S env s text raw).1 = .ready :: evs := by
    unfold workerQuery
    split <;> exact ⟨_, rfl⟩
  obtain ⟨evs, he⟩ := this
  simp only [he, ctl, prepState, runQuery, ht, Bool.false_and, Bool.false_eq_true, if_false, conclude, finalData, hc]

/-- **C181** (partial).  Errors are raised: errors of the connection, of the preparatory statements and, if they occur in time, of
the query; the runtime is unknown then. -/
theorem C181_errors_partial {D : Type} (S : Server D) (env : Env) (st : St D) (q : QArg) (flag : Option Bool) (raw : Bool)
    (hf : flag ≠ some true) (hk : env.killed = none) :
    (∀ e, env.backend = .error e → timeoutExecute S env st q flag raw = ⟨.raised e, st.sess.data, [], some .nan⟩) ∧
    (∀ pid p body s e, env.backend = .ok pid → q = .query p body → p ≠ "" → runText S st.sess p = (s, .fail e) →
      timeoutExecute S env st q flag raw = ⟨.raised .driverError, s.data, [pid], some .nan⟩) ∧
    (∀ pid s text s' e, env.backend = .ok pid → env.inTime = true → Prepared S st.sess q s text →
      runText S s text = (s', .fail e) → timeoutExecute S env st q flag raw = ⟨.raised (.dbError e), s'.data, [pid], some .nan⟩) := by
  refine ⟨?_, ?_, ?_⟩
  · intro e he
    rw [timeoutExecute_eq S env st q flag raw hf hk]
    simp only [worker, he, ctl, conclude, finalData]
  · rintro pid p body s e hb rfl hp hr
    rw [timeoutExecute_eq S env st _ flag raw hf hk]
    simp only [worker, hb, if_neg hp, hr, ctl, prepState, conclude, finalData]
  · intro pid s text s' e hb ht hp hr
    rw [timeoutExecute_eq S env st q flag raw hf hk, worker_prepared hp env pid hb]
    simp only [workerQuery, hr, ctl, prepState, runQuery, ht, List.isEmpty_cons, Bool.not_false, Bool.and_self, if_true, conclude, finalData]

/-- **C181**.  As long as the worker is not killed, the call comes back, and the events never arrive in an unexpected order. -/
theorem C181_progress {D : Type} (S : Server D) (env : Env) (st : St D) (q : QArg) (flag : Option Bool) (raw : Bool)
    (hk : env.killed = none) :
    (timeoutExecute S env st q flag raw).final ≠ .hang ∧ (timeoutExecute S env st q flag raw).final ≠ .stateError := by
  have hq : ∀ s text pid, (ctl env.inTime (.connected pid :: (workerQuery S env s text raw).1)).1 ≠ .hang ∧
      (ctl env.inTime (.connected pid :: (workerQuery S env s text raw).1)).1 ≠ .stateError := by
    intro s text pid
    unfold workerQuery
    split <;> cases env.inTime <;> simp [ctl, prepState, runQuery, awaitResult]
  have hw : (ctl env.inTime (worker S env st.sess q raw).1).1 ≠ .hang ∧
      (ctl env.inTime (worker S env st.sess q raw).1).1 ≠ .stateError := by
    unfold worker
    split
    · simp [ctl]
    · split
      · exact hq _ _ _
      · split
        · exact hq _ _ _
        · split
          · simp [ctl, prepState]
          · exact hq _ _ _
  unfold timeoutExecute
  split
  · simp
  · simp only [hk, arriving]
    revert hw
    generalize ctl env.inTime (worker S env st.sess q raw).1 = c
    obtain ⟨c1, c2⟩ := c
    cases c1 <;> simp [conclude]

/-- **C181** (partial).  With a timeout that is not exceeded, a query that returns rows has the same outcome as without one. -/
theorem C181_same_partial {D : Type} (S : Server D) (env : Env) (st : St D) (q : QArg) (raw : Bool) (hk : env.killed = none)
    (pid : Nat) (hb : env.backend = .ok pid) (ht : env.inTime = true) (s : Sess D) (text : String)
    (hp : Prepared S st.sess q s text) (s' : Sess D) (n : Int) (hn : n ≥ 0) (rows : List (List Val))
    (hr : runText S s text = (s', .ok n (some rows))) :
    (timeoutExecute S env st q (some false) raw).final = .returned (pgExecute S st q (some false) raw).2 ∧
    (timeoutExecute S env st q (some false) raw).data = (pgExecute S st q (some false) raw).1.sess.data := by
  rw [C181_in_time_partial S env st q (some false) raw (by simp) hk pid hb ht s text hp s' n rows hr]
  have : pgExecute S st q (some false) raw = ({ st with sess := s' },
      if raw then .raw (some (rows.map fun vs => ⟨false, vs⟩)) else .simple (simplify (some (rows.map fun vs => ⟨false, vs⟩)))) := by
    cases hp with
    | text => simp only [pgExecute, useCache, pgFetch, Bool.false_eq_true, if_false, hr, hn, if_true, Option.map_some, give, asRows]
    | plain => simp only [pgExecute, useCache, pgFetch, Bool.false_eq_true, if_false, hr, hn, if_true, Option.map_some, give, asRows]
    | prep p _ _ n' rows' hne hrp =>
      simp only [pgExecute, if_neg hne, hrp, useCache, pgFetch, Bool.false_eq_true, if_false, hr, hn, if_true, Option.map_some,
        give, asRows]
  rw [this]
  exact ⟨rfl, rfl⟩

/-- A server with one table, whose number of rows can be read. -/
def rowServer : Server Nat where
  cmds t := [.sql t]
  ans n _ t := if t = "count" then .ok n 1 (some [[.int n]]) else if t = "create" then .ok n (-1) none
    else if t = "insert returning" then .ok (n + 1) 1 (some [[.int n]]) else .fail false

example : (timeoutExecute rowServer ⟨.ok 7, 12, true, false, none⟩ (connect ⟨3, []⟩ false []) (.text "count") none false).final =
    .returned (.simple (.int 3)) := rfl

example : Prepared rowServer ⟨3, []⟩ (.text "count") ⟨3, []⟩ "count" ∧
    runText rowServer ⟨3, []⟩ "count" = (⟨3, []⟩, .ok 1 (some [[.int 3]])) := ⟨.text _, rfl⟩

/-- If the worker is killed before it has started the query, or after the query has been finished, the call never returns; if it
is killed in between, this is reported as a timeout. -/
theorem C181_killed_violated {D : Type} (S : Server D) (env : Env) (st : St D) (q : QArg) (flag : Option Bool) (raw : Bool)
    (hf : flag ≠ some true) (pid : Nat) (hb : env.backend = .ok pid) (s : Sess D) (text : String)
    (hp : Prepared S st.sess q s text) :
    (∀ n, env.killed = some n → n < 2 → (timeoutExecute S env st q flag raw).final = .hang) ∧
    (env.killed = some 2 → (timeoutExecute S env st q flag raw).final = .timeoutError) ∧
    (env.killed = some 3 → env.inTime = true → (∃ s' n rows, runText S s text = (s', .ok n rows)) →
      (timeoutExecute S env st q flag raw).final = .hang) := by
  refine ⟨?_, ?_, ?_⟩
  · intro n hk hn
    unfold timeoutExecute
    rw [not_cached st q flag hf]
    simp only [hk, arriving, worker_prepared hp env pid hb]
    match n, hn with
    | 0, _ => simp [ctl, conclude]
    | 1, _ => simp [ctl, prepState, conclude]
  · intro hk
    unfold timeoutExecute
    rw [not_cached st q flag hf]
    simp only [hk, arriving, worker_prepared hp env pid hb]
    have : ∃ evs, (workerQuery S env s text raw).1 = .ready :: evs := by
      unfold workerQuery
      split <;> exact ⟨_, rfl⟩
    obtain ⟨evs, he⟩ := this
    rw [he]
    simp [ctl, prepState, runQuery, conclude]
  · rintro hk ht ⟨s', n, rows, hr⟩
    unfold timeoutExecute
    rw [not_cached st q flag hf]
    simp only [hk, arriving, worker_prepared hp env pid hb, workerQuery, hr]
    cases rows <;> simp [ctl, prepState, runQuery, ht, awaitResult, conclude]

/-- With a timeout, cached results are not simplified. -/
theorem C181_cached_violated {D : Type} (S : Server D) (env : Env) (st : St D) (t : String) (r : Res)
    (h : Dict.get? st.cache t = some r) :
    (timeoutExecute S env st (.text t) (some true) false).final = .returned (.raw r) ∧
    (pgExecute S st (.text t) (some true) false).2 = .simple (simplify r) := by
  constructor
  · simp only [timeoutExecute, cachedResult, Option.getD_some, if_true, h]
  · simp only [pgExecute, useCache, pgFetch, if_true, h, give, Bool.false_eq_true, if_false]

/-- With a timeout, commands without a result raise an error after they have been executed; without a timeout they do not. -/
theorem C181_command_violated {D : Type} (S : Server D) (env : Env) (st : St D) (t : String) (raw : Bool) (hk : env.killed = none)
    (pid : Nat) (hb : env.backend = .ok pid) (ht : env.inTime = true) (s' : Sess D)
    (hr : runText S st.sess t = (s', .ok (-1) none)) :
    (timeoutExecute S env st (.text t) (some false) raw).final = .raised .driverError ∧
    (timeoutExecute S env st (.text t) (some false) raw).data = s'.data ∧
    (pgExecute S st (.text t) (some false) true).2 = .raw none := by
  rw [timeoutExecute_eq S env st _ _ raw (by simp) hk]
  refine ⟨?_, ?_, ?_⟩
  · simp only [worker, hb, workerQuery, hr, ctl, prepState, runQuery, ht, List.isEmpty_cons, Bool.not_false, Bool.and_self, if_true,
      awaitResult, conclude]
  · simp only [worker, hb, workerQuery, hr, ctl, prepState, runQuery, ht, List.isEmpty_cons, Bool.not_false, Bool.and_self, if_true,
      awaitResult, conclude, finalData]
  · simp [pgExecute, useCache, pgFetch, hr, give]

example : runText rowServer ⟨3, []⟩ "create" = (⟨3, []⟩, .ok (-1) none) := rfl

/-- A timeout does not mean that the query had no effect: it may have been committed before it is cancelled. -/
theorem C181_late_violated : ∃ env : Env, env.killed = none ∧ ∃ st : St Nat,
    (timeoutExecute rowServer env st (.text "insert returning") none false).final = .timeoutError ∧
    (timeoutExecute rowServer env st (.text "insert returning") none false).data ≠ st.sess.data :=
  ⟨⟨.ok 7, 12, false, true, none⟩, rfl, connect ⟨3, []⟩ false [], rfl, by decide⟩

/-! ## C182: parallel queries -/

/-- Reachable states of the pool. -/
inductive Reach (threads : Nat) : Pool → Pool → Prop
  | refl (p : Pool) : Reach threads p p
  | tail {p q r : Pool} : Reach threads p q → Step threads q r → Reach threads p r

theorem step_perm {k : Nat} {p q : Pool} (h : Step k p q) :
    (q.completed ++ q.running ++ q.waiting).Perm (p.completed ++ p.running ++ p.waiting) := by
  cases h with
  | start i w r c _ =>
    simp only [List.append_assoc]
    refine List.Perm.append_left c ?_
    rw [List.cons_append]
    exact List.perm_middle.symm
  | finish i w r c hi =>
    simp only [List.append_assoc]
    refine List.Perm.append_left c ?_
    rw [← List.append_assoc]
    refine List.Perm.append_right w ?_
    exact (List.perm_cons_erase hi).symm

/-- **C182**.  In whatever order the threads are scheduled, each queued query is executed exactly once, at most `threads` at a time,
and the pool gets stuck only if all queries have been executed. -/
theorem C182_schedule (threads : Nat) (hk : threads > 0) (tasks : List Nat) (p : Pool) (h : Reach threads ⟨tasks, [], []⟩ p) :
    p.running.length ≤ threads ∧ (p.completed ++ p.running ++ p.waiting).Perm tasks ∧
    ((∀ q, ¬ Step threads p q) → p.completed.Perm tasks) := by
  have key : p.running.length ≤ threads ∧ (p.completed ++ p.running ++ p.waiting).Perm tasks := by
    generalize hp0 : (⟨tasks, [], []⟩ : Pool) = p0 at h
    induction h with
    | refl => subst hp0; exact ⟨Nat.zero_le _, by simp⟩
    | tail _ hs ih =>
      obtain ⟨h1, h2⟩ := ih
      refine ⟨?_, (step_perm hs).trans h2⟩
      cases hs with
      | start i w r c hl => simp only [List.length_cons]; omega
      | finish i w r c hi =>
        have := List.length_erase_of_mem hi
        simp only at h1 ⊢
        omega
  refine ⟨key.1, key.2, ?_⟩
  intro hstuck
  obtain ⟨w, r, c⟩ := p
  have hr : r = [] := by
    cases r with
    | nil => rfl
    | cons i r => exact absurd (Step.finish i w (i :: r) c (by simp)) (hstuck _)
  subst hr
  have hw : w = [] := by
    cases w with
    | nil => rfl
    | cons i w => exact absurd (Step.start i w [] c hk) (hstuck _)
  subst hw
  simpa using key.2

/-- **C182**.  The number of threads is the requested one if it is positive, and the number of processors otherwise. -/
theorem C182_threads (requested : Option Int) (cpus : Nat) (hc : cpus > 0) :
    nThreads requested cpus > 0 ∧ (∀ n : Int, n > 0 → requested = some n → (nThreads requested cpus : Int) = n) ∧
    ((∀ n : Int, requested = some n → n ≤ 0) → nThreads requested cpus = cpus) := by
  refine ⟨?_, ?_, ?_⟩
  · unfold nThreads
    split
    · split <;> omega
    · exact hc
  · rintro n hn rfl
    simp only [nThreads, if_pos hn]
    omega
  · intro h
    cases requested with
    | none => rfl
    | some n =>
      have := h n rfl
      simp only [nThreads]
      rw [if_neg (by omega)]

/-- What a task yields. -/
def TaskRes.value : TaskRes → Option (List (List Val))
  | .rows r => some r
  | _ => none

/-- The result that the tasks have for each query is unambiguous. -/
def Consistent (ts : List Task) : Prop := ∀ t ∈ ts, ∀ u ∈ ts, t.query = u.query → t.res = u.res

theorem drain_ok (ts : List Task) (h : ∀ t ∈ ts, t.res ≠ .error) (acc : Collected) :
    drain acc ts = (⟨acc.results ++ ts.map fun t => (t.query, TaskRes.value t.res),
      acc.calls ++ ts.map fun t => (t.query, (t.query, TaskRes.value t.res))⟩, true) := by
  induction ts generalizing acc with
  | nil => simp [drain]
  | cons t ts ih =>
    have ht := h t (by simp)
    have ih := fun acc => ih (fun u hu => h u (by simp [hu])) acc
    cases hres : t.res with
    | error => exact absurd hres ht
    | rows r => simp [drain, hres, ih, TaskRes.value]
    | timedOut => simp [drain, hres, ih, TaskRes.value]

theorem ofList_get {α β : Type} [DecidableEq α] (l : List (α × β)) (a : α) (b : β) (hm : (a, b) ∈ l)
    (hu : ∀ b', (a, b') ∈ l → b' = b) : Dict.get? (Dict.ofList l) a = some b := by
  have key : ∀ (l : List (α × β)) (acc : Dict α β), (∀ b', (a, b') ∈ l → b' = b) →
      ((a, b) ∈ l ∨ Dict.get? acc a = some b) → Dict.get? (l.foldl (fun d p => Dict.set d p.1 p.2) acc) a = some b := by
    intro l
    induction l with
    | nil =>
      intro acc _ h
      rcases h with h | h
      · cases h
      · exact h
    | cons p l ih =>
      intro acc hu h
      rw [List.foldl_cons]
      apply ih _ (fun b' hb' => hu b' (by simp [hb']))
      rw [Dict.get?_set]
      by_cases hp : p.1 = a
      · right
        rw [if_pos hp]
        have : p.2 = b := hu p.2 (by rw [← hp]; simp)
        rw [this]
      · rcases h with h | h
        · rcases List.mem_cons.mp h with rfl | h
          · exact absurd rfl hp
          · exact Or.inl h
        · right; rw [if_neg hp]; exact h
  exact key l [] hu (Or.inl hm)

theorem ofList_none {α β : Type} [DecidableEq α] (l : List (α × β)) (a : α) (h : ∀ b, (a, b) ∉ l) :
    Dict.get? (Dict.ofList l) a = none := by
  have key : ∀ (l : List (α × β)) (acc : Dict α β), (∀ b, (a, b) ∉ l) → Dict.get? acc a = none →
      Dict.get? (l.foldl (fun d p => Dict.set d p.1 p.2) acc) a = none := by
    intro l
    induction l with
    | nil => intro acc _ h; exact h
    | cons p l ih =>
      intro acc hu h
      rw [List.foldl_cons]
      apply ih _ (fun b hb => hu b (by simp [hb]))
      rw [Dict.get?_set, if_neg, h]
      intro e
      exact hu p.2 (by rw [← e]; simp)
  exact key l [] h rfl

/-- **C182** (partial).  If no query fails, then in whatever order the queries are completed, the result set assigns to each query its
own result.

Missing: failing queries (`C182_error_violated`), the callback (`C182_callback_violated`), repeated calls
(`C182_twice_violated`). -/
theorem C182_results_partial (ts order : List Task) (hperm : order.Perm ts) (hne : ∀ t ∈ ts, t.res ≠ .error)
    (hc : Consistent ts) :
    (drain ⟨[], []⟩ order).2 = true ∧ (∀ t ∈ ts, Dict.get? (resultSet (drain ⟨[], []⟩ order).1) t.query =
        some (match t.res with | .rows r => some r | _ => none)) ∧
    ∀ q, (∀ t ∈ ts, t.query ≠ q) → Dict.get? (resultSet (drain ⟨[], []⟩ order).1) q = none := by
  have hd := drain_ok order (fun t ht => hne t (hperm.mem_iff.mp ht)) ⟨[], []⟩
  rw [hd]
  simp only [List.nil_append, resultSet]
  refine ⟨trivial, ?_, ?_⟩
  · intro t ht
    have : (match t.res with | .rows r => some r | _ => none) = TaskRes.value t.res := by
      cases t.res <;> rfl
    rw [this]
    apply ofList_get
    · exact List.mem_map.mpr ⟨t, hperm.mem_iff.mpr ht, rfl⟩
    · intro b' hb'
      obtain ⟨u, hu, e⟩ := List.mem_map.mp hb'
      simp only [Prod.mk.injEq] at e
      rw [← e.2, hc u (hperm.mem_iff.mp hu) t ht e.1]
  · intro q hq
    apply ofList_none
    intro b hb
    obtain ⟨u, hu, e⟩ := List.mem_map.mp hb
    simp only [Prod.mk.injEq] at e
    exact hq u (hperm.mem_iff.mp hu) e.1

/-- The callback gets pairs of the query and its rows instead of the rows. -/
theorem C182_callback_violated (ts : List Task) (hne : ∀ t ∈ ts, t.res ≠ .error) :
    (drain ⟨[], []⟩ ts).1.calls = ts.map fun t => (t.query, (t.query, match t.res with | .rows r => some r | _ => none)) := by
  rw [drain_ok ts hne]
  simp only [List.nil_append]
  apply List.map_congr_left
  intro t _
  cases t.res <;> rfl

/-- If the query that is completed first fails, all other results are lost. -/
theorem C182_error_violated (t : Task) (ht : t.res = .error) (ts : List Task) :
    (drain ⟨[], []⟩ (t :: ts)).1.results = [] ∧ (drain ⟨[], []⟩ (t :: ts)).2 = false := by
  simp [drain, ht]

/-- If the queue is drained again after more queries have been queued, the callback is called again for the old queries. -/
theorem C182_twice_violated (ts more order : List Task) (hperm : order.Perm (ts ++ more)) (h : ∀ t ∈ ts ++ more, t.res ≠ .error)
    (t : Task) (ht : t ∈ ts) (hu : ts.Nodup) :
    ∃ c ∈ (drain ⟨[], []⟩ ts).1.calls, ∃ pre post, (drain (drain ⟨[], []⟩ ts).1 order).1.calls = pre ++ post ∧ c ∈ pre ∧ c ∈ post := by
  have h1 := drain_ok ts (fun t ht => h t (by simp [ht])) ⟨[], []⟩
  have h2 := drain_ok order (fun t ht => h t (hperm.mem_iff.mp ht)) (drain ⟨[], []⟩ ts).1
  rw [h2, h1]
  refine ⟨_, List.mem_map.mpr ⟨t, ht, rfl⟩, _, _, rfl, ?_, ?_⟩
  · simp only [List.nil_append]
    exact List.mem_map.mpr ⟨t, ht, rfl⟩
  · exact List.mem_map.mpr ⟨t, hperm.mem_iff.mpr (by simp [ht]), rfl⟩

example : (drain ⟨[], []⟩ [⟨"b", .timedOut⟩, ⟨"a", .rows [[.int 1]]⟩]).2 = true ∧
    Reach 2 ⟨[0, 1], [], []⟩ ⟨[], [], [1, 0]⟩ :=
  ⟨rfl, (((Reach.refl _).tail (.start 0 [1] [] [] (by decide))).tail (.start 1 [] [0] [] (by decide))).tail
    (.finish 1 [] [1, 0] [] (by decide)) |>.tail (.finish 0 [] [0] [1] (by decide))⟩

end PB.ExecProps
