import Verif.Model.DuckExec

set_option linter.unusedSimpArgs false
set_option linter.unusedVariables false
set_option linter.unusedSectionVars false

/-! C226: timeouts and measured runtimes on DuckDB. -/

namespace PB.DuckExecProps

open PB PB.DuckExec

variable {R : Type}

/-- The call is answered by the cache. -/
def Cached (st : St R) : Call R → Prop
  | .query t c _ _ => c = true ∧ (st.cache.get? t).isSome = true
  | .withTimeout _ => False

/-- What the query of a call does. -/
def runOf : Call R → Run R
  | .query _ _ _ run => run
  | .withTimeout run => run

theorem uncached_done (st : St R) (t : String) (c lim : Bool) (r : R) (ns : Nat) :
    (executeUncached st t c lim (.done r ns)).1 = .rows r ∧ (executeUncached st t c lim (.done r ns)).2.runtime = .dur ns ∧
    (executeUncached st t c lim (.done r ns)).2.cache = if c then st.cache.set t r else st.cache := by
  cases c <;> cases lim <;> simp [executeUncached, executeWithTimeout, executePlain, afterWorker]

theorem query_uncached (st : St R) (t : String) (c lim : Bool) (run : Run R)
    (h : ¬ (c = true ∧ (st.cache.get? t).isSome = true)) :
    executeQuery st t c lim run = executeUncached st t c lim run := by
  cases c
  · simp [executeQuery]
  · cases hg : st.cache.get? t with
    | none => simp [executeQuery, hg]
    | some r => exact absurd ⟨rfl, by simp [hg]⟩ h

/-- **C226.** A query that ends in time gives its rows, with and without a timeout, and the remembered runtime is its duration. -/
theorem C226_done (st : St R) (call : Call R) (r : R) (ns : Nat) (hrun : runOf call = .done r ns) (hc : ¬ Cached st call) :
    (step st call).1 = .rows r ∧ (step st call).2.runtime = .dur ns := by
  cases call with
  | withTimeout run => cases hrun; simp [step, executeWithTimeout, afterWorker]
  | query t c lim run =>
    cases hrun
    have := uncached_done st t c lim r ns
    rw [step, query_uncached st t c lim _ hc]
    exact ⟨this.1, this.2.1⟩

/-- **C226.** A query that is not answered by the cache and fails raises the error of the database, and nothing is changed. -/
theorem C226_failed (st : St R) (call : Call R) (hrun : runOf call = .failed) (hc : ¬ Cached st call) :
    step st call = (.dbError, st) := by
  cases call with
  | withTimeout run => cases hrun; rfl
  | query t c lim run =>
    cases hrun
    rw [step, query_uncached st t c lim _ hc]
    cases lim <;> rfl

/-- The durations of the completed queries of a history, each with the state before it. -/
inductive LastDone : St R → List (Call R) → Option Nat → Prop
  | nil (st) : LastDone st [] none
  | done {st calls call r ns old} : LastDone st calls old → runOf call = .done r ns → ¬ Cached (runAll st calls) call →
      LastDone st (calls ++ [call]) (some ns)
  | other {st calls call old} : LastDone st calls old → (runOf call = .failed ∨ Cached (runAll st calls) call) →
      LastDone st (calls ++ [call]) old

theorem runAll_snoc (st : St R) (calls : List (Call R)) (c : Call R) :
    runAll st (calls ++ [c]) = (step (runAll st calls) c).2 := by
  simp [runAll, List.foldl_append]

/-- **C226.** As long as no query exceeds its timeout, the remembered runtime is the duration of the last query that has been
completed by the database. -/
theorem C226_history_partial (st : St R) (calls : List (Call R)) (last : Option Nat) (h : LastDone st calls last) :
    (runAll st calls).runtime = (last.map Runtime.dur).getD st.runtime := by
  induction h with
  | nil => rfl
  | done h hr hc ih => rw [runAll_snoc, (C226_done _ _ _ _ hr hc).2]; rfl
  | @other calls call old h hr ih =>
    rw [runAll_snoc]
    by_cases hc : Cached (runAll st calls) call
    · cases call with
      | withTimeout run => exact absurd hc id
      | query t c lim run =>
        obtain ⟨rfl, hg⟩ := hc
        obtain ⟨r, hr⟩ := Option.isSome_iff_exists.1 hg
        simp only [step, executeQuery, hr, if_true]
        exact ih
    · rcases hr with hr | hr
      · rw [C226_failed _ _ hr hc]; exact ih
      · exact absurd hr hc

/-- **C226.** `time_query` measures its own query: it returns its duration, and never uses the cache. -/
theorem C226_time_query (st : St R) (t : String) (lim : Bool) (r : R) (ns : Nat) :
    (timeQuery st t lim (.done r ns)).1 = .ok (.dur ns) := by
  cases lim <;> simp [timeQuery, executeQuery, executeUncached, executeWithTimeout, executePlain, afterWorker]

/-- **C226.** Results of queries that exceed their timeout are never cached. -/
theorem C226_cache (st : St R) (t : String) (c lim : Bool) (run : Run R) (h : ∀ r ns, run ≠ .done r ns) :
    (executeQuery st t c lim run).2.cache = st.cache := by
  have e : (executeUncached st t c lim run).2.cache = st.cache := by
    cases run <;> cases lim <;> simp [executeUncached, executeWithTimeout, executePlain, afterWorker] at h ⊢
  cases c
  · simpa [executeQuery] using e
  · cases hg : st.cache.get? t with
    | none => simpa [executeQuery, hg] using e
    | some r => simp [executeQuery, hg]

/-- **C226.** A query that ends by itself after its timeout but before the interrupt is reported as a timeout, and the
remembered runtime is infinite. -/
theorem C226_late_partial (st : St R) (ns : Nat) :
    (step st (.withTimeout (.late ns))).1 = .none ∧ (step st (.withTimeout (.late ns))).2.runtime = .inf ∧
    ∀ t, (step st (.query t false true (.late ns))).1 = .timeoutError ∧
      (step st (.query t false true (.late ns))).2.runtime = .inf := by
  refine ⟨rfl, rfl, fun t => ⟨rfl, rfl⟩⟩

/-- **C226 (violated).** A query that is stopped by the interrupt is not reported as a timeout: the exception of DuckDB is raised
again, by `execute_with_timeout` as well as by `execute_query`, and the remembered runtime is that of an earlier query. -/
theorem C226_interrupt_violated (st : St R) (t : String) :
    step st (.withTimeout .interrupted) = (.interruptError, st) ∧
    step st (.query t false true .interrupted) = (.interruptError, st) ∧
    (timeQuery st t true .interrupted).1 = .error .interruptError := ⟨rfl, rfl, rfl⟩

/-- **C226 (violated).** A query that is answered by the cache keeps the runtime of the query before it. -/
theorem C226_cached_violated (st : St R) (t t' : String) (lim lim' : Bool) (r r' : R) (ns ns' : Nat) (hne : t ≠ t')
    (hg : st.cache.get? t = none) (hg' : st.cache.get? t' = none) :
    (runAll st [.query t true lim (.done r ns), .query t' true lim' (.done r' ns'), .query t true lim (.done r ns)]).runtime =
      .dur ns' := by
  obtain ⟨_, _, a3⟩ := uncached_done st t true lim r ns
  have e1 : executeQuery st t true lim (.done r ns) = executeUncached st t true lim (.done r ns) :=
    query_uncached _ _ _ _ _ (by simp [hg])
  generalize hs1 : (executeUncached st t true lim (.done r ns)).2 = s1 at a3
  have hg1 : s1.cache.get? t' = none := by
    rw [a3]; simp [Dict.get?_set, hne, hne.symm, hg']
  have e2 : executeQuery s1 t' true lim' (.done r' ns') = executeUncached s1 t' true lim' (.done r' ns') :=
    query_uncached _ _ _ _ _ (by simp [hg1])
  obtain ⟨_, b2, b3⟩ := uncached_done s1 t' true lim' r' ns'
  generalize hs2 : (executeUncached s1 t' true lim' (.done r' ns')).2 = s2 at b2 b3
  have hg2 : s2.cache.get? t = some r := by
    rw [b3, a3]; simp [Dict.get?_set, hne, hne.symm]
  simp only [runAll, List.foldl, step, e1, hs1, e2, hs2]
  simp [executeQuery, hg2, b2]

example : LastDone (R := Nat) ⟨.nan, []⟩ [.query "SELECT 1" false true (.done 1 5), .withTimeout .failed] (some 5) :=
  LastDone.other (calls := [_]) (LastDone.done (calls := []) (.nil _) rfl (by simp [Cached])) (.inl rfl)

end PB.DuckExecProps
