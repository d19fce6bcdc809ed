import Verif.Model.Bench
import Mathlib.Tactic.Ring
import Mathlib.Tactic.Linarith

/-! C52, C53, C108: benchmarks, their result tables, their progressive output and their log. -/

set_option linter.unusedSimpArgs false
set_option linter.unusedVariables false
set_option linter.unusedSectionVars false
set_option linter.unnecessarySimpa false

namespace PB.BenchProps
open PB PB.Bench

variable {R : Type}

/-! ### Specification -/

/-- The row of an execution of an entry: its status, result, execution time and failure reason tell what happened. -/
def execRow (w : Nat) (e : Entry R) (i : Nat) (optTime optimized : Option Nat) : Row R :=
  match (e.execs i).outcome with
  | .ok r t => ⟨e.label, some (e.execs i).stamp, w, i + 1, e.query, .ok, .value r, some t, "", some (e.execs i).config, optTime, optimized⟩
  | .timeout t =>
    ⟨e.label, some (e.execs i).stamp, w, i + 1, e.query, .timeout, .emptyList, some t, "", some (e.execs i).config, optTime, optimized⟩
  | .failed err =>
    ⟨e.label, some (e.execs i).stamp, w, i + 1, e.query, .execError, .emptyList, none, err, some (e.execs i).config, optTime, optimized⟩
  | .escaped err =>
    ⟨e.label, some (e.execs i).stamp, w, i + 1, e.query, .execError, .emptyList, none, err, some (e.execs i).config, optTime, optimized⟩

/-- The row of the `i`-th repetition of an entry in the `w`-th repetition of the workload. -/
def rowOf (w : Nat) (e : Entry R) (i : Nat) : Row R :=
  match e.opt with
  | .none => execRow w e i none none
  | .ok q t => execRow w e i (some t) (some q)
  | .failed err => ⟨e.label, none, w, i + 1, e.query, .optError, .emptyList, none, err, none, none, none⟩

/-- The rows of one repetition of a workload: `reps` rows per entry, in the order of the entries. -/
def repRows (reps w : Nat) (entries : List (Entry R)) : List (Row R) :=
  entries.flatMap fun e => (List.range reps).map (rowOf w e)

/-- The rows of a benchmark; the first repetition has number `w + 1`. -/
def expected (reps : Nat) : Nat → List (List (Entry R)) → List (Row R)
  | _, [] => []
  | w, l :: ls => repRows reps (w + 1) l ++ expected reps (w + 1) ls

/-- Rows with consecutive indexes from `n` on. -/
def numFrom (n : Nat) (rows : List (Row R)) : List (Nat × Row R) := (rows.zipIdx n).map fun p => (p.2, p.1)

/-- The execution completed or timed out. -/
def success (r : Row R) : Bool := r.status = .ok || r.status = .timeout

/-- The rows of the progressive output: those of the executions that completed or timed out, and one row for a query whose optimization
failed. -/
def kept (reps : Nat) (r : Row R) : Bool := success r || (r.status = .optError && r.qrep = reps)

/-- The feedback for a pipeline: the optimized query, its result and its time in milliseconds. -/
def feedback (r : Row R) : Option (Nat × R × Nat) :=
  match r.status, r.optimized, r.result, r.time with
  | .ok, some q, .value x, some t => some (q, x, 1000 * t)
  | _, _, _, _ => none

/-- Nothing happens to the entry that ends the benchmark: the query preparation raises no error, errors of optimizations and executions
only happen if they shall be logged, and no execution times out if its result is needed for training. -/
structure Tame (cfg : Cfg) (e : Entry R) : Prop where
  noEscape : (∀ err, e.opt ≠ .failed err) → ∀ i < cfg.reps, ∀ err, (e.execs i).outcome ≠ .escaped err
  optFine : cfg.action ≠ .log → ∀ err, e.opt ≠ .failed err
  execFine : cfg.action ≠ .log → ∀ i < cfg.reps, ∀ err, (e.execs i).outcome ≠ .failed err
  noTimeout : cfg.online = true → ∀ q t, e.opt = .ok q t → ∀ i < cfg.reps, ∀ t, (e.execs i).outcome ≠ .timeout t

/-! ### Lemmas about loops -/

theorem forEach_snoc {S α : Type} (step : S → α → S × Option Err) (l : List α) (a : α) : ∀ s,
    forEach step s (l ++ [a]) = match (forEach step s l).2 with
      | none => step (forEach step s l).1 a
      | some e => ((forEach step s l).1, some e) := by
  induction l with
  | nil =>
    intro s
    simp only [List.nil_append, forEach]
    rcases h : step s a with ⟨s', _ | e⟩ <;> simp [h]
  | cons b l ih =>
    intro s
    simp only [List.cons_append, forEach]
    cases h : (step s b).2 with
    | none => simp only; exact ih _
    | some e => simp

theorem forEach_append {S α : Type} (step : S → α → S × Option Err) (l l' : List α) : ∀ s,
    forEach step s (l ++ l') = match (forEach step s l).2 with
      | none => forEach step (forEach step s l).1 l'
      | some e => ((forEach step s l).1, some e) := by
  induction l with
  | nil => intro s; simp [forEach]
  | cons b l ih =>
    intro s
    simp only [List.cons_append, forEach]
    cases h : (step s b).2 with
    | none => simp only; exact ih _
    | some e => simp

/-! ### Samples -/

/-- One cell of each column. -/
structure Rec (R : Type) where
  stamp : Option Nat
  status : Status
  result : Option R
  time : Option Nat
  reason : String
  config : Option Nat

/-- The columns of a sample consist of the given cells. -/
structure HasRecs (s : Sample R) (rs : List (Rec R)) : Prop where
  stamps : s.stamps = rs.map Rec.stamp
  status : s.status = rs.map Rec.status
  results : s.results = rs.map Rec.result
  times : s.times = rs.map Rec.time
  reasons : s.reasons = rs.map Rec.reason
  configs : s.configs = rs.map Rec.config

/-- The row of a record. -/
def recRow (s : Sample R) (i : Nat) (r : Rec R) : Row R := s.mkRow (i + 1) r.stamp r.status r.result r.time r.reason r.config

theorem mapM_range {α : Type} (f : Nat → Option α) (g : Nat → α) (n : Nat) (h : ∀ i < n, f i = some (g i)) :
    (List.range n).mapM f = some ((List.range n).map g) := by
  induction n with
  | zero => rfl
  | succ n ih =>
    rw [List.range_succ, List.mapM_append, ih fun i hi => h i (by omega)]
    simp [h n (by omega)]

theorem numFrom_append (n : Nat) (a b : List (Row R)) : numFrom n (a ++ b) = numFrom n a ++ numFrom (n + a.length) b := by
  rw [numFrom, List.zipIdx_append, List.map_append]
  rfl

theorem numFrom_range (m n : Nat) (g : Nat → Row R) :
    numFrom m ((List.range n).map g) = (List.range n).map fun i => (m + i, g i) := by
  induction n with
  | zero => rfl
  | succ n ih =>
    rw [List.range_succ, List.map_append, numFrom_append, ih]
    simp [numFrom]

theorem toDf_recs (s : Sample R) (n : Nat) (f : Nat → Rec R) (h : HasRecs s ((List.range n).map f)) :
    s.toDf = some (numFrom s.initialIdx ((List.range n).map fun i => recRow s i (f i))) := by
  obtain ⟨h1, h2, h3, h4, h5, h6⟩ := h
  have hl : s.results.length = n := by simp [h3]
  rw [Sample.toDf, hl]
  split
  · rename_i h0
    subst h0
    rfl
  · rw [if_pos (by simp [h1, h2, h4, h5, h6]), numFrom_range]
    apply mapM_range
    intro i hi
    simp [Sample.rowAt, h1, h2, h3, h4, h5, h6, hi, recRow]

theorem getLast_range {α : Type} (n : Nat) (f : Nat → α) : ((List.range (n + 1)).map f).getLast? = some (f n) := by
  rw [List.range_succ, List.map_append]
  simp

theorem lastRow_recs (s : Sample R) (n : Nat) (f : Nat → Rec R) (h : HasRecs s ((List.range (n + 1)).map f)) :
    s.lastRow = some (s.initialIdx + n, recRow s n (f n)) := by
  obtain ⟨h1, h2, h3, h4, h5, h6⟩ := h
  have hl : s.results.length = n + 1 := by simp [h3]
  rw [Sample.lastRow, h1, h2, h3, h4, h5, h6]
  simp only [List.map_map, getLast_range, Option.bind_some, Option.map_some, Function.comp]
  simp [recRow]

theorem lastSuccessful_recs (s : Sample R) (n : Nat) (f : Nat → Rec R) (h : HasRecs s ((List.range (n + 1)).map f)) :
    s.lastSuccessful = ((f n).status = .ok || (f n).status = .timeout : Bool) := by
  rw [Sample.lastSuccessful, h.status, List.map_map, getLast_range]
  simp

/-- The cells of an execution. -/
def recOf (x : Exec R) : Rec R :=
  match x.outcome with
  | .ok r t => ⟨some x.stamp, .ok, some r, some t, "", some x.config⟩
  | .timeout t => ⟨some x.stamp, .timeout, none, some t, "", some x.config⟩
  | .failed e => ⟨some x.stamp, .execError, none, none, e, some x.config⟩
  | .escaped e => ⟨some x.stamp, .execError, none, none, e, some x.config⟩

/-- The sample has the same fixed data. -/
structure Same (s s' : Sample R) : Prop where
  label : s'.label = s.label
  query : s'.query = s.query
  wrep : s'.wrep = s.wrep
  idx : s'.initialIdx = s.initialIdx
  optTime : s'.optTime = s.optTime
  optimized : s'.optimized = s.optimized

theorem recRow_same {s s' : Sample R} (h : Same s s') (i : Nat) (r : Rec R) : recRow s' i r = recRow s i r := by
  obtain ⟨h1, h2, h3, h4, h5, h6⟩ := h
  simp [recRow, Sample.mkRow, h1, h2, h3, h5, h6]

/-- The rows that a query contributes to a list if they are wanted. -/
def only {α : Type} (b : Bool) (l : List α) : List α := if b then l else []

theorem only_nil {α : Type} (b : Bool) : only b ([] : List α) = [] := by cases b <;> rfl

theorem only_append {α : Type} (b : Bool) (l l' : List α) : only b (l ++ l') = only b l ++ only b l' := by
  cases b <;> rfl

theorem finish_recs (cfg : Cfg) (s0 s : Sample R) (eff : Eff R) (n : Nat) (f : Nat → Rec R) (hs : Same s0 s)
    (h : HasRecs s ((List.range (n + 1)).map f)) :
    finish cfg s eff = (s, { eff with
      written := eff.written ++ only cfg.output ((numFrom (s0.initialIdx + n) [recRow s0 n (f n)]).filter fun r => success r.2)
      called := eff.called ++ only cfg.callback (([recRow s0 n (f n)]).filter success) }) := by
  have h1 := lastRow_recs s n f h
  have h2 := lastSuccessful_recs s n f h
  rw [recRow_same hs, hs.idx] at h1
  have h3 : success (recRow s0 n (f n)) = s.lastSuccessful := by rw [h2]; rfl
  unfold finish
  rw [h1]
  congr 1
  cases hb : s.lastSuccessful <;> cases cfg.output <;> cases cfg.callback <;>
    simp [only, numFrom, h3, hb]

theorem execStep_recs (cfg : Cfg) (s : Sample R) (eff : Eff R) (x : Exec R) (rs : List (Rec R)) (h : HasRecs s rs)
    (he : ∀ err, x.outcome ≠ .escaped err) (hf : cfg.action ≠ .log → ∀ err, x.outcome ≠ .failed err) :
    ∃ s', execStep cfg (s, eff) x = (finish cfg s' eff, none) ∧ HasRecs s' (rs ++ [recOf x]) ∧ Same s s' := by
  obtain ⟨h1, h2, h3, h4, h5, h6⟩ := h
  unfold execStep recOf
  cases ho : x.outcome with
  | ok r t =>
    exact ⟨_, rfl, by constructor <;> simp [Sample.addOk, Sample.start, *], by constructor <;> rfl⟩
  | timeout t =>
    exact ⟨_, rfl, by constructor <;> simp [Sample.addTimeout, Sample.start, *], by constructor <;> rfl⟩
  | failed e =>
    have ha : cfg.action = .log := by by_contra hc; exact hf hc e ho
    simp only [ha]
    exact ⟨_, rfl, by constructor <;> simp [Sample.addFailure, Sample.start, *], by constructor <;> rfl⟩
  | escaped e => exact absurd ho (he e)

/-- All executions of a query. -/
theorem execs_recs (cfg : Cfg) (s0 : Sample R) (eff : Eff R) (f : Nat → Exec R) (h0 : HasRecs s0 []) (n : Nat)
    (he : ∀ i < n, ∀ err, (f i).outcome ≠ .escaped err) (hf : cfg.action ≠ .log → ∀ i < n, ∀ err, (f i).outcome ≠ .failed err) :
    ∃ s eff', forEach (execStep cfg) (s0, eff) ((List.range n).map f) = ((s, eff'), none) ∧
      HasRecs s ((List.range n).map fun i => recOf (f i)) ∧ Same s0 s ∧
      eff' = { eff with
        written := eff.written ++ only cfg.output
          ((numFrom s0.initialIdx ((List.range n).map fun i => recRow s0 i (recOf (f i)))).filter fun r => success r.2)
        called := eff.called ++ only cfg.callback (((List.range n).map fun i => recRow s0 i (recOf (f i))).filter success) } := by
  induction n with
  | zero =>
    refine ⟨s0, eff, rfl, h0, ⟨rfl, rfl, rfl, rfl, rfl, rfl⟩, ?_⟩
    simp [numFrom, only_nil]
  | succ n ih =>
    obtain ⟨s, eff', h1, h2, h3, h4⟩ := ih (fun i hi => he i (by omega)) (fun ha i hi => hf ha i (by omega))
    obtain ⟨s', h5, h6, h7⟩ := execStep_recs cfg s eff' (f n) _ h2 (he n (by omega)) (fun ha => hf ha n (by omega))
    have h8 : Same s0 s' := by
      obtain ⟨a1, a2, a3, a4, a5, a6⟩ := h3
      obtain ⟨b1, b2, b3, b4, b5, b6⟩ := h7
      exact ⟨b1.trans a1, b2.trans a2, b3.trans a3, b4.trans a4, b5.trans a5, b6.trans a6⟩
    have h9 : HasRecs s' ((List.range (n + 1)).map fun i => recOf (f i)) := by
      rw [List.range_succ, List.map_append]; exact h6
    refine ⟨s', (finish cfg s' eff').2, ?_, h9, h8, ?_⟩
    · rw [List.range_succ, List.map_append, List.map_singleton, forEach_snoc, h1]
      exact h5
    · rw [finish_recs cfg s0 s' eff' n _ h8 h9, h4]
      simp only [List.range_succ, List.map_append, List.map_cons, List.map_nil, List.filter_append, numFrom_append, List.length_map,
        List.length_range, only_append, List.append_assoc]

/-! ### Queries -/

theorem newSample_recs (st : St R) (e : Entry R) : HasRecs (st.newSample e) [] := by constructor <;> rfl

/-- What a query adds to the state. -/
structure Adds (cfg : Cfg) (st st' : St R) (new : List (Row R)) : Prop where
  samples : ∃ s, st'.samples = st.samples ++ [s] ∧ s.toDf = some (numFrom st.nextCounter new) ∧ s.numExecutions = new.length
  counter : st'.counter = st.nextCounter
  wrep : st'.wrep = st.wrep
  written : st'.eff.written = st.eff.written ++ only cfg.output ((numFrom st.nextCounter new).filter fun r => kept cfg.reps r.2)
  called : st'.eff.called = st.eff.called ++ only cfg.callback (new.filter success)
  learned : st'.eff.learned = st.eff.learned ++ only cfg.online (new.filterMap feedback)

theorem learn_recs (q : Nat) (s : Sample R) (n : Nat) (f : Nat → Exec R) (eff : Eff R) (hq : s.optimized = some q)
    (hto : ∀ i < n, ∀ t, (f i).outcome ≠ .timeout t) :
    forEach (learnStep q) eff ((List.range n).map fun i => ((recOf (f i)).status, (recOf (f i)).result, (recOf (f i)).time)) =
      ({ eff with learned := eff.learned ++ ((List.range n).map fun i => recRow s i (recOf (f i))).filterMap feedback }, none) := by
  induction n with
  | zero => simp [forEach]
  | succ n ih =>
    rw [List.range_succ, List.map_append, List.map_singleton, forEach_snoc, ih fun i hi => hto i (by omega)]
    simp only [List.map_append, List.filterMap_append, List.map_singleton]
    unfold learnStep recOf
    cases ho : (f n).outcome with
    | ok r t => simp [recRow, Sample.mkRow, feedback, simplified, hq]
    | timeout t => exact absurd ho (hto n (by omega) t)
    | failed e => simp [recRow, Sample.mkRow, feedback]
    | escaped e => simp [recRow, Sample.mkRow, feedback]

theorem zip_recs (s : Sample R) (n : Nat) (f : Nat → Rec R) (h : HasRecs s ((List.range n).map f)) :
    s.status.zip (s.results.zip s.times) = (List.range n).map fun i => ((f i).status, (f i).result, (f i).time) := by
  rw [h.status, h.results, h.times]
  simp only [List.map_map, List.zip_map', Function.comp]

/-- Executions that are not training data add no feedback. -/
theorem feedback_none (s : Sample R) (h : s.optimized = none) (l : List Nat) (f : Nat → Rec R) :
    (l.map fun i => recRow s i (f i)).filterMap feedback = [] := by
  rw [List.filterMap_eq_nil_iff]
  simp only [List.mem_map, forall_exists_index, and_imp, forall_apply_eq_imp_iff₂]
  intro i _
  simp only [feedback, recRow, Sample.mkRow, h]
  cases (f i).status <;> rfl

theorem kept_recs (reps : Nat) (s : Sample R) (m : Nat) (l : List Nat) (f : Nat → Exec R) :
    (numFrom m (l.map fun i => recRow s i (recOf (f i)))).filter (fun r => kept reps r.2) =
      (numFrom m (l.map fun i => recRow s i (recOf (f i)))).filter fun r => success r.2 := by
  apply List.filter_congr
  intro p hp
  rw [numFrom, List.mem_map] at hp
  obtain ⟨⟨r, k⟩, hr, rfl⟩ := hp
  have := List.mem_zipIdx hr
  have hmem : r ∈ l.map fun i => recRow s i (recOf (f i)) := by
    rw [this.2.2]; exact List.getElem_mem _
  obtain ⟨i, -, rfl⟩ := List.mem_map.1 hmem
  have : (recOf (f i)).status ≠ .optError := by unfold recOf; split <;> simp
  simp [kept, recRow, Sample.mkRow, this]

theorem executions_adds (cfg : Cfg) (st : St R) (s0 : Sample R) (query : Option Nat) (e : Entry R) (h0 : HasRecs s0 [])
    (hidx : s0.initialIdx = st.counter) (hq : s0.optimized = query)
    (he : ∀ i < cfg.reps, ∀ err, (e.execs i).outcome ≠ .escaped err)
    (hf : cfg.action ≠ .log → ∀ i < cfg.reps, ∀ err, (e.execs i).outcome ≠ .failed err)
    (hto : cfg.online = true → query ≠ none → ∀ i < cfg.reps, ∀ t, (e.execs i).outcome ≠ .timeout t) :
    ∃ st' s, executions cfg st s0 query e = (st', none) ∧ st'.samples = st.samples ++ [s] ∧ st'.counter = st.counter ∧
      st'.wrep = st.wrep ∧
      let new := (List.range cfg.reps).map fun i => recRow s0 i (recOf (e.execs i))
      s.toDf = some (numFrom st.counter new) ∧ s.numExecutions = new.length ∧
      st'.eff.written = st.eff.written ++ only cfg.output ((numFrom st.counter new).filter fun r => kept cfg.reps r.2) ∧
      st'.eff.called = st.eff.called ++ only cfg.callback (new.filter success) ∧
      st'.eff.learned = st.eff.learned ++ only cfg.online (new.filterMap feedback) := by
  obtain ⟨s, eff', h1, h2, h3, h4⟩ := execs_recs cfg s0 st.eff e.execs h0 cfg.reps he hf
  have hdf := toDf_recs s cfg.reps _ h2
  rw [h3.idx, hidx] at hdf
  simp only [recRow_same h3] at hdf
  have hnum : s.numExecutions = cfg.reps := by rw [Sample.numExecutions, h2.results]; simp
  rw [hidx] at h4
  unfold executions
  rw [h1]
  simp only
  rw [kept_recs]
  cases query with
  | none =>
    refine ⟨_, s, rfl, rfl, rfl, rfl, hdf, by simpa using hnum, by simp [h4], by simp [h4], ?_⟩
    rw [feedback_none s0 hq, only_nil]
    simp [h4]
  | some q =>
    simp only
    cases ho : cfg.online with
    | false =>
      refine ⟨_, s, rfl, rfl, rfl, rfl, hdf, by simpa using hnum, by simp [h4], by simp [h4], by simp [h4, only]⟩
    | true =>
      simp only [if_true]
      rw [zip_recs s _ _ h2, learn_recs q s0 cfg.reps e.execs eff' hq (hto ho (by simp))]
      refine ⟨_, s, rfl, rfl, rfl, rfl, hdf, by simpa using hnum, by simp [h4], by simp [h4], by simp [h4, only]⟩

theorem recRow_exec (s : Sample R) (w : Nat) (e : Entry R) (i : Nat) (h1 : s.label = e.label) (h2 : s.query = e.query) (h3 : s.wrep = w) :
    recRow s i (recOf (e.execs i)) = execRow w e i s.optTime s.optimized := by
  subst h3
  unfold recRow recOf execRow Sample.mkRow
  rw [h1, h2]
  cases (e.execs i).outcome <;> simp [simplified]

theorem queryStep_adds (cfg : Cfg) (st : St R) (e : Entry R) (ht : Tame cfg e) :
    ∃ st', queryStep cfg st e = (st', none) ∧ Adds cfg st st' ((List.range cfg.reps).map (rowOf st.wrep e)) := by
  obtain ⟨t1, t2, t3, t4⟩ := ht
  unfold queryStep
  cases ho : e.opt with
  | none =>
    obtain ⟨st', s, a1, a2, a3, a4, a5, a6, a7, a8, a9⟩ := executions_adds cfg { st with counter := st.nextCounter } (st.newSample e) none e
      (newSample_recs st e) rfl rfl (t1 (by simp [ho])) t3 (by simp)
    have hr : ((List.range cfg.reps).map fun i => recRow (st.newSample e) i (recOf (e.execs i))) =
        (List.range cfg.reps).map (rowOf st.wrep e) := by
      apply List.map_congr_left
      intro i _
      rw [recRow_exec _ st.wrep e i rfl rfl rfl, rowOf, ho]; rfl
    rw [hr] at a5 a6 a7 a8 a9
    exact ⟨st', a1, ⟨s, a2, a5, a6⟩, a3, a4, a7, a8, a9⟩
  | ok q t =>
    obtain ⟨st', s, a1, a2, a3, a4, a5, a6, a7, a8, a9⟩ := executions_adds cfg { st with counter := st.nextCounter }
      ((st.newSample e).optResults q t) (some q) e (by constructor <;> rfl) rfl rfl (t1 (by simp [ho])) t3 (fun h _ => t4 h q t ho)
    have hr : ((List.range cfg.reps).map fun i => recRow ((st.newSample e).optResults q t) i (recOf (e.execs i))) =
        (List.range cfg.reps).map (rowOf st.wrep e) := by
      apply List.map_congr_left
      intro i _
      rw [recRow_exec _ st.wrep e i rfl rfl rfl, rowOf, ho]; rfl
    rw [hr] at a5 a6 a7 a8 a9
    exact ⟨st', a1, ⟨s, a2, a5, a6⟩, a3, a4, a7, a8, a9⟩
  | failed err =>
    have ha : cfg.action = .log := by by_contra hc; exact t2 hc err ho
    have hrec : HasRecs ((st.newSample e).optFailure err cfg.reps)
        ((List.range cfg.reps).map fun _ => ⟨none, .optError, none, none, err, none⟩) := by
      constructor <;> simp [Sample.optFailure, St.newSample, List.map_const', Function.comp_def]
    have hdf := toDf_recs _ _ _ hrec
    have hr : ∀ i, recRow ((st.newSample e).optFailure err cfg.reps) i ⟨none, .optError, none, none, err, none⟩ = rowOf st.wrep e i := by
      intro i; rw [rowOf, ho]; rfl
    simp only [hr] at hdf
    simp only [optFailed, ha]
    refine ⟨_, rfl, ⟨_, rfl, hdf, by simp [Sample.numExecutions, Sample.optFailure, St.newSample]⟩, rfl, rfl, ?_, ?_, ?_⟩
    · have hstat : ∀ i, (rowOf st.wrep e i).status = .optError ∧ (rowOf st.wrep e i).qrep = i + 1 := by
        intro i; rw [rowOf, ho]; exact ⟨rfl, rfl⟩
      rw [numFrom_range]
      cases hn : cfg.reps with
      | zero =>
        have : ((st.newSample e).optFailure err 0).lastRow = none := by
          simp [Sample.lastRow, Sample.optFailure, St.newSample]
        rw [this]
        cases cfg.output <;> simp [only]
      | succ n =>
        rw [hn] at hrec
        have hl := lastRow_recs _ n _ hrec
        have h1 : recRow ((st.newSample e).optFailure err (n + 1)) n ⟨none, .optError, none, none, err, none⟩ = rowOf st.wrep e n := by
          rw [rowOf, ho]; rfl
        rw [h1] at hl
        rw [hl, List.range_succ, List.map_append, List.filter_append]
        have h2 : (List.map (fun i => (st.nextCounter + i, rowOf st.wrep e i)) (List.range n)).filter (fun r => kept (n + 1) r.2) = [] := by
          rw [List.filter_eq_nil_iff]
          intro p hp
          obtain ⟨i, hi, rfl⟩ := List.mem_map.1 hp
          have := List.mem_range.1 hi
          simp [kept, success, (hstat i).1, (hstat i).2]
          omega
        rw [h2]
        cases cfg.output <;> simp [only, kept, success, (hstat n).1, (hstat n).2]
        rfl
    · have : ((List.range cfg.reps).map (rowOf st.wrep e)).filter success = [] := by
        rw [List.filter_eq_nil_iff]
        intro r hr'
        obtain ⟨i, -, rfl⟩ := List.mem_map.1 hr'
        rw [rowOf, ho]; simp [success]
      simp [this, only_nil]
    · have : ((List.range cfg.reps).map (rowOf st.wrep e)).filterMap feedback = [] := by
        rw [List.filterMap_eq_nil_iff]
        intro r hr'
        obtain ⟨i, -, rfl⟩ := List.mem_map.1 hr'
        rw [rowOf, ho]; simp [feedback]
      simp [this, only_nil]

/-! ### Benchmarks -/

/-- The state after the rows `acc`. -/
structure Inv (cfg : Cfg) (st : St R) (acc : List (Row R)) : Prop where
  dfs : ∃ dfs, st.samples.mapM Sample.toDf = some dfs ∧ dfs.flatten = numFrom 1 acc
  counter : st.nextCounter = 1 + acc.length
  written : st.eff.written = only cfg.output ((numFrom 1 acc).filter fun r => kept cfg.reps r.2)
  called : st.eff.called = only cfg.callback (acc.filter success)
  learned : st.eff.learned = only cfg.online (acc.filterMap feedback)

theorem inv_init (cfg : Cfg) : Inv cfg ({} : St R) [] :=
  ⟨⟨[], rfl, rfl⟩, rfl, by simp [numFrom, only_nil], by simp [only_nil], by simp [only_nil]⟩

theorem inv_adds {cfg : Cfg} {st st' : St R} {acc new : List (Row R)} (h : Inv cfg st acc) (ha : Adds cfg st st' new) :
    Inv cfg st' (acc ++ new) := by
  obtain ⟨⟨dfs, h1, h2⟩, h3, h4, h5, h6⟩ := h
  obtain ⟨⟨s, a1, a2, a3⟩, a4, a5, a6, a7, a8⟩ := ha
  rw [h3] at a2 a4 a6
  refine ⟨⟨dfs ++ [numFrom (1 + acc.length) new], ?_, ?_⟩, ?_, ?_, ?_, ?_⟩
  · rw [a1, List.mapM_append, h1]
    simp [a2]
  · rw [List.flatten_append, h2, numFrom_append]; simp
  · rw [St.nextCounter, a1, a4]
    simp [a3]; omega
  · rw [a6, h4, numFrom_append, List.filter_append, only_append]
  · rw [a7, h5, List.filter_append, only_append]
  · rw [a8, h6, List.filterMap_append, only_append]

theorem rep_inv (cfg : Cfg) (entries : List (Entry R)) (ht : ∀ e ∈ entries, Tame cfg e) : ∀ (st : St R) acc, Inv cfg st acc →
    ∃ st', forEach (queryStep cfg) st entries = (st', none) ∧ Inv cfg st' (acc ++ repRows cfg.reps st.wrep entries) ∧ st'.wrep = st.wrep ∧
      st'.samples.length = st.samples.length + entries.length := by
  induction entries with
  | nil => intro st acc h; exact ⟨st, rfl, by simpa [repRows] using h, rfl, rfl⟩
  | cons e l ih =>
    intro st acc h
    obtain ⟨st1, h1, h2⟩ := queryStep_adds cfg st e (ht e (by simp))
    obtain ⟨st2, h3, h4, h5, h6⟩ := ih (fun e he => ht e (by simp [he])) st1 _ (inv_adds h h2)
    refine ⟨st2, by simp [forEach, h1, h3], ?_, h5.trans h2.wrep, ?_⟩
    · rw [h2.wrep, List.append_assoc] at h4
      simpa [repRows] using h4
    · obtain ⟨s, hs, -⟩ := h2.samples
      rw [h6, hs]; simp; omega

theorem all_inv (cfg : Cfg) (ws : List (List (Entry R))) (ht : ∀ l ∈ ws, ∀ e ∈ l, Tame cfg e) : ∀ (st : St R) acc, Inv cfg st acc →
    ∃ st', forEach (repStep cfg) st ws = (st', none) ∧ Inv cfg st' (acc ++ expected cfg.reps st.wrep ws) ∧
      st'.samples.length = st.samples.length + ws.flatten.length ∧ st'.wrep = st.wrep + ws.length := by
  induction ws with
  | nil => intro st acc h; exact ⟨st, rfl, by simpa [expected] using h, rfl, rfl⟩
  | cons l ws ih =>
    intro st acc h
    have h' : Inv cfg { st with wrep := st.wrep + 1 } acc := ⟨h.dfs, h.counter, h.written, h.called, h.learned⟩
    obtain ⟨st1, h1, h2, h3, h4⟩ := rep_inv cfg l (ht l (by simp)) _ acc h'
    obtain ⟨st2, h5, h6, h7, h8⟩ := ih (fun l hl => ht l (by simp [hl])) st1 _ h2
    refine ⟨st2, by simp [forEach, repStep, h1, h5], ?_, ?_, ?_⟩
    · rw [h3, List.append_assoc] at h6
      simpa [expected] using h6
    · rw [h7, h4]; simp; omega
    · rw [h8, h3]; simp; omega

theorem execute_inv (cfg : Cfg) (ws : List (List (Entry R))) (ht : ∀ l ∈ ws, ∀ e ∈ l, Tame cfg e) :
    ∃ st, forEach (repStep cfg) {} ws = (st, none) ∧ Inv cfg st (expected cfg.reps 0 ws) ∧ st.samples.length = ws.flatten.length := by
  obtain ⟨st, h1, h2, h3, -⟩ := all_inv cfg ws ht {} [] (inv_init cfg)
  exact ⟨st, h1, by simpa using h2, by simpa using h3⟩

/-- **C52** (partial: nothing happens that ends the benchmark, in particular errors are logged or do not occur). The benchmark returns one
row per repetition of each query in each repetition of the workload, in that order. Each row has the label, the repetitions and the
outcome of its execution. The execution indexes count the rows from 1 on. The experiment is logged as completed. -/
theorem C52_rows_partial (cfg : Cfg) (ws : List (List (Entry R))) (hne : ∃ l ∈ ws, l ≠ []) (ht : ∀ l ∈ ws, ∀ e ∈ l, Tame cfg e) :
    (execute cfg ws).out = .ok (numFrom 1 (expected cfg.reps 0 ws)) ∧ (execute cfg ws).log = .completed := by
  obtain ⟨st, h1, h2, h3⟩ := execute_inv cfg ws ht
  obtain ⟨⟨dfs, h4, h5⟩, -⟩ := h2
  have hs : st.samples.isEmpty = false := by
    rw [← Bool.not_eq_true, List.isEmpty_iff]
    intro h
    rw [h] at h3
    obtain ⟨l, hl, hn⟩ := hne
    have : ws.flatten = [] := List.length_eq_zero_iff.1 h3.symm
    rw [List.flatten_eq_nil_iff] at this
    exact hn (this l hl)
  simp [execute, h1, St.toDf, hs, h4, h5]

theorem repRows_length (reps w : Nat) (l : List (Entry R)) : (repRows reps w l).length = l.length * reps := by
  induction l with
  | nil => simp [repRows]
  | cons e l ih => simp only [repRows, List.flatMap_cons, List.length_append] at ih ⊢; rw [ih]; simp; ring

theorem expected_length (reps n : Nat) (ws : List (List (Entry R))) (h : ∀ l ∈ ws, l.length = n) : ∀ w,
    (expected reps w ws).length = ws.length * n * reps := by
  induction ws with
  | nil => intro w; simp [expected]
  | cons l ws ih =>
    intro w
    rw [expected, List.length_append, ih (fun l hl => h l (by simp [hl])), repRows_length, h l (by simp)]
    simp; ring

/-- **C52** (partial: as above). Benchmarking `n` queries yields `w · n · r` rows for `w` repetitions of the workload and `r`
repetitions per query, with the indexes 1, 2, … -/
theorem C52_count_partial (cfg : Cfg) (ws : List (List (Entry R))) (n : Nat) (hn : ∀ l ∈ ws, l.length = n) (hne : ∃ l ∈ ws, l ≠ [])
    (ht : ∀ l ∈ ws, ∀ e ∈ l, Tame cfg e) : ∃ rows, (execute cfg ws).out = .ok rows ∧ rows.length = ws.length * n * cfg.reps ∧
      rows.map Prod.fst = List.range' 1 (ws.length * n * cfg.reps) := by
  refine ⟨_, (C52_rows_partial cfg ws hne ht).1, ?_, ?_⟩
  · simp [numFrom, expected_length cfg.reps n ws hn]
  · rw [numFrom, List.map_map, ← expected_length cfg.reps n ws hn 0]
    generalize expected cfg.reps 0 ws = l
    have : (Prod.fst ∘ fun p : Row R × Nat => (p.2, p.1)) = Prod.snd := by funext p; rfl
    rw [this]
    simp

/-! ### Errors -/

/-- The entry fails with the error: its optimization does, or one of its executions does after executions that do not. -/
inductive Fails (cfg : Cfg) (e : Entry R) (err : String) : Prop
  | opt (h : e.opt = .failed err)
  | exec (ho : ∀ e', e.opt ≠ .failed e') (n : Nat) (hn : n < cfg.reps) (hf : (e.execs n).outcome = .failed err)
      (hp : ∀ i < n, ∀ e', (e.execs i).outcome ≠ .failed e' ∧ (e.execs i).outcome ≠ .escaped e')
  | escape (ho : ∀ e', e.opt ≠ .failed e') (n : Nat) (hn : n < cfg.reps) (hf : (e.execs n).outcome = .escaped err)
      (hp : ∀ i < n, ∀ e', (e.execs i).outcome ≠ .failed e' ∧ (e.execs i).outcome ≠ .escaped e')

theorem executions_fails (cfg : Cfg) (hc : cfg.action = .raise) (st : St R) (s0 : Sample R) (h0 : HasRecs s0 []) (query : Option Nat) (e : Entry R)
    (n : Nat) (hn : n < cfg.reps) (err : String) (hf : (e.execs n).outcome = .failed err ∨ (e.execs n).outcome = .escaped err)
    (hp : ∀ i < n, ∀ e', (e.execs i).outcome ≠ .failed e' ∧ (e.execs i).outcome ≠ .escaped e') :
    (executions cfg st s0 query e).2 = some (.raised err) := by
  obtain ⟨s, eff', h1, -⟩ := execs_recs cfg s0 st.eff e.execs h0 n (fun i hi e' => (hp i hi e').2) (fun _ i hi e' => (hp i hi e').1)
  obtain ⟨rest, hsplit⟩ : ∃ rest, List.range cfg.reps = (List.range n ++ [n]) ++ rest := by
    obtain ⟨k, hk⟩ := Nat.exists_eq_add_of_lt hn
    refine ⟨(List.range k).map (n + 1 + ·), ?_⟩
    rw [← List.range_succ, ← List.range_add, hk]
    congr 1; omega
  have h2 : (forEach (execStep cfg) (s0, st.eff) ((List.range cfg.reps).map e.execs)).2 = some (.raised err) := by
    rw [hsplit, List.map_append, forEach_append, List.map_append, List.map_singleton, forEach_snoc, h1]
    have : (execStep cfg (s, eff') (e.execs n)).2 = some (.raised err) := by
      unfold execStep
      rcases hf with hf | hf <;> rw [hf]
      simp [hc]
    simp [this]
  unfold executions
  rcases h3 : forEach (execStep cfg) (s0, st.eff) ((List.range cfg.reps).map e.execs) with ⟨p, _ | x⟩
  · rw [h3] at h2; simp at h2
  · rw [h3] at h2; simpa using h2

/-- An error of an entry becomes an error of the benchmark. -/
theorem execute_error (cfg : Cfg) (ws1 ws2 : List (List (Entry R))) (l1 l2 : List (Entry R)) (e : Entry R) (x : Err)
    (ht : ∀ l ∈ ws1, ∀ e ∈ l, Tame cfg e) (ht' : ∀ e ∈ l1, Tame cfg e) (he : ∀ st : St R, (queryStep cfg st e).2 = some x) :
    (execute cfg (ws1 ++ (l1 ++ e :: l2) :: ws2)).out = .error x ∧
      (execute cfg (ws1 ++ (l1 ++ e :: l2) :: ws2)).log = .failed x := by
  obtain ⟨st1, h1, h2, -⟩ := all_inv cfg ws1 ht {} [] (inv_init cfg)
  have h' : Inv cfg { st1 with wrep := st1.wrep + 1 } _ := ⟨h2.dfs, h2.counter, h2.written, h2.called, h2.learned⟩
  obtain ⟨st2, h3, -⟩ := rep_inv cfg l1 ht' _ _ h'
  have h4 : (forEach (repStep cfg) {} (ws1 ++ (l1 ++ e :: l2) :: ws2)).2 = some x := by
    rw [forEach_append, h1]
    have h5 : (repStep cfg st1 (l1 ++ e :: l2)).2 = some x := by
      rw [repStep, forEach_append, h3]
      simp [forEach, he st2]
    simp [forEach, h5]
  unfold execute
  rcases h5 : forEach (repStep cfg) {} (ws1 ++ (l1 ++ e :: l2) :: ws2) with ⟨st, _ | y⟩
  · rw [h5] at h4; simp at h4
  · rw [h5] at h4
    simp only [Option.some.injEq] at h4
    subst h4
    exact ⟨rfl, rfl⟩

/-- **C52.** If errors shall be raised, the benchmark raises the first one, and the experiment is logged as failed. -/
theorem C52_raise (cfg : Cfg) (hc : cfg.action = .raise) (ws1 ws2 : List (List (Entry R))) (l1 l2 : List (Entry R)) (e : Entry R) (err : String)
    (ht : ∀ l ∈ ws1, ∀ e ∈ l, Tame cfg e) (ht' : ∀ e ∈ l1, Tame cfg e) (he : Fails cfg e err) :
    (execute cfg (ws1 ++ (l1 ++ e :: l2) :: ws2)).out = .error (.raised err) ∧
      (execute cfg (ws1 ++ (l1 ++ e :: l2) :: ws2)).log = .failed (.raised err) := by
  apply execute_error cfg ws1 ws2 l1 l2 e _ ht ht'
  intro st
  unfold queryStep
  rcases he with h | ⟨ho, n, hn, hf, hp⟩ | ⟨ho, n, hn, hf, hp⟩
  · simp [h, optFailed, hc]
  · cases h : e.opt with
    | none => exact executions_fails cfg hc _ _ (newSample_recs st e) _ e n hn err (.inl hf) hp
    | ok q t => exact executions_fails cfg hc _ _ (by constructor <;> rfl) _ e n hn err (.inl hf) hp
    | failed e' => exact absurd h (ho e')
  · cases h : e.opt with
    | none => exact executions_fails cfg hc _ _ (newSample_recs st e) _ e n hn err (.inr hf) hp
    | ok q t => exact executions_fails cfg hc _ _ (by constructor <;> rfl) _ e n hn err (.inr hf) hp
    | failed e' => exact absurd h (ho e')

/-! ### Ignored errors -/

/-- The entries whose optimization succeeds. -/
def optimizable (e : Entry R) : Bool :=
  match e.opt with
  | .failed _ => false
  | _ => true

/-- The state after the rows `acc`, if the indexes may have gaps. -/
structure Inv' (st : St R) (acc : List (Row R)) : Prop where
  dfs : ∃ dfs, st.samples.mapM Sample.toDf = some dfs ∧ dfs.flatten.map Prod.snd = acc ∧
    dfs.flatten.Pairwise (fun a b => a.1 < b.1) ∧ ∀ a ∈ dfs.flatten, a.1 < st.nextCounter

theorem numFrom_snd (n : Nat) (l : List (Row R)) : (numFrom n l).map Prod.snd = l := by
  rw [numFrom, List.map_map]
  have : (Prod.snd ∘ fun p : Row R × Nat => (p.2, p.1)) = Prod.fst := by funext p; rfl
  rw [this, List.zipIdx_map_fst]

theorem numFrom_sorted (l : List (Row R)) : ∀ n, (numFrom n l).Pairwise (fun a b => a.1 < b.1) ∧ ∀ a ∈ numFrom n l, n ≤ a.1 ∧ a.1 < n + l.length := by
  induction l with
  | nil => intro n; simp [numFrom]
  | cons r l ih =>
    intro n
    have : numFrom n (r :: l) = (n, r) :: numFrom (n + 1) l := by simp [numFrom]
    rw [this]
    obtain ⟨h1, h2⟩ := ih (n + 1)
    refine ⟨List.pairwise_cons.2 ⟨fun a ha => by have := (h2 a ha).1; simp only; omega, h1⟩, ?_⟩
    intro a ha
    rcases List.mem_cons.1 ha with rfl | ha
    · simp
    · have := h2 a ha
      simp only [List.length_cons]; omega

theorem inv'_adds {cfg : Cfg} {st st' : St R} {acc new : List (Row R)} (h : Inv' st acc) (ha : Adds cfg st st' new) : Inv' st' (acc ++ new) := by
  obtain ⟨⟨dfs, h1, h2, h3, h4⟩⟩ := h
  obtain ⟨⟨s, a1, a2, a3⟩, a4, -⟩ := ha
  obtain ⟨n1, n2⟩ := numFrom_sorted new st.nextCounter
  have hc : st'.nextCounter = st.nextCounter + new.length := by rw [St.nextCounter, a1, a4]; simp [a3]
  refine ⟨⟨dfs ++ [numFrom st.nextCounter new], ?_, ?_, ?_, ?_⟩⟩
  · rw [a1, List.mapM_append, h1]
    simp [a2]
  · rw [List.flatten_append, List.map_append, h2]; simp [numFrom_snd]
  · rw [List.flatten_append]
    refine List.pairwise_append.2 ⟨h3, by simpa using n1, ?_⟩
    intro a ha b hb
    have := h4 a ha
    have := (n2 b (by simpa using hb)).1
    omega
  · intro a ha
    rw [List.flatten_append] at ha
    rw [hc]
    rcases List.mem_append.1 ha with ha | ha
    · have := h4 a ha; omega
    · exact (n2 a (by simpa using ha)).2

theorem rep_inv' (cfg : Cfg) (hc : cfg.action = .ignore) (entries : List (Entry R))
    (ht : ∀ e ∈ entries, optimizable e = true → Tame cfg e) : ∀ (st : St R) acc, Inv' st acc →
    ∃ st', forEach (queryStep cfg) st entries = (st', none) ∧ Inv' st' (acc ++ repRows cfg.reps st.wrep (entries.filter optimizable)) ∧
      st'.wrep = st.wrep ∧ st'.samples.length = st.samples.length + (entries.filter optimizable).length := by
  induction entries with
  | nil => intro st acc h; exact ⟨st, rfl, by simpa [repRows] using h, rfl, rfl⟩
  | cons e l ih =>
    intro st acc h
    cases ho : optimizable e with
    | true =>
      obtain ⟨st1, h1, h2⟩ := queryStep_adds cfg st e (ht e (by simp) ho)
      obtain ⟨st2, h3, h4, h5, h6⟩ := ih (fun e he => ht e (by simp [he])) st1 _ (inv'_adds h h2)
      refine ⟨st2, by simp [forEach, h1, h3], ?_, h5.trans h2.wrep, ?_⟩
      · rw [h2.wrep, List.append_assoc] at h4
        simpa [repRows, ho] using h4
      · obtain ⟨s, hs, -⟩ := h2.samples
        rw [h6, hs]; simp [ho]; omega
    | false =>
      obtain ⟨err, he⟩ : ∃ err, e.opt = .failed err := by
        unfold optimizable at ho
        cases h : e.opt with
        | failed err => exact ⟨err, rfl⟩
        | none => rw [h] at ho; simp at ho
        | ok q t => rw [h] at ho; simp at ho
      have h1 : queryStep cfg st e = ({ st with counter := st.nextCounter }, none) := by
        unfold queryStep; rw [he]; simp [optFailed, hc]
      have h2 : Inv' ({ st with counter := st.nextCounter } : St R) acc := by
        obtain ⟨⟨dfs, a1, a2, a3, a4⟩⟩ := h
        refine ⟨⟨dfs, a1, a2, a3, ?_⟩⟩
        intro a ha
        have := a4 a ha
        have h5 : ({ st with counter := st.nextCounter } : St R).nextCounter =
          st.nextCounter + (st.samples.getLast?.map Sample.numExecutions).getD 0 := rfl
        rw [h5]
        omega
      obtain ⟨st2, h3, h4, h5, h6⟩ := ih (fun e he => ht e (by simp [he])) _ _ h2
      refine ⟨st2, by simp [forEach, h1, h3], by simpa [ho] using h4, h5, by simpa [ho] using h6⟩

theorem all_inv' (cfg : Cfg) (hc : cfg.action = .ignore) (ws : List (List (Entry R)))
    (ht : ∀ l ∈ ws, ∀ e ∈ l, optimizable e = true → Tame cfg e) : ∀ (st : St R) acc, Inv' st acc →
    ∃ st', forEach (repStep cfg) st ws = (st', none) ∧ Inv' st' (acc ++ expected cfg.reps st.wrep (ws.map (List.filter optimizable))) ∧
      st'.samples.length = st.samples.length + (ws.map (List.filter optimizable)).flatten.length := by
  induction ws with
  | nil => intro st acc h; exact ⟨st, rfl, by simpa [expected] using h, rfl⟩
  | cons l ws ih =>
    intro st acc h
    have h' : Inv' ({ st with wrep := st.wrep + 1 } : St R) acc := ⟨h.dfs⟩
    obtain ⟨st1, h1, h2, h3, h4⟩ := rep_inv' cfg hc l (ht l (by simp)) _ acc h'
    obtain ⟨st2, h5, h6, h7⟩ := ih (fun l hl => ht l (by simp [hl])) st1 _ h2
    refine ⟨st2, by simp [forEach, repStep, h1, h5], ?_, ?_⟩
    · rw [h3, List.append_assoc] at h6
      simpa [expected] using h6
    · rw [h7, h4]; simp; omega

/-- **C52** (partial: executions do not fail). If errors shall be ignored, the benchmark returns the rows of the queries whose
optimization succeeds. The execution indexes are unique and increasing, but they need not be consecutive. -/
theorem C52_ignore_partial (cfg : Cfg) (hc : cfg.action = .ignore) (ws : List (List (Entry R)))
    (ht : ∀ l ∈ ws, ∀ e ∈ l, optimizable e = true → Tame cfg e) (hne : ∃ l ∈ ws, ∃ e ∈ l, optimizable e = true) :
    ∃ rows, (execute cfg ws).out = .ok rows ∧ rows.map Prod.snd = expected cfg.reps 0 (ws.map (List.filter optimizable)) ∧
      rows.Pairwise fun a b => a.1 < b.1 := by
  obtain ⟨st, h1, ⟨⟨dfs, h2, h3, h4, -⟩⟩, h5⟩ := all_inv' cfg hc ws ht {} [] ⟨⟨[], rfl, rfl, by simp, by simp⟩⟩
  have hs : st.samples.isEmpty = false := by
    rw [← Bool.not_eq_true, List.isEmpty_iff]
    intro h
    rw [h] at h5
    obtain ⟨l, hl, e, he, ho⟩ := hne
    have : (ws.map (List.filter optimizable)).flatten = [] := List.length_eq_zero_iff.1 (by simpa using h5.symm)
    rw [List.flatten_eq_nil_iff] at this
    have := this _ (List.mem_map_of_mem hl)
    rw [List.filter_eq_nil_iff] at this
    exact this e he ho
  refine ⟨dfs.flatten, ?_, by simpa using h3, h4⟩
  simp [execute, h1, St.toDf, hs, h2]

/-- **C52 is violated**: after an ignored query the execution indexes have a gap. -/
theorem C52_index_violated (cfg : Cfg) (hc : cfg.action = .ignore) (hr : cfg.reps = 1) (e1 e2 e3 : Entry R) (r1 r3 : R) (t1 t3 : Nat) (err : String)
    (ho1 : e1.opt = .none) (ho2 : e2.opt = .failed err) (ho3 : e3.opt = .none)
    (h1 : (e1.execs 0).outcome = .ok r1 t1) (h3 : (e3.execs 0).outcome = .ok r3 t3) :
    ∃ rows, (execute cfg [[e1, e2, e3]]).out = .ok rows ∧ rows.map Prod.fst = [1, 3] := by
  simp [execute, forEach, repStep, queryStep, ho1, ho2, ho3, executions, hr, execStep, h1, h3, finish, optFailed, hc, St.toDf, St.newSample,
    St.nextCounter, Sample.numExecutions, Sample.addOk, Sample.start, Sample.toDf, Sample.rowAt, List.range_succ]

/-- The stamps and results if errors are ignored. -/
theorem execs_ignored (cfg : Cfg) (hc : cfg.action = .ignore) (s0 : Sample R) (eff : Eff R) (f : Nat → Exec R) (h0 : HasRecs s0 []) (n : Nat)
    (he : ∀ i < n, ∀ err, (f i).outcome ≠ .escaped err) :
    ∃ s eff', forEach (execStep cfg) (s0, eff) ((List.range n).map f) = ((s, eff'), none) ∧
      s.stamps.length = n ∧ s.results.length = ((List.range n).filter fun i => (recOf (f i)).status ≠ .execError).length := by
  induction n with
  | zero => exact ⟨s0, eff, rfl, by simp [h0.stamps], by simp [h0.results]⟩
  | succ n ih =>
    obtain ⟨s, eff', h1, h2, h3⟩ := ih fun i hi => he i (by omega)
    rw [List.range_succ, List.map_append, List.map_singleton, forEach_snoc, h1]
    simp only [List.filter_append, List.length_append]
    unfold execStep
    cases ho : (f n).outcome with
    | ok r t => exact ⟨_, _, rfl, by simp [finish, Sample.addOk, Sample.start, h2], by simp [finish, Sample.addOk, Sample.start, h3, recOf, ho]⟩
    | timeout t =>
      exact ⟨_, _, rfl, by simp [finish, Sample.addTimeout, Sample.start, h2], by simp [finish, Sample.addTimeout, Sample.start, h3, recOf, ho]⟩
    | failed e => simp only [hc]; exact ⟨_, _, rfl, by simp [finish, Sample.start, h2], by simp [finish, Sample.start, h3, recOf, ho]⟩
    | escaped e => exact absurd ho (he n (by omega) e)

/-- **C52 is violated**: if errors shall be ignored and one of the executions of a query fails while another one does not, the benchmark
raises an error, and all results are lost. The experiment is logged as completed nevertheless. -/
theorem C52_ignore_violated (cfg : Cfg) (hc : cfg.action = .ignore) (e : Entry R) (ho : e.opt = .none)
    (he : ∀ i < cfg.reps, ∀ err, (e.execs i).outcome ≠ .escaped err) (i j : Nat) (hi : i < cfg.reps) (hj : j < cfg.reps) (err : String)
    (hf : (e.execs i).outcome = .failed err) (r : R) (t : Nat) (hs : (e.execs j).outcome = .ok r t) :
    (execute cfg [[e]]).out = .error .shape ∧ (execute cfg [[e]]).log = .completed := by
  obtain ⟨s, eff', h1, h2, h3⟩ := execs_ignored cfg hc (({ wrep := 1 } : St R).newSample e) {} e.execs (newSample_recs _ e) cfg.reps he
  have hlt : ((List.range cfg.reps).filter fun i => (recOf (e.execs i)).status ≠ .execError).length < cfg.reps := by
    conv_rhs => rw [← List.length_range (n := cfg.reps)]
    refine List.length_filter_lt_length_iff_exists.2 ⟨i, List.mem_range.2 hi, ?_⟩
    simp [recOf, hf]
  have hpos : 0 < ((List.range cfg.reps).filter fun i => (recOf (e.execs i)).status ≠ .execError).length := by
    rw [List.length_pos_iff_exists_mem]
    exact ⟨j, List.mem_filter.2 ⟨List.mem_range.2 hj, by simp [recOf, hs]⟩⟩
  have hdf : s.toDf = none := by
    rw [Sample.toDf, if_neg (by omega), if_neg]
    simp only [Bool.and_eq_true, decide_eq_true_eq, not_and]
    omega
  have h4 : repStep cfg {} [e] = ({ counter := 1, wrep := 1, samples := [s], eff := eff' }, none) := by
    have : ({ wrep := 1 } : St R).nextCounter = 1 := rfl
    simp only [repStep, forEach, queryStep, ho, executions, this, Nat.zero_add]
    rw [h1]
    rfl
  simp [execute, forEach, h4, St.toDf, hdf]

/-- **C52 is violated**: a benchmark of no queries raises an error after it has been logged as completed, as does a benchmark all of whose
queries are ignored. -/
theorem C52_empty_violated (cfg : Cfg) (e : Entry R) (err : String) (ho : e.opt = .failed err) :
    (execute cfg ([] : List (List (Entry R)))).out = .error .empty ∧ (execute cfg ([[]] : List (List (Entry R)))).out = .error .empty ∧
    (execute cfg ([[]] : List (List (Entry R)))).log = .completed ∧
    (cfg.action = .ignore → (execute cfg [[e]]).out = .error .empty ∧ (execute cfg [[e]]).log = .completed) := by
  refine ⟨rfl, rfl, rfl, fun hc => ?_⟩
  simp [execute, forEach, repStep, queryStep, ho, optFailed, hc, St.toDf]

/-- **C52 is violated**: the result of a failed execution shall be missing, but is an empty list. -/
theorem C52_result_violated (cfg : Cfg) (hc : cfg.action = .log) (hr : cfg.reps = 1) (e : Entry R) (err : String) (ho : e.opt = .none)
    (he : (e.execs 0).outcome = .failed err) :
    ∃ row, (execute cfg [[e]]).out = .ok [(1, row)] ∧ row.status = .execError ∧ row.result = .emptyList := by
  have ht : Tame cfg e := by
    refine ⟨?_, fun h => absurd hc h, fun h => absurd hc h, fun _ q t h => by simp [ho] at h⟩
    intro _ i hi err' hx
    have : i = 0 := by omega
    subst this
    rw [he] at hx
    cases hx
  have := (C52_rows_partial cfg [[e]] ⟨[e], by simp, by simp⟩ (by simpa using ht)).1
  rw [hr] at this
  refine ⟨_, this, ?_, ?_⟩ <;> simp [rowOf, ho, execRow, he]

/-! ### C108: progressive output, callbacks and training -/

/-- **C108** (partial: nothing happens that ends the benchmark). The progressive output has the rows of exactly those executions that
completed or timed out, and one row for each query whose optimization failed. The callback is called once for each execution that
completed or timed out. The pipeline learns the result and the time of each execution that completed. Everything happens in the order of
the executions. -/
theorem C108_effects_partial (cfg : Cfg) (ws : List (List (Entry R))) (ht : ∀ l ∈ ws, ∀ e ∈ l, Tame cfg e) :
    (execute cfg ws).eff.written =
      (if cfg.output then (numFrom 1 (expected cfg.reps 0 ws)).filter fun r => kept cfg.reps r.2 else []) ∧
    (execute cfg ws).eff.called = (if cfg.callback then (expected cfg.reps 0 ws).filter success else []) ∧
    (execute cfg ws).eff.learned = if cfg.online then (expected cfg.reps 0 ws).filterMap feedback else [] := by
  obtain ⟨st, h1, h2, -⟩ := execute_inv cfg ws ht
  have : (execute cfg ws).eff = st.eff := by simp [execute, h1]
  rw [this]
  exact ⟨h2.written, h2.called, h2.learned⟩

/-- **C108 is violated**: rows of failed executions are part of the result, but not of the progressive output. -/
theorem C108_failed_violated (cfg : Cfg) (hc : cfg.action = .log) (e : Entry R) (ho : e.opt = .none)
    (he : ∀ i < cfg.reps, ∃ err, (e.execs i).outcome = .failed err) :
    (execute cfg [[e]]).eff.written = [] := by
  have ht : Tame cfg e := by
    refine ⟨?_, fun h => absurd hc h, fun h => absurd hc h, fun _ q t h => by simp [ho] at h⟩
    intro _ i hi err' hx
    obtain ⟨err, h⟩ := he i hi
    rw [h] at hx
    cases hx
  rw [(C108_effects_partial cfg [[e]] (by simpa using ht)).1]
  have : (numFrom 1 (expected cfg.reps 0 [[e]])).filter (fun r => kept cfg.reps r.2) = [] := by
    simp only [expected, repRows, List.flatMap_cons, List.flatMap_nil, List.append_nil, numFrom_range]
    rw [List.filter_eq_nil_iff]
    intro p hp
    obtain ⟨i, hi, rfl⟩ := List.mem_map.1 hp
    obtain ⟨err, h⟩ := he i (List.mem_range.1 hi)
    simp [rowOf, ho, execRow, h, kept, success]
  rw [this]; simp

/-- **C108 is violated**: if an execution fails and is ignored after one that completed, the row of the latter is written again, and the
callback is called with it again. -/
theorem C108_ignore_violated (cfg : Cfg) (hc : cfg.action = .ignore) (hr : cfg.reps = 2) (hout : cfg.output = true) (hcb : cfg.callback = true)
    (e : Entry R) (ho : e.opt = .none) (r : R) (t : Nat) (err : String)
    (h0 : (e.execs 0).outcome = .ok r t) (h1 : (e.execs 1).outcome = .failed err) :
    ((execute cfg [[e]]).eff.written.map fun p => (p.1, p.2.qrep, p.2.status, p.2.result)) = [(1, 1, .ok, .value r), (1, 1, .ok, .value r)] ∧
    ((execute cfg [[e]]).eff.called.map fun p => (p.status, p.result)) = [(.ok, .value r), (.ok, .value r)] := by
  constructor <;>
  simp [execute, forEach, repStep, queryStep, ho, executions, hr, hout, hcb, execStep, h0, h1, finish, hc, St.newSample, St.nextCounter,
    Sample.lastSuccessful, Sample.lastRow, Sample.mkRow, simplified, Sample.addOk, Sample.start, List.range_succ]

/-- **C108 is violated**: if a query times out while the pipeline learns from executions, the benchmark ends with an `AssertionError`. -/
theorem C108_timeout_violated (cfg : Cfg) (hon : cfg.online = true) (ws1 ws2 : List (List (Entry R))) (l1 l2 : List (Entry R)) (e : Entry R)
    (hr : cfg.reps = 1) (ht : ∀ l ∈ ws1, ∀ e ∈ l, Tame cfg e) (ht' : ∀ e ∈ l1, Tame cfg e) (q t t' : Nat) (ho : e.opt = .ok q t)
    (he : (e.execs 0).outcome = .timeout t') :
    (execute cfg (ws1 ++ (l1 ++ e :: l2) :: ws2)).out = .error .assertion ∧
      (execute cfg (ws1 ++ (l1 ++ e :: l2) :: ws2)).log = .failed .assertion := by
  apply execute_error cfg ws1 ws2 l1 l2 e _ ht ht'
  intro st
  simp [queryStep, ho, executions, hr, forEach, List.range_succ, execStep, he, finish, hon, learnStep, Sample.addTimeout, Sample.start,
    St.newSample, Sample.optResults]

/-! ### C53: the experiment log -/

/-- The run that an operation belongs to. -/
def LogOp.run : LogOp → String × Nat
  | .init x s => (x, s)
  | .finalize x s _ => (x, s)
  | .fail x s _ _ => (x, s)

/-- The runs that are started in a history, in order. -/
def started : List LogOp → List (String × Nat)
  | [] => []
  | .init x s :: l => (x, s) :: started l
  | _ :: l => started l

/-- How a run ends in a history: the last operation that ends it. -/
def ending (run : String × Nat) : List LogOp → Option (Nat × LogStatus)
  | [] => none
  | .finalize x s n :: l => (ending run l).or (if (x, s) = run then some (n, .completed) else none)
  | .fail x s n _ :: l => (ending run l).or (if (x, s) = run then some (n, .failed) else none)
  | .init _ _ :: l => ending run l

/-- Runs are started before they end. -/
def Ordered : List LogOp → Prop
  | [] => True
  | .init x s :: l => Ordered l
  | .finalize x s _ :: l => (x, s) ∉ started l ∧ Ordered l
  | .fail x s _ _ :: l => (x, s) ∉ started l ∧ Ordered l

/-- The entry of a run. -/
def entryOf (e : LogEntry) : String × Nat := (e.experiment, e.start)

/-- An entry tells the state of its run. -/
def Tells (ops : List LogOp) (e : LogEntry) : Prop :=
  match ending (entryOf e) ops with
  | none => e.status = .running ∧ e.ended = none
  | some (n, st) => e.status = st ∧ e.ended = some n

theorem started_append (a b : List LogOp) : started (a ++ b) = started a ++ started b := by
  induction a with
  | nil => rfl
  | cons op a ih => cases op <;> simp [started, ih]

theorem ending_snoc (run : String × Nat) (a : List LogOp) (op : LogOp) :
    ending run (a ++ [op]) = (ending run [op]).or (ending run a) := by
  induction a with
  | nil => simp [ending]
  | cons x a ih =>
    cases x <;> simp only [List.cons_append, ending, ih, Option.or_assoc]

theorem runLog_snoc (ops : List LogOp) (op : LogOp) (f : LogFile) : runLog (ops ++ [op]) f = op.apply (runLog ops f) := by
  simp [runLog]

theorem ordered_append {a b : List LogOp} (h : Ordered (a ++ b)) : Ordered a := by
  induction a with
  | nil => trivial
  | cons x a ih =>
    rw [List.cons_append] at h
    cases x with
    | init x s => exact ih h
    | finalize x s n => exact ⟨fun hc => h.1 (by rw [started_append]; simp [hc]), ih h.2⟩
    | fail x s n e => exact ⟨fun hc => h.1 (by rw [started_append]; simp [hc]), ih h.2⟩

theorem ordered_fresh {a : List LogOp} {x : String} {s : Nat} (h : Ordered (a ++ [.init x s])) : ending (x, s) a = none := by
  induction a with
  | nil => rfl
  | cons y a ih =>
    rw [List.cons_append] at h
    cases y with
    | init y t => exact ih h
    | finalize y t n =>
      have hne : (y, t) ≠ (x, s) := by
        rintro he
        apply h.1
        rw [started_append, he]
        simp [started]
      simp [ending, ih h.2, hne]
    | fail y t n e =>
      have hne : (y, t) ≠ (x, s) := by
        rintro he
        apply h.1
        rw [started_append, he]
        simp [started]
      simp [ending, ih h.2, hne]

theorem tells_snoc {ops : List LogOp} {op : LogOp} {e : LogEntry} (h : ending (entryOf e) [op] = none) (ht : Tells ops e) :
    Tells (ops ++ [op]) e := by
  unfold Tells at ht ⊢
  rw [ending_snoc, h, Option.none_or]
  exact ht

theorem tells_end {ops : List LogOp} {op : LogOp} {e : LogEntry} (n : Nat) (st : LogStatus)
    (h : ending (entryOf e) [op] = some (n, st)) (h1 : e.status = st) (h2 : e.ended = some n) :
    Tells (ops ++ [op]) e := by
  unfold Tells
  rw [ending_snoc, h, Option.some_or]
  exact ⟨h1, h2⟩

/-- **C53** (partial: operations on the file are not interleaved). At each point of each history of operations on the log file, the file
has one entry for each run that has been started, in that order. The entry tells how the run ended, or that it is running: a run that was
stopped without ending stays running for ever. -/
theorem C53_history_partial (ops : List LogOp) (ho : Ordered ops) :
    ((runLog ops none).getD []).map entryOf = started ops ∧ ∀ e ∈ (runLog ops none).getD [], Tells ops e := by
  induction ops using List.reverseRecOn with
  | nil => simp [runLog, started]
  | append_singleton ops op ih =>
    obtain ⟨ih1, ih2⟩ := ih (ordered_append ho)
    rw [runLog_snoc, started_append]
    generalize runLog ops none = f at ih1 ih2
    cases op with
    | init x s =>
      have hf := ordered_fresh ho
      have hnew : Tells (ops ++ [.init x s]) { experiment := x, start := s } := by
        unfold Tells
        rw [ending_snoc]
        simp [entryOf, ending, hf]
      have hold : ∀ e ∈ f.getD [], Tells (ops ++ [.init x s]) e := fun e he => tells_snoc rfl (ih2 e he)
      cases f with
      | none =>
        refine ⟨by simpa [LogOp.apply, initLog, started, entryOf] using ih1.symm, ?_⟩
        intro e he
        simp only [LogOp.apply, initLog, Option.getD_some, List.mem_singleton] at he
        subst he
        exact hnew
      | some logs =>
        simp only [Option.getD_some] at ih1 hold
        refine ⟨by simp [LogOp.apply, initLog, started, entryOf, ← ih1], ?_⟩
        intro e he
        simp only [LogOp.apply, initLog, Option.getD_some, List.mem_append, List.mem_singleton] at he
        rcases he with he | rfl
        · exact hold e he
        · exact hnew
    | finalize x s n =>
      cases f with
      | none => exact ⟨by simpa [LogOp.apply, finalizeLog, started] using ih1, by simp [LogOp.apply, finalizeLog]⟩
      | some logs =>
        simp only [Option.getD_some] at ih1 ih2
        constructor
        · simp only [LogOp.apply, finalizeLog, Option.map_some, Option.getD_some, List.map_map, started, List.append_nil, ← ih1]
          apply List.map_congr_left
          intro e _
          simp only [Function.comp]
          split <;> rfl
        · intro e he
          simp only [LogOp.apply, finalizeLog, Option.map_some, Option.getD_some, List.mem_map] at he
          obtain ⟨a, ha, rfl⟩ := he
          split
          · rename_i hc
            refine tells_snoc ?_ (ih2 a ha)
            have hne : (x, s) ≠ entryOf a := by
              rintro h
              simp only [entryOf, Prod.mk.injEq] at h
              simp [h.1, h.2] at hc
            simp [ending, hne]
          · rename_i hc
            refine tells_end n .completed ?_ rfl rfl
            have he : (x, s) = entryOf a := by
              simp at hc
              simp [entryOf, hc.1, hc.2]
            have h2 : entryOf { a with ended := some n, status := .completed } = entryOf a := rfl
            rw [h2]
            simp [ending, he]
    | fail x s n err =>
      cases f with
      | none => exact ⟨by simpa [LogOp.apply, failLog, started] using ih1, by simp [LogOp.apply, failLog]⟩
      | some logs =>
        simp only [Option.getD_some] at ih1 ih2
        constructor
        · simp only [LogOp.apply, failLog, Option.map_some, Option.getD_some, List.map_map, started, List.append_nil, ← ih1]
          apply List.map_congr_left
          intro e _
          simp only [Function.comp]
          split <;> rfl
        · intro e he
          simp only [LogOp.apply, failLog, Option.map_some, Option.getD_some, List.mem_map] at he
          obtain ⟨a, ha, rfl⟩ := he
          split
          · rename_i hc
            refine tells_snoc ?_ (ih2 a ha)
            have hne : (x, s) ≠ entryOf a := by
              rintro h
              simp only [entryOf, Prod.mk.injEq] at h
              simp [h.1, h.2] at hc
            simp [ending, hne]
          · rename_i hc
            refine tells_end n .failed ?_ rfl rfl
            have he : (x, s) = entryOf a := by
              simp at hc
              simp [entryOf, hc.1, hc.2]
            have h2 : entryOf { a with ended := some n, status := .failed, error := some err } = entryOf a := rfl
            rw [h2]
            simp [ending, he]

/-- **C53** (partial: no two runs have the same name and start time). Ending a run changes its own entry, and no other one. -/
theorem C53_entry_partial (logs1 logs2 : List LogEntry) (e : LogEntry) (hn : (logs1 ++ e :: logs2).map entryOf |>.Nodup) (now : Nat) (err : String) :
    finalizeLog e.experiment e.start now (some (logs1 ++ e :: logs2)) =
      some (logs1 ++ { e with ended := some now, status := .completed } :: logs2) ∧
    failLog e.experiment e.start now err (some (logs1 ++ e :: logs2)) =
      some (logs1 ++ { e with ended := some now, status := .failed, error := some err } :: logs2) := by
  have hother : ∀ x, x ∈ logs1 ∨ x ∈ logs2 → (!decide (x.experiment = e.experiment) || !decide (x.start = e.start)) = true := by
    intro x hx
    rw [List.map_append, List.map_cons, List.nodup_append] at hn
    obtain ⟨h1, h2, h3⟩ := hn
    have hne : entryOf x ≠ entryOf e := by
      rcases hx with hx | hx
      · exact h3 _ (List.mem_map_of_mem hx) _ (by simp)
      · rw [List.nodup_cons] at h2
        intro h
        exact h2.1 (h ▸ List.mem_map_of_mem hx)
    by_contra hc
    simp at hc
    exact hne (by simp [entryOf, hc.1, hc.2])
  have hid : ∀ (g : LogEntry → LogEntry) (l : List LogEntry), (∀ x ∈ l, x ∈ logs1 ∨ x ∈ logs2) →
      l.map (fun x => if (!decide (x.experiment = e.experiment) || !decide (x.start = e.start)) = true then x else g x) = l := by
    intro g l hl
    conv_rhs => rw [← List.map_id l]
    apply List.map_congr_left
    intro x hx
    rw [if_pos (hother x (hl x hx))]; rfl
  constructor
  · simp only [finalizeLog, Option.map_some, List.map_append, List.map_cons]
    rw [hid _ logs1 (fun x hx => .inl hx), hid _ logs2 (fun x hx => .inr hx)]
    simp
  · simp only [failLog, Option.map_some, List.map_append, List.map_cons]
    rw [hid _ logs1 (fun x hx => .inl hx), hid _ logs2 (fun x hx => .inr hx)]
    simp

/-- **C53 is violated**: if two runs with the same name start at the same time, the end of one of them also ends the other one. -/
theorem C53_same_start_violated (x : String) (s n : Nat) (f : LogFile) :
    ∃ logs, runLog [.init x s, .init x s, .finalize x s n] f = some logs ∧
      ∀ e ∈ logs, e.experiment = x → e.start = s → e.status = .completed := by
  cases f with
  | none =>
    refine ⟨_, rfl, ?_⟩
    simp
  | some logs =>
    refine ⟨_, rfl, ?_⟩
    intro e he h1 h2
    simp only [List.mem_map] at he
    obtain ⟨a, -, rfl⟩ := he
    split at h1 <;> rename_i hc
    · rw [if_pos hc] at h2
      simp [h1, h2] at hc
    · rw [if_neg hc]

/-- **C53 is violated**: if two processes start runs at the same time, the entry of one of them is lost, and it is not written when the run
ends, either. -/
theorem C53_interleaving_violated (logs : List LogEntry) (x y : String) (s t n : Nat) (hx : ∀ e ∈ logs, entryOf e ≠ (x, s))
    (hxy : (y, t) ≠ (x, s)) (bufs : Nat → LogFile) :
    ∃ logs', (runShared [.load 1, .load 2, .store 1 (.init x s), .store 2 (.init y t), .load 1, .store 1 (.finalize x s n)]
      ⟨some logs, bufs⟩).file = some logs' ∧ ∀ e ∈ logs', entryOf e ≠ (x, s) := by
  refine ⟨_, rfl, ?_⟩
  intro e he
  simp only [List.mem_map, List.mem_append, List.mem_singleton] at he
  obtain ⟨a, ha, rfl⟩ := he
  have hne : entryOf a ≠ (x, s) := by
    rcases ha with ha | rfl
    · exact hx a ha
    · exact hxy
  split
  · exact hne
  · exact hne

/-! ### Examples -/

/-- Optimization fails. -/
def exBad : Entry Nat := ⟨"q2", 2, .failed "no plan", fun i => ⟨i, 0, .ok 7 3⟩⟩

/-- The first execution completes, the second one fails, the others time out. -/
def exMixed : Entry Nat :=
  ⟨"q1", 1, .ok 11 5, fun i => ⟨10 + i, 0, if i = 0 then .ok 42 3 else if i = 1 then .failed "error" else .timeout 9⟩⟩

def exCfg : Cfg := ⟨3, .log, true, true, false⟩

example : ∀ l ∈ [[exMixed, exBad], [exBad, exMixed]], ∀ e ∈ l, Tame exCfg e := by
  have h1 : Tame exCfg exMixed := by
    refine ⟨?_, fun h => absurd rfl h, fun h => absurd rfl h, fun h => by simp [exCfg] at h⟩
    intro _ i _ err
    simp only [exMixed]
    split
    · simp
    · split <;> simp
  have h2 : Tame exCfg exBad := ⟨fun h => absurd rfl (h "no plan"), fun h => absurd rfl h, fun h => absurd rfl h, fun h => by simp [exCfg] at h⟩
  simp [h1, h2]

/-- Which rows these two queries have. -/
example : ((expected 3 0 [[exMixed, exBad]]).map fun r => (r.label, r.qrep, r.status)) =
    [("q1", 1, .ok), ("q1", 2, .execError), ("q1", 3, .timeout), ("q2", 1, .optError), ("q2", 2, .optError), ("q2", 3, .optError)] ∧
    ((execute exCfg [[exMixed, exBad]]).eff.written.map fun r => (r.1, r.2.status)) = [(1, .ok), (3, .timeout), (6, .optError)] := by
  decide +kernel

/-- Hypotheses of `C52_raise`, `C52_ignore_partial`, `C52_ignore_violated` and `C108_ignore_violated`. -/
example : Fails ⟨2, .raise, false, false, false⟩ exMixed "error" ∧ optimizable exMixed = true ∧ optimizable exBad = false := by
  refine ⟨.exec (by simp [exMixed]) 1 (by decide) rfl ?_, rfl, rfl⟩
  intro i hi e'
  have : i = 0 := by omega
  subst this
  simp [exMixed]

/-- A history in which one run completes, one fails and one is stopped. -/
example : Ordered [.init "a" 1, .init "b" 2, .fail "b" 2 5 "error", .init "a" 3, .finalize "a" 1 9] ∧
    ((runLog [.init "a" 1, .init "b" 2, .fail "b" 2 5 "error", .init "a" 3, .finalize "a" 1 9] none).map
      (List.map fun e => (e.experiment, e.start, e.status))) = some [("a", 1, .completed), ("b", 2, .failed), ("a", 3, .running)] := by
  refine ⟨?_, by decide +kernel⟩
  simp [Ordered, started]

end PB.BenchProps
