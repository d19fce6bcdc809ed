import Verif.Model.Num
import Mathlib.Algebra.BigOperators.Group.Finset.Basic
import Mathlib.Algebra.BigOperators.Fin
import Mathlib.Data.Fintype.BigOperators
import Mathlib.Tactic.Linarith
import Mathlib.Tactic.Ring

set_option linter.unusedSimpArgs false
set_option linter.unusedVariables false

/-! Properties C13 (BoundedInt) and C14 (AtomicInt). -/

namespace PB.NumProps
open PB.Num

/-! ### C13 -/

/-- The value respects the configured bounds. -/
def Within (b : Bounded) : Prop := (∀ l, b.lo = some l → l ≤ b.value) ∧ (∀ h, b.hi = some h → b.value ≤ h)

/-- The bounds are consistent. -/
def Sane (lo hi : Option Int) : Prop := ∀ l h, lo = some l → hi = some h → l ≤ h

/-- Specification: `r` is the value closest to `x` within the bounds. -/
def Nearest (lo hi : Option Int) (x r : Int) : Prop :=
  ((∀ l, lo = some l → l ≤ x) ∧ (∀ h, hi = some h → x ≤ h) ∧ r = x) ∨
  (∃ l, lo = some l ∧ x < l ∧ r = l) ∨ (∃ h, hi = some h ∧ h < x ∧ r = h)

theorem snap_nearest (lo hi : Option Int) (hs : Sane lo hi) (x : Int) : Nearest lo hi x (snap lo hi x) := by
  unfold Nearest snap
  cases lo with
  | none =>
    cases hi with
    | none => simp
    | some h =>
      simp only
      by_cases hx : x > h
      · right; right; exact ⟨h, rfl, hx, by simp [hx]⟩
      · left; refine ⟨by simp, ?_, by simp [hx]⟩
        rintro h' h2; cases h2; omega
  | some l =>
    cases hi with
    | none =>
      simp only
      by_cases hx : x < l
      · right; left; exact ⟨l, rfl, hx, by simp [hx]⟩
      · left; refine ⟨?_, by simp, by simp [hx]⟩
        rintro l' h2; cases h2; omega
    | some h =>
      have hlh := hs l h rfl rfl
      simp only
      by_cases hx : x < l
      · right; left; refine ⟨l, rfl, hx, ?_⟩
        rw [if_pos hx, if_neg (by omega)]
      · rw [if_neg hx]
        by_cases hx' : x > h
        · right; right; exact ⟨h, rfl, hx', by rw [if_pos hx']⟩
        · left
          refine ⟨?_, ?_, by rw [if_neg hx']⟩
          · rintro l' h2; cases h2; omega
          · rintro h' h2; cases h2; omega

theorem nearest_within {lo hi : Option Int} (hs : Sane lo hi) {x r : Int} (h : Nearest lo hi x r) :
    (∀ l, lo = some l → l ≤ r) ∧ (∀ h, hi = some h → r ≤ h) := by
  rcases h with ⟨h1, h2, rfl⟩ | ⟨l, h1, h2, rfl⟩ | ⟨u, h1, h2, rfl⟩
  · exact ⟨h1, h2⟩
  · refine ⟨?_, fun h hh => hs _ h h1 hh⟩
    intro l' hl'; rw [h1] at hl'; cases hl'; exact le_refl _
  · refine ⟨fun l hl => hs l _ hl h1, ?_⟩
    intro h' hh'; rw [h1] at hh'; cases hh'; exact le_refl _

theorem mk?_spec (v : Int) (lo hi : Option Int) :
    (mk? v lo hi = none ↔ ¬ Sane lo hi) ∧
    ∀ b, mk? v lo hi = some b → Sane lo hi ∧ b = ⟨snap lo hi v, lo, hi⟩ := by
  unfold mk? Sane
  cases lo <;> cases hi <;> simp

/-- C13: the constructor fails exactly for contradicting bounds; otherwise the value is the one nearest to the
requested value within the bounds. -/
theorem C13_init (v : Int) (lo hi : Option Int) :
    (mk? v lo hi = none ↔ ∃ l h, lo = some l ∧ hi = some h ∧ h < l) ∧
    ∀ b, mk? v lo hi = some b → Within b ∧ Nearest lo hi v b.value ∧ b.lo = lo ∧ b.hi = hi := by
  obtain ⟨h1, h2⟩ := mk?_spec v lo hi
  refine ⟨?_, ?_⟩
  · rw [h1]; unfold Sane; push Not; constructor
    · rintro ⟨l, h, a, b, c⟩; exact ⟨l, h, a, b, c⟩
    · rintro ⟨l, h, a, b, c⟩; exact ⟨l, h, a, b, c⟩
  · intro b hb
    obtain ⟨hs, rfl⟩ := h2 b hb
    have := snap_nearest lo hi hs v
    exact ⟨nearest_within hs this, this, rfl, rfl⟩

/-- C13: an operation never fails on a properly constructed object, keeps the bounds, stays within them and
yields the exact result or the bound it exceeds. -/
theorem C13_step (b : Bounded) (hs : Sane b.lo b.hi) (o : BOp) :
    ∃ b', apply b o = some b' ∧ b'.lo = b.lo ∧ b'.hi = b.hi ∧ Within b' ∧
      Nearest b.lo b.hi (o.exact b.value) b'.value := by
  have key : ∀ v, ∃ b', mk? v b.lo b.hi = some b' ∧ b'.lo = b.lo ∧ b'.hi = b.hi ∧ Within b' ∧
      Nearest b.lo b.hi v b'.value := by
    intro v
    cases h : mk? v b.lo b.hi with
    | none => exact absurd hs ((mk?_spec v b.lo b.hi).1.1 h)
    | some b' =>
      obtain ⟨h1, h2, h3, h4⟩ := (C13_init v b.lo b.hi).2 b' h
      exact ⟨b', rfl, h3, h4, h1, h2⟩
  cases o with
  | set v =>
    refine ⟨_, rfl, rfl, rfl, ?_, snap_nearest _ _ hs v⟩
    exact nearest_within hs (snap_nearest _ _ hs v)
  | add v => exact key _
  | mul v => exact key _
  | neg => exact key _
  | pow n => exact key _

/-- C13: after every history of operations on a constructed object the value is within the original bounds. -/
theorem C13_history (v : Int) (lo hi : Option Int) (b : Bounded) (hb : mk? v lo hi = some b) (ops : List BOp) :
    ∃ b', applyAll b ops = some b' ∧ b'.lo = lo ∧ b'.hi = hi ∧ Within b' := by
  obtain ⟨hs, he⟩ := (mk?_spec v lo hi).2 b hb
  have h0 : Within b ∧ b.lo = lo ∧ b.hi = hi := by
    have := (C13_init v lo hi).2 b hb; exact ⟨this.1, this.2.2⟩
  clear he hb
  unfold applyAll
  induction ops generalizing b with
  | nil => exact ⟨b, rfl, h0.2.1, h0.2.2, h0.1⟩
  | cons o ops ih =>
    obtain ⟨b1, h1, h2, h3, h4, _⟩ := C13_step b (by rw [h0.2.1, h0.2.2]; exact hs) o
    rw [List.foldlM_cons, h1]
    exact ih b1 ⟨h4, h2.trans h0.2.1, h3.trans h0.2.2⟩

example : mk? 12 (some 0) (some 10) = some ⟨10, some 0, some 10⟩ := by decide

/-! ### C14 -/

/-- Specification: effect of a call when it is executed atomically. -/
def atomicEffect : AOp → Int → Int
  | .increment n, v => v + n
  | .reset, _ => 0
  | .set x, _ => x
  | .get, v => v

/-- Specification: `l` is an interleaving of the programs: it takes calls from the threads one by one, each
thread's calls in program order, until all programs are exhausted. -/
inductive Interleaving {n : Nat} : (Fin n → List AOp) → List AOp → Prop
  | done (p) (h : ∀ i, p i = []) : Interleaving p []
  | take (p) (i : Fin n) (o : AOp) (rest l : List AOp) (h : p i = o :: rest)
      (hl : Interleaving (Function.update p i rest) l) : Interleaving p (o :: l)

/-- Sequential effect of the remaining steps of a critical section. -/
def execCS : List Micro → Int → Int → Int
  | [], _, v => v
  | .acq :: c, r, v => execCS c r v
  | .load :: c, _, v => execCS c v v
  | .addc k :: c, r, v => execCS c (r + k) v
  | .const k :: c, _, v => execCS c k v
  | .store :: c, r, _ => execCS c r r
  | .rel :: c, r, v => execCS c r v

/-- `c` is the rest of a critical section: no lock operation except one release at its end. -/
def IsRest : List Micro → Prop
  | [] => False
  | [.rel] => True
  | .load :: c => IsRest c
  | .addc _ :: c => IsRest c
  | .const _ :: c => IsRest c
  | .store :: c => IsRest c
  | _ => False

/-- Relation between a concrete state and the abstract state (value `av`, remaining calls `ap`). -/
def Rel {n : Nat} (s : AState n) (av : Int) (ap : Fin n → List AOp) : Prop :=
  match s.holder with
  | none => av = s.value ∧ ∀ i, (s.threads i).code = (ap i).flatMap compile
  | some i => (∃ c, IsRest c ∧ (s.threads i).code = c ++ (ap i).flatMap compile ∧
        execCS c (s.threads i).reg s.value = av) ∧
      ∀ j, j ≠ i → (s.threads j).code = (ap j).flatMap compile

theorem compile_shape (o : AOp) : ∃ c, compile o = .acq :: c ∧ IsRest c ∧
    ∀ r v, execCS c r v = atomicEffect o v := by
  cases o <;> exact ⟨_, rfl, trivial, fun _ _ => rfl⟩

theorem flatMap_head (l : List AOp) (m : Micro) (c : List Micro) (h : l.flatMap compile = m :: c) :
    ∃ o rest, l = o :: rest ∧ compile o ++ rest.flatMap compile = m :: c := by
  cases l with
  | nil => simp at h
  | cons o rest => exact ⟨o, rest, rfl, by simpa using h⟩

/-- One concrete step is no abstract step or one atomic call. -/
theorem step_sim {n : Nat} (s : AState n) (av : Int) (ap : Fin n → List AOp) (h : Rel s av ap) (i : Fin n) :
    Rel (stepThread s i) av ap ∨
    ∃ o rest, ap i = o :: rest ∧ Rel (stepThread s i) (atomicEffect o av) (Function.update ap i rest) := by
  cases hh : s.holder with
  | none =>
    simp only [Rel, hh] at h
    obtain ⟨hv, hc⟩ := h
    cases hcode : (s.threads i).code with
    | nil =>
      left
      have : stepThread s i = s := by simp [stepThread, hcode]
      rw [this]; simp only [Rel, hh]; exact ⟨hv, hc⟩
    | cons m c =>
      obtain ⟨o, rest, hap, hco⟩ := flatMap_head (ap i) m c (by rw [← hc i, hcode])
      obtain ⟨c', hsh, hrest, hex⟩ := compile_shape o
      rw [hsh] at hco
      simp only [List.cons_append, List.cons.injEq] at hco
      obtain ⟨rfl, rfl⟩ := hco
      right
      refine ⟨o, rest, hap, ?_⟩
      have : stepThread s i = { s with holder := some i, threads := Function.update s.threads i ⟨c' ++ rest.flatMap compile, (s.threads i).reg⟩ } := by
        simp [stepThread, hcode, hh]
      rw [this]
      simp only [Rel]
      refine ⟨⟨c', hrest, by simp, ?_⟩, ?_⟩
      · rw [hex, hv]
      · intro j hj
        simp [hj, hc j]
  | some k =>
    simp only [Rel, hh] at h
    obtain ⟨⟨c, hr, hcode, hex⟩, ho⟩ := h
    by_cases hik : i = k
    · subst hik
      left
      match c, hr with
      | [.rel], _ =>
        have : stepThread s i = { s with holder := none, threads := Function.update s.threads i ⟨(ap i).flatMap compile, (s.threads i).reg⟩ } := by
          simp [stepThread, hcode]
        rw [this]
        simp only [Rel]
        refine ⟨hex.symm, ?_⟩
        intro j
        by_cases hj : j = i
        · subst hj; simp
        · simp [hj, ho j hj]
      | .load :: c, hr =>
        have : stepThread s i = { s with threads := Function.update s.threads i ⟨c ++ (ap i).flatMap compile, s.value⟩ } := by
          simp [stepThread, hcode]
        rw [this]
        simp only [Rel, hh]
        refine ⟨⟨c, hr, by simp, by simpa [execCS] using hex⟩, ?_⟩
        intro j hj; simp [hj, ho j hj]
      | .addc x :: c, hr =>
        have : stepThread s i = { s with threads := Function.update s.threads i ⟨c ++ (ap i).flatMap compile, (s.threads i).reg + x⟩ } := by
          simp [stepThread, hcode]
        rw [this]
        simp only [Rel, hh]
        refine ⟨⟨c, hr, by simp, by simpa [execCS] using hex⟩, ?_⟩
        intro j hj; simp [hj, ho j hj]
      | .const x :: c, hr =>
        have : stepThread s i = { s with threads := Function.update s.threads i ⟨c ++ (ap i).flatMap compile, x⟩ } := by
          simp [stepThread, hcode]
        rw [this]
        simp only [Rel, hh]
        refine ⟨⟨c, hr, by simp, by simpa [execCS] using hex⟩, ?_⟩
        intro j hj; simp [hj, ho j hj]
      | .store :: c, hr =>
        have : stepThread s i = { s with value := (s.threads i).reg, threads := Function.update s.threads i ⟨c ++ (ap i).flatMap compile, (s.threads i).reg⟩ } := by
          simp [stepThread, hcode]
        rw [this]
        simp only [Rel, hh]
        refine ⟨⟨c, hr, by simp, by simpa [execCS] using hex⟩, ?_⟩
        intro j hj; simp [hj, ho j hj]
    · left
      have hci := ho i hik
      have : stepThread s i = s := by
        cases hl : (ap i) with
        | nil => rw [hl] at hci; simp [stepThread, hci]
        | cons o rest =>
          obtain ⟨c', hsh, _, _⟩ := compile_shape o
          rw [hl] at hci
          simp only [List.flatMap_cons, hsh, List.cons_append] at hci
          simp [stepThread, hci, hh]
      rw [this]
      simp only [Rel, hh]
      exact ⟨⟨c, hr, hcode, hex⟩, ho⟩

theorem rel_start {n : Nat} (v : Int) (prog : Fin n → List AOp) : Rel (start v prog) v prog := by
  simp [Rel, start]

/-- Partial executions: the calls that have taken effect, in order. -/
theorem run_sim {n : Nat} (s : AState n) (av : Int) (ap : Fin n → List AOp) (h : Rel s av ap)
    (sched : List (Fin n)) :
    ∃ (l : List AOp) (ap' : Fin n → List AOp),
      Rel (runSchedule s sched) (l.foldl (fun v o => atomicEffect o v) av) ap' ∧
      ∀ l', Interleaving ap' l' → Interleaving ap (l ++ l') := by
  induction sched generalizing s av ap with
  | nil => exact ⟨[], ap, by simpa [runSchedule] using h, fun l' h' => by simpa using h'⟩
  | cons i sched ih =>
    have hrun : runSchedule s (i :: sched) = runSchedule (stepThread s i) sched := rfl
    rw [hrun]
    rcases step_sim s av ap h i with h1 | ⟨o, rest, hap, h1⟩
    · exact ih _ _ _ h1
    · obtain ⟨l, ap', h2, h3⟩ := ih _ _ _ h1
      exact ⟨o :: l, ap', by simpa using h2, fun l' h' => .take ap i o rest _ hap (h3 l' h')⟩

theorem rel_finished {n : Nat} {s : AState n} {av : Int} {ap : Fin n → List AOp} (h : Rel s av ap)
    (hf : finished s) : av = s.value ∧ ∀ i, ap i = [] := by
  cases hh : s.holder with
  | none =>
    simp only [Rel, hh] at h
    refine ⟨h.1, ?_⟩
    intro i
    have := h.2 i
    rw [hf i] at this
    cases hl : ap i with
    | nil => rfl
    | cons o rest => rw [hl] at this; cases o <;> simp [compile] at this
  | some i =>
    simp only [Rel, hh] at h
    obtain ⟨⟨c, hr, hc, _⟩, _⟩ := h
    rw [hf i] at hc
    have : c = [] := by
      cases c with
      | nil => rfl
      | cons _ _ => simp at hc
    rw [this] at hr
    exact absurd hr (by simp [IsRest])

/-- C14: for every number of threads, every program of `increment`/`reset`/`value = v`/read calls and every
schedule that runs all threads to completion, the final value is the result of executing all calls one after the
other in some interleaving of the programs (linearisability). -/
theorem C14_linearizable {n : Nat} (v : Int) (prog : Fin n → List AOp) (sched : List (Fin n))
    (hf : finished (runSchedule (start v prog) sched)) :
    ∃ l, Interleaving prog l ∧
      (runSchedule (start v prog) sched).value = l.foldl (fun v o => atomicEffect o v) v := by
  obtain ⟨l, ap', h1, h2⟩ := run_sim _ v prog (rel_start v prog) sched
  obtain ⟨h3, h4⟩ := rel_finished h1 hf
  exact ⟨l, by simpa using h2 [] (.done _ h4), h3.symm⟩

theorem interleaving_sum {n : Nat} (prog : Fin n → List Int) (l : List AOp)
    (p : Fin n → List AOp) (hp : ∀ i, p i = (prog i).map .increment) (h : Interleaving p l) (v : Int) :
    l.foldl (fun v o => atomicEffect o v) v = v + ∑ i, (prog i).sum := by
  induction h generalizing prog v with
  | done p h =>
    have : ∀ i, prog i = [] := by
      intro i; have := hp i; rw [h i] at this
      exact List.map_eq_nil_iff.1 this.symm
    simp [this]
  | take p i o rest l h hl ih =>
    have h1 := hp i
    rw [h] at h1
    cases hpi : prog i with
    | nil => rw [hpi] at h1; simp at h1
    | cons x xs =>
      rw [hpi] at h1
      simp only [List.map_cons, List.cons.injEq] at h1
      obtain ⟨rfl, rfl⟩ := h1
      rw [List.foldl_cons, ih (Function.update prog i xs) ?_]
      · simp only [atomicEffect]
        rw [add_assoc]
        congr 1
        have e1 : ∀ j, (Function.update prog i xs j).sum = Function.update (fun j => (prog j).sum) i xs.sum j := by
          intro j
          by_cases hj : j = i
          · subst hj; simp
          · simp [hj]
        simp only [e1]
        rw [Finset.sum_update_of_mem (Finset.mem_univ i),
          ← Finset.add_sum_erase _ (fun j => (prog j).sum) (Finset.mem_univ i), hpi, List.sum_cons,
          Finset.sdiff_singleton_eq_erase]
        ring
      · intro j
        by_cases hj : j = i
        · subst hj; simp
        · simp [hj, hp j]

/-- C14: no increment is lost: for any number of threads, increments and schedules, the final value is the
initial value plus the sum of all increments. -/
theorem C14_increments {n : Nat} (v : Int) (incs : Fin n → List Int) (sched : List (Fin n))
    (hf : finished (runSchedule (start v fun i => (incs i).map .increment) sched)) :
    (runSchedule (start v fun i => (incs i).map .increment) sched).value = v + ∑ i, (incs i).sum := by
  obtain ⟨l, h1, h2⟩ := C14_linearizable v _ sched hf
  rw [h2]
  exact interleaving_sum incs l _ (fun _ => rfl) h1 v

/-- Total number of remaining steps. -/
def remaining {n : Nat} (s : AState n) : Nat := ∑ i, (s.threads i).code.length

theorem remaining_update {n : Nat} (s : AState n) (v : Int) (ho : Option (Fin n)) (i : Fin n) (m : Micro)
    (c : List Micro) (r : Int) (hc : (s.threads i).code = m :: c) :
    remaining (⟨v, ho, Function.update s.threads i ⟨c, r⟩⟩ : AState n) + 1 = remaining s := by
  unfold remaining
  have e1 : ∀ j, (Function.update s.threads i ⟨c, r⟩ j).code.length =
      Function.update (fun j => (s.threads j).code.length) i c.length j := by
    intro j
    by_cases hj : j = i
    · subst hj; simp
    · simp [hj]
  simp only [e1]
  rw [Finset.sum_update_of_mem (Finset.mem_univ i),
    ← Finset.add_sum_erase _ (fun j => (s.threads j).code.length) (Finset.mem_univ i), hc,
    Finset.sdiff_singleton_eq_erase, List.length_cons]
  omega

/-- C14: no deadlock: in every reachable state in which some thread is not finished, some thread can make
progress (execute one of its remaining steps), for all programs of `increment`/`reset`/`value = v`/read calls. -/
theorem C14_no_deadlock_partial {n : Nat} (v : Int) (prog : Fin n → List AOp) (sched : List (Fin n))
    (hf : ¬ finished (runSchedule (start v prog) sched)) :
    ∃ i, remaining (stepThread (runSchedule (start v prog) sched) i) + 1 =
      remaining (runSchedule (start v prog) sched) := by
  obtain ⟨l, ap, h, _⟩ := run_sim _ v prog (rel_start v prog) sched
  generalize runSchedule (start v prog) sched = s at h hf
  cases hh : s.holder with
  | none =>
    simp only [Rel, hh] at h
    unfold finished at hf
    push Not at hf
    obtain ⟨i, hi⟩ := hf
    refine ⟨i, ?_⟩
    cases hc : (s.threads i).code with
    | nil => exact absurd hc hi
    | cons m c =>
      obtain ⟨o, rest, hap, hco⟩ := flatMap_head (ap i) m c (by rw [← h.2 i, hc])
      obtain ⟨c', hsh, _, _⟩ := compile_shape o
      rw [hsh] at hco
      simp only [List.cons_append, List.cons.injEq] at hco
      obtain ⟨rfl, _⟩ := hco
      have : stepThread s i = { s with holder := some i, threads := Function.update s.threads i ⟨c, (s.threads i).reg⟩ } := by
        simp [stepThread, hc, hh]
      rw [this]
      exact remaining_update s _ _ i _ c _ hc
  | some i =>
    simp only [Rel, hh] at h
    obtain ⟨⟨c, hr, hc, _⟩, _⟩ := h
    refine ⟨i, ?_⟩
    match c, hr with
    | [.rel], _ =>
      have : stepThread s i = ⟨s.value, none, Function.update s.threads i ⟨(ap i).flatMap compile, (s.threads i).reg⟩⟩ := by
        simp [stepThread, hc]
      rw [this]; exact remaining_update s _ _ i _ _ _ hc
    | .load :: c, _ =>
      have : stepThread s i = ⟨s.value, s.holder, Function.update s.threads i ⟨c ++ (ap i).flatMap compile, s.value⟩⟩ := by
        simp [stepThread, hc]
      rw [this]; exact remaining_update s _ _ i _ _ _ hc
    | .addc x :: c, _ =>
      have : stepThread s i = ⟨s.value, s.holder, Function.update s.threads i ⟨c ++ (ap i).flatMap compile, (s.threads i).reg + x⟩⟩ := by
        simp [stepThread, hc]
      rw [this]; exact remaining_update s _ _ i _ _ _ hc
    | .const x :: c, _ =>
      have : stepThread s i = ⟨s.value, s.holder, Function.update s.threads i ⟨c ++ (ap i).flatMap compile, x⟩⟩ := by
        simp [stepThread, hc]
      rw [this]; exact remaining_update s _ _ i _ _ _ hc
    | .store :: c, _ =>
      have : stepThread s i = ⟨(s.threads i).reg, s.holder, Function.update s.threads i ⟨c ++ (ap i).flatMap compile, (s.threads i).reg⟩⟩ := by
        simp [stepThread, hc]
      rw [this]; exact remaining_update s _ _ i _ _ _ hc

/-- The hypotheses are met: two threads, a schedule that switches inside the critical section. -/
example : finished (runSchedule (start (n := 2) 5 (fun i => if i = 0 then [.increment 1] else [.increment 2]))
    [0, 0, 1, 0, 1, 0, 0, 1, 1, 1, 1, 1]) := by
  intro i
  match i with
  | 0 => rfl
  | 1 => rfl

/-- C14 violated: `+a` never returns: after its first step the thread waits for the lock it holds itself, whatever
the schedule. -/
theorem C14_pos_deadlock_violated (v : Int) (sched : List (Fin 1)) :
    ¬ finished (runSchedule (⟨v, none, fun _ => ⟨compilePos, 0⟩⟩ : AState 1) sched) := by
  have inv : ∀ s : AState 1, ((s.holder = none ∧ (s.threads 0).code = compilePos) ∨
      (s.holder = some 0 ∧ (s.threads 0).code = [.acq, .load, .rel, .rel])) →
      ∀ i, (((stepThread s i).holder = none ∧ ((stepThread s i).threads 0).code = compilePos) ∨
      ((stepThread s i).holder = some 0 ∧ ((stepThread s i).threads 0).code = [.acq, .load, .rel, .rel])) := by
    intro s h i
    have hi : i = 0 := Subsingleton.elim _ _
    subst hi
    rcases h with ⟨h1, h2⟩ | ⟨h1, h2⟩
    · right; simp [stepThread, h1, h2, compilePos]
    · right; simp [stepThread, h1, h2]
  have all : ∀ (sched : List (Fin 1)) (s : AState 1), ((s.holder = none ∧ (s.threads 0).code = compilePos) ∨
      (s.holder = some 0 ∧ (s.threads 0).code = [.acq, .load, .rel, .rel])) →
      ((runSchedule s sched).threads 0).code ≠ [] := by
    intro sched
    induction sched with
    | nil =>
      intro s h
      rcases h with ⟨_, h⟩ | ⟨_, h⟩ <;> simp [runSchedule, h, compilePos]
    | cons i sched ih => intro s h; exact ih _ (inv s h i)
  intro hf
  exact all sched _ (Or.inl ⟨rfl, rfl⟩) (hf 0)

/-- C14 violated: `a.value += 1` (a read and a write of the property) is not atomic: two threads, one update lost. -/
theorem C14_value_update_violated :
    ∃ sched : List (Fin 2),
      finished (runSchedule (⟨0, none, fun _ => ⟨compileValueAdd 1, 0⟩⟩ : AState 2) sched) ∧
      (runSchedule (⟨0, none, fun _ => ⟨compileValueAdd 1, 0⟩⟩ : AState 2) sched).value = 1 := by
  refine ⟨[0, 0, 0, 1, 1, 1, 0, 0, 0, 0, 1, 1, 1, 1], ?_, rfl⟩
  intro i
  match i with
  | 0 => rfl
  | 1 => rfl

end PB.NumProps
