import Verif.Model.PgDates

set_option linter.unusedSimpArgs false
set_option linter.unusedVariables false

/-! Property C242: dates, timestamps and intervals of Postgres. -/

namespace PB.PgDatesProps
open PB.PgDates

/-- Specification: the order of the values of Postgres. -/
def Before : Pg → Pg → Prop
  | .minusInf, _ => True
  | _, .inf => True
  | .fin a, .fin b => a ≤ b
  | _, _ => False

/-- **C242**: values within the range of Python are loaded as they are, infinite values as the first and the last value of Python, and
later values as the last one; earlier values cause an exception. -/
theorem C242_load (r : Range) (h : r.lo ≤ r.hi) (aware : Bool) :
    load r aware .inf = .val ⟨r.hi, aware⟩ ∧ load r aware .minusInf = .val ⟨r.lo, aware⟩ ∧
      (∀ n, r.lo ≤ n → n ≤ r.hi → load r aware (.fin n) = .val ⟨n, aware⟩) ∧
      (∀ n, n > r.hi → load r aware (.fin n) = .val ⟨r.hi, aware⟩) ∧
      (∀ n, n < r.lo → load r aware (.fin n) = .tooSmall) := by
  refine ⟨rfl, rfl, ?_, ?_, ?_⟩
  · intro n h1 h2
    simp only [load, baseLoad]
    rw [if_neg (by omega), if_neg (by omega)]; rfl
  · intro n h1
    simp only [load, baseLoad]
    rw [if_neg (by omega), if_pos h1]; rfl
  · intro n h1
    simp only [load, baseLoad]
    rw [if_pos h1]; rfl

/-- **C242**: loading keeps the order of values. -/
theorem C242_monotone (r : Range) (h : r.lo ≤ r.hi) (aware : Bool) (v w : Pg) (p q : Py) (hv : load r aware v = .val p)
    (hw : load r aware w = .val q) (hb : Before v w) : p.n ≤ q.n ∧ r.lo ≤ p.n ∧ p.n ≤ r.hi := by
  have key : ∀ v p, load r aware v = .val p →
      (v = .inf ∧ p.n = r.hi) ∨ (v = .minusInf ∧ p.n = r.lo) ∨
      ∃ n, v = .fin n ∧ r.lo ≤ n ∧ ((n ≤ r.hi ∧ p.n = n) ∨ (n > r.hi ∧ p.n = r.hi)) := by
    intro v p hp
    obtain ⟨h1, h2, h3, h4, h5⟩ := C242_load r h aware
    cases v with
    | inf => rw [h1] at hp; cases hp; exact .inl ⟨rfl, rfl⟩
    | minusInf => rw [h2] at hp; cases hp; exact .inr (.inl ⟨rfl, rfl⟩)
    | fin n =>
      right; right
      rcases Int.lt_or_le n r.lo with hl | hl
      · rw [h5 n hl] at hp; cases hp
      · rcases Int.lt_or_le r.hi n with hh | hh
        · rw [h4 n hh] at hp; cases hp; exact ⟨n, rfl, hl, .inr ⟨hh, rfl⟩⟩
        · rw [h3 n hl hh] at hp; cases hp; exact ⟨n, rfl, hl, .inl ⟨hh, rfl⟩⟩
  rcases key v p hv with ⟨rfl, e⟩ | ⟨rfl, e⟩ | ⟨n, rfl, a, b⟩ <;> rcases key w q hw with ⟨rfl, e'⟩ | ⟨rfl, e'⟩ | ⟨m, rfl, a', b'⟩ <;>
    simp only [Before] at hb <;> omega

example : load ⟨1, 100⟩ false (.fin 7) = .val ⟨7, false⟩ ∧ load ⟨1, 100⟩ false .inf = .val ⟨100, false⟩ ∧ Before (.fin 7) .inf := by
  refine ⟨by decide, by decide, trivial⟩

/-- **C242**: dates and timestamps without a time zone that are sent to Postgres and read again are unchanged. -/
theorem C242_python_roundtrip (r : Range) (p : Py) (ha : p.aware = false) (h1 : r.lo ≤ p.n) (h2 : p.n ≤ r.hi) :
    load r false (dump r p) = .val p := by
  obtain ⟨n, a⟩ := p
  cases (ha : a = false)
  obtain ⟨-, -, h3, -, -⟩ := C242_load r (Int.le_trans h1 h2) false
  unfold dump
  by_cases hh : n = r.hi
  · simp [pyEq, hh, load]
  · by_cases hl : n = r.lo
    · simp [pyEq, hh, hl, load]
      split <;> simp_all [load]
    · simp only [pyEq, hh, hl, decide_false, Bool.and_false, Bool.false_eq_true, if_false]
      exact h3 n h1 h2

/-- **C242**: timestamps with a time zone, too. -/
theorem C242_python_roundtrip_tz (r : Range) (p : Py) (ha : p.aware = true) (h1 : r.lo ≤ p.n) (h2 : p.n ≤ r.hi) :
    load r true (dump r p) = .val p := by
  obtain ⟨n, a⟩ := p
  cases (ha : a = true)
  obtain ⟨-, -, h3, -, -⟩ := C242_load r (Int.le_trans h1 h2) true
  simp only [dump, pyEq, Bool.not_true, Bool.false_and, Bool.false_eq_true, if_false]
  exact h3 n h1 h2

example : ∃ (r : Range) (p : Py), p.aware = false ∧ r.lo ≤ p.n ∧ p.n ≤ r.hi := ⟨⟨1, 100⟩, ⟨100, false⟩, rfl, by decide, by decide⟩

/-- **C242** (partial).  A value of Postgres that is read and sent back without a time zone is the same value iff it is infinite or
strictly between the first and the last value of Python.

Missing: the first and the last value of Python and all later ones become infinite (`C242_last_violated`). -/
theorem C242_postgres_roundtrip_partial (r : Range) (h : r.lo < r.hi) (v : Pg) (p : Py) (hp : load r false v = .val p) :
    dump r p = v ↔ v = .inf ∨ v = .minusInf ∨ ∃ n, v = .fin n ∧ r.lo < n ∧ n < r.hi := by
  obtain ⟨h1, h2, h3, h4, h5⟩ := C242_load r (Int.le_of_lt h) false
  cases v with
  | inf => rw [h1] at hp; cases hp; simp [dump, pyEq]
  | minusInf =>
    rw [h2] at hp; cases hp
    have : r.lo ≠ r.hi := by omega
    simp [dump, pyEq, this]
  | fin n =>
    rcases Int.lt_or_le n r.lo with hl | hl
    · rw [h5 n hl] at hp; cases hp
    · rcases Int.lt_or_le r.hi n with hh | hh
      · rw [h4 n hh] at hp; cases hp
        have : ¬ n < r.hi := by omega
        simp [dump, pyEq, this]
      · rw [h3 n hl hh] at hp; cases hp
        unfold dump
        by_cases e1 : n = r.hi
        · simp [pyEq, e1]
        · by_cases e2 : n = r.lo
          · have : r.lo ≠ r.hi := by omega
            simp [pyEq, e2, this]
          · have a : r.lo < n := by omega
            have b : n < r.hi := by omega
            simp [pyEq, e1, e2, a, b]

/-- **C242** violated: dates at the end of Python's range or after it are sent back as infinite dates. -/
theorem C242_last_violated (r : Range) (h : r.lo ≤ r.hi) (n : Int) (hn : n ≥ r.hi) :
    ∃ p, load r false (.fin n) = .val p ∧ dump r p = .inf := by
  obtain ⟨h1, h2, h3, h4, h5⟩ := C242_load r h false
  refine ⟨⟨r.hi, false⟩, ?_, by simp [dump, pyEq]⟩
  rcases Int.lt_or_eq_of_le hn with hh | hh
  · exact h4 n hh
  · rw [← hh]; exact h3 r.hi h (Int.le_refl _)

/-- **C242** violated: infinite timestamps with a time zone and infinite intervals are sent back as finite ones. -/
theorem C242_infinite_violated (r : Range) (v : Pg) (hv : v = .inf ∨ v = .minusInf) :
    (∃ p, load r true v = .val p ∧ ∃ n, dump r p = .fin n) ∧ (∃ p, loadInterval r v = .val p ∧ ∃ n, dumpInterval p = .fin n) := by
  rcases hv with rfl | rfl
  · exact ⟨⟨_, rfl, r.hi, by simp [dump, pyEq]⟩, ⟨_, rfl, r.hi, rfl⟩⟩
  · exact ⟨⟨_, rfl, r.lo, by simp [dump, pyEq]⟩, ⟨_, rfl, r.lo, rfl⟩⟩

/-- **C242**: intervals within the range of Python survive in both directions; infinite ones are loaded as the largest and the smallest
interval. -/
theorem C242_interval (r : Range) (n : Int) (h1 : r.lo ≤ n) (h2 : n ≤ r.hi) :
    (∃ p, loadInterval r (.fin n) = .val p ∧ dumpInterval p = .fin n) ∧ loadInterval r (dumpInterval ⟨n, false⟩) = .val ⟨n, false⟩ ∧
      loadInterval r .inf = .val ⟨r.hi, false⟩ ∧ loadInterval r .minusInf = .val ⟨r.lo, false⟩ := by
  have e : loadInterval r (.fin n) = .val ⟨n, false⟩ := by
    simp only [loadInterval, baseLoad]
    rw [if_neg (by omega), if_neg (by omega)]
  exact ⟨⟨_, e, rfl⟩, e, rfl, rfl⟩

end PB.PgDatesProps
