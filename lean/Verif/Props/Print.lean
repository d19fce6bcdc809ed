import Verif.Model.Print
import Mathlib.Tactic.Ring

/-!
The text of expressions and predicates means what the expression means.

The specification is the grammar of SQL expressions, with the precedences of Postgres (https://www.postgresql.org/docs/current/sql-syntax-lexical.html).
-/

set_option linter.unusedSimpArgs false
set_option linter.unusedVariables false
set_option linter.unusedSectionVars false
set_option linter.unnecessarySimpa false

namespace PB.PrintProps

open PB.Qal PB.Print

variable {Q : Type}

/-! ### The grammar -/

/-- Nonterminals: expressions whose outermost operator binds at least as tightly as level `n`, conjunctions, disjunctions and
lists of arguments. -/
inductive Kind
  | lvl (n : Nat)
  | conj | disj | args

/-- `*`, `/`, `%` bind tighter than `+`, `-`, which bind tighter than all other operators. -/
def mathLevel : MathOp → Nat
  | .mul | .div | .mod => 2
  | .add | .sub => 3
  | .concat => 4

/-- LIKE binds tighter than comparisons, which bind tighter than IS. -/
def cmpLevel : LogOp → Option Nat
  | .like | .notLike | .ilike | .notILike => some 5
  | .eq | .ne | .lt | .le | .gt | .ge => some 6
  | .isOp | .isNot | .distinctFrom | .notDistinctFrom => some 7
  | _ => none

/-- The other binary operators. -/
def otherOp : LogOp → Bool
  | .contains | .containedBy | .overlaps => true
  | _ => false

/-- The grammar: how a text can be read. Binary operators are left-associative, except for comparisons, which are not associative. -/
inductive Reads : Kind → List (Tok Q) → List (Expr Q) → Prop
  | atom (e) : Reads (.lvl 0) [.atom e] [e]
  | paren {ts t} : Reads (.lvl 10) ts [t] → Reads (.lvl 0) (.lp :: (ts ++ [.rp])) [t]
  | sign {op ts t} : op = .add ∨ op = .sub → Reads (.lvl 1) ts [t] → Reads (.lvl 1) (.mop op :: ts) [.math op t []]
  | math {op n l r a b} : mathLevel op = n + 1 → Reads (.lvl (n + 1)) l [a] → Reads (.lvl n) r [b] →
      Reads (.lvl (n + 1)) (l ++ .mop op :: r) [.math op a [b]]
  | other {op l r a b} : otherOp op = true → Reads (.lvl 4) l [a] → Reads (.lvl 3) r [b] → Reads (.lvl 4) (l ++ .lop op :: r) [.binary op a b]
  | cmp {op n l r a b} : cmpLevel op = some (n + 1) → Reads (.lvl n) l [a] → Reads (.lvl n) r [b] →
      Reads (.lvl (n + 1)) (l ++ .lop op :: r) [.binary op a b]
  | between {ts l u e a b} : Reads (.lvl 4) ts [e] → Reads (.lvl 4) l [a] → Reads (.lvl 4) u [b] →
      Reads (.lvl 5) (ts ++ .betweenT :: (l ++ .andT :: u)) [.between e a b]
  | inL {ts vs e es} : Reads (.lvl 4) ts [e] → Reads .args vs es → Reads (.lvl 5) (ts ++ .inT :: .lp :: (vs ++ [.rp])) [.inP e es]
  | inQ {ts e q} : Reads (.lvl 4) ts [e] → Reads (.lvl 5) (ts ++ [.inT, .atom (.subq q)]) [.inP e [.subq q]]
  | notInL {ts vs e es} : Reads (.lvl 4) ts [e] → Reads .args vs es →
      Reads (.lvl 5) (ts ++ .notInT :: .lp :: (vs ++ [.rp])) [.compound .not [.inP e es]]
  | notInQ {ts e q} : Reads (.lvl 4) ts [e] → Reads (.lvl 5) (ts ++ [.notInT, .atom (.subq q)]) [.compound .not [.inP e [.subq q]]]
  | not {ts t} : Reads (.lvl 8) ts [t] → Reads (.lvl 8) (.notT :: ts) [.compound .not [t]]
  | conj1 {ts t} : Reads (.lvl 8) ts [t] → Reads .conj ts [t]
  | conjS {ts ts' l t} : Reads .conj ts l → Reads (.lvl 8) ts' [t] → Reads .conj (ts ++ .andT :: ts') (l ++ [t])
  | and {ts l} : Reads .conj ts l → 2 ≤ l.length → Reads (.lvl 9) ts [.compound .and l]
  | disj1 {ts t} : Reads (.lvl 9) ts [t] → Reads .disj ts [t]
  | disjS {ts ts' l t} : Reads .disj ts l → Reads (.lvl 9) ts' [t] → Reads .disj (ts ++ .orT :: ts') (l ++ [t])
  | or {ts l} : Reads .disj ts l → 2 ≤ l.length → Reads (.lvl 10) ts [.compound .or l]
  | args1 {ts t} : Reads (.lvl 10) ts [t] → Reads .args ts [t]
  | argsS {ts ts' l t} : Reads .args ts l → Reads (.lvl 10) ts' [t] → Reads .args (ts ++ .comma :: ts') (l ++ [t])
  | up {n ts t} : n < 10 → Reads (.lvl n) ts [t] → Reads (.lvl (n + 1)) ts [t]

/-! ### The grammar is unambiguous

The proof uses an operator precedence parser: reading a text by the grammar is the same as running the parser. -/

/-- What is pending on the stack of the parser. -/
inductive Frame (Q : Type)
  | math (op : MathOp) (a : Expr Q)
  | sign (op : MathOp)
  | bin (n : Nat) (op : LogOp) (a : Expr Q)
  | betw (e : Expr Q)
  | betw' (e a : Expr Q)
  | not
  | conj (l : List (Expr Q))
  | disj (l : List (Expr Q))
  | paren
  | list (neg : Bool) (e : Expr Q) (l : List (Expr Q))

def Frame.level : Frame Q → Nat
  | .math op _ => mathLevel op
  | .sign _ => 1
  | .bin n _ _ => n
  | .betw _ => 5
  | .betw' _ _ => 5
  | .not => 8
  | .conj _ => 9
  | .disj _ => 10
  | .paren => 11
  | .list _ _ _ => 11

def Frame.close (t : Expr Q) : Frame Q → Option (Expr Q)
  | .math op a => some (.math op a [t])
  | .sign op => some (.math op t [])
  | .bin _ op a => some (.binary op a t)
  | .betw _ => none
  | .betw' e a => some (.between e a t)
  | .not => some (.compound .not [t])
  | .conj l => some (.compound .and (l ++ [t]))
  | .disj l => some (.compound .or (l ++ [t]))
  | .paren => none
  | .list _ _ _ => none

def reduce (n : Nat) : List (Frame Q) → Expr Q → Option (List (Frame Q) × Expr Q)
  | [], t => some ([], t)
  | f :: S, t => if f.level ≤ n then (f.close t).bind (reduce n S) else some (f :: S, t)

inductive Mode (Q : Type)
  | need
  | got (t : Expr Q)
  | inStart (neg : Bool) (e : Expr Q)

abbrev State (Q : Type) := List (Frame Q) × Mode Q

def mkIn (neg : Bool) (e : Expr Q) (l : List (Expr Q)) : Expr Q := if neg then .compound .not [.inP e l] else .inP e l

def onNeed (S : List (Frame Q)) : Tok Q → Option (State Q)
  | .atom e => some (S, .got e)
  | .lp => some (.paren :: S, .need)
  | .mop op => some (.sign op :: S, .need)
  | .notT => some (.not :: S, .need)
  | _ => none

def onIn (S : List (Frame Q)) (neg : Bool) (e : Expr Q) : Tok Q → Option (State Q)
  | .atom q => some (S, .got (mkIn neg e [q]))
  | .lp => some (.list neg e [] :: S, .need)
  | _ => none

def opLevel (op : LogOp) : Option (Nat × Nat) := if otherOp op then some (4, 4) else (cmpLevel op).map fun n => (n - 1, n)

def pushConj : List (Frame Q) × Expr Q → Option (State Q)
  | (.conj l :: S, t) => some (.conj (l ++ [t]) :: S, .need)
  | (S, t) => some (.conj [t] :: S, .need)

def pushDisj : List (Frame Q) × Expr Q → Option (State Q)
  | (.disj l :: S, t) => some (.disj (l ++ [t]) :: S, .need)
  | (S, t) => some (.disj [t] :: S, .need)

def pushAnd : List (Frame Q) × Expr Q → Option (State Q)
  | (.betw e :: S, t) => some (.betw' e t :: S, .need)
  | (S, t) => (reduce 8 S t).bind pushConj

def popParen : List (Frame Q) × Expr Q → Option (State Q)
  | (.paren :: S, t) => some (S, .got t)
  | (.list neg e l :: S, t) => some (S, .got (mkIn neg e (l ++ [t])))
  | _ => none

def pushComma : List (Frame Q) × Expr Q → Option (State Q)
  | (.list neg e l :: S, t) => some (.list neg e (l ++ [t]) :: S, .need)
  | _ => none

def onGot (S : List (Frame Q)) (t : Expr Q) : Tok Q → Option (State Q)
  | .mop op => (reduce (mathLevel op) S t).map fun r => (.math op r.2 :: r.1, .need)
  | .lop op => (opLevel op).bind fun n => (reduce n.1 S t).map fun r => (.bin n.2 op r.2 :: r.1, .need)
  | .betweenT => (reduce 4 S t).map fun r => (.betw r.2 :: r.1, .need)
  | .inT => (reduce 4 S t).map fun r => (r.1, .inStart false r.2)
  | .notInT => (reduce 4 S t).map fun r => (r.1, .inStart true r.2)
  | .andT => (reduce 4 S t).bind pushAnd
  | .orT => (reduce 9 S t).bind pushDisj
  | .rp => (reduce 10 S t).bind popParen
  | .comma => (reduce 10 S t).bind pushComma
  | _ => none

def step (s : State Q) (tok : Tok Q) : Option (State Q) :=
  match s.2 with
  | .need => onNeed s.1 tok
  | .got t => onGot s.1 t tok
  | .inStart neg e => onIn s.1 neg e tok

def run : List (Tok Q) → State Q → Option (State Q)
  | [], s => some s
  | tok :: ts, s => (step s tok).bind (run ts)

theorem run_append (ts ts' : List (Tok Q)) : ∀ s, run (ts ++ ts') s = (run ts s).bind (run ts') := by
  induction ts with
  | nil => intro s; rfl
  | cons tok ts ih =>
    intro s
    simp only [List.cons_append, run, Option.bind_assoc]
    cases step s tok with
    | none => rfl
    | some s => exact ih s

/-- The topmost frame binds weaker than level `n`. -/
def Above (n : Nat) : List (Frame Q) → Prop
  | [] => True
  | f :: _ => n < f.level

theorem reduce_above {n : Nat} {S : List (Frame Q)} (h : Above n S) (t : Expr Q) : reduce n S t = some (S, t) := by
  cases S with
  | nil => rfl
  | cons f S => rw [reduce, if_neg (by simp only [Above] at h; omega)]

theorem Above.mono {m n : Nat} {S : List (Frame Q)} (h : Above n S) (hm : m ≤ n) : Above m S := by
  cases S with
  | nil => trivial
  | cons f S => simp only [Above] at h ⊢; omega

theorem reduce_reduce {m n : Nat} (hm : m ≤ n) : ∀ {S S' : List (Frame Q)} {t t' : Expr Q}, reduce m S t = some (S', t') →
    reduce n S t = reduce n S' t' := by
  intro S
  induction S with
  | nil => intro S' t t' h; cases h; rfl
  | cons f S ih =>
    intro S' t t' h
    rw [reduce] at h
    split at h
    · rename_i hf
      obtain ⟨u, hu, h⟩ := Option.bind_eq_some_iff.mp h
      conv_lhs => rw [reduce, if_pos (by omega), hu]
      exact ih h
    · cases h; rfl

/-- Reducing less first does not fail if reducing more does not. -/
theorem reduce_less {m n : Nat} (hm : m ≤ n) : ∀ {S S' : List (Frame Q)} {t t' : Expr Q}, reduce n S t = some (S', t') →
    ∃ S1 t1, reduce m S t = some (S1, t1) ∧ reduce n S1 t1 = some (S', t') := by
  intro S
  induction S with
  | nil => intro S' t t' h; cases h; exact ⟨[], t, rfl, rfl⟩
  | cons f S ih =>
    intro S' t t' h
    by_cases hf : f.level ≤ m
    · rw [reduce, if_pos (by omega)] at h
      obtain ⟨u, hu, h⟩ := Option.bind_eq_some_iff.mp h
      obtain ⟨S1, t1, h1, h2⟩ := ih h
      exact ⟨S1, t1, by rw [reduce, if_pos hf, hu]; exact h1, h2⟩
    · exact ⟨f :: S, t, by rw [reduce, if_neg hf], h⟩

def Frame.isPrefix : Frame Q → Bool
  | .sign _ => true
  | .not => true
  | _ => false

/-- The topmost frame binds weaker than level `n`, or it is a prefix operator of this level. -/
def Ok (n : Nat) : List (Frame Q) → Prop
  | [] => True
  | f :: _ => n < f.level ∨ (n = f.level ∧ f.isPrefix = true)

theorem Above.ok {n : Nat} {S : List (Frame Q)} (h : Above n S) : Ok n S := by
  cases S with
  | nil => trivial
  | cons f S => exact .inl h

theorem Ok.above {n : Nat} {S : List (Frame Q)} (h : Ok n S) (h1 : n ≠ 1) (h8 : n ≠ 8) : Above n S := by
  cases S with
  | nil => trivial
  | cons f S =>
    rcases h with h | ⟨h, hp⟩
    · exact h
    · cases f <;> simp [Frame.isPrefix] at hp <;> simp [Frame.level] at h <;> omega

theorem Ok.pred {n : Nat} {S : List (Frame Q)} (h : Ok (n + 1) S) : Above n S := by
  cases S with
  | nil => trivial
  | cons f S =>
    rcases h with h | ⟨h, hp⟩
    · simp only [Above]; omega
    · simp only [Above]; omega

/-- The frame that is pending after the first elements of a conjunction. -/
def pendC (init : List (Expr Q)) (S : List (Frame Q)) : List (Frame Q) := if init = [] then S else .conj init :: S

def pendD (init : List (Expr Q)) (S : List (Frame Q)) : List (Frame Q) := if init = [] then S else .disj init :: S

/-- What running the parser on a text yields, if the text is read as `l`. -/
def Parsed (ts : List (Tok Q)) (l : List (Expr Q)) : Kind → Prop
  | .lvl n => ∀ t, l = [t] → ∀ S : List (Frame Q), Ok n S →
      ∃ S' u, run ts (S, .need) = some (S', .got u) ∧ reduce n S' u = reduce n S t
  | .conj => l ≠ [] ∧ ∀ init t, l = init ++ [t] → ∀ S : List (Frame Q), Above 9 S →
      ∃ S' u, run ts (S, .need) = some (S', .got u) ∧ reduce 8 S' u = some (pendC init S, t)
  | .disj => l ≠ [] ∧ ∀ init t, l = init ++ [t] → ∀ S : List (Frame Q), Above 10 S →
      ∃ S' u, run ts (S, .need) = some (S', .got u) ∧ reduce 9 S' u = some (pendD init S, t)
  | .args => l ≠ [] ∧ ∀ init t, l = init ++ [t] → ∀ neg e (S : List (Frame Q)),
      ∃ S' u, run ts (.list neg e [] :: S, .need) = some (S', .got u) ∧ reduce 10 S' u = some (.list neg e init :: S, t)

theorem above_pendC {init : List (Expr Q)} {S : List (Frame Q)} (h : Above 9 S) : Above 8 (pendC init S) := by
  unfold pendC
  split
  · exact h.mono (by omega)
  · simp [Above, Frame.level]

theorem above_pendD {init : List (Expr Q)} {S : List (Frame Q)} (h : Above 10 S) : Above 9 (pendD init S) := by
  unfold pendD
  split
  · exact h.mono (by omega)
  · simp [Above, Frame.level]

theorem pushConj_pend {init : List (Expr Q)} {S : List (Frame Q)} (h : Above 9 S) (t : Expr Q) :
    pushConj (pendC init S, t) = some (.conj (init ++ [t]) :: S, .need) := by
  unfold pendC
  split
  · rename_i hi
    subst hi
    cases S with
    | nil => rfl
    | cons f S => cases f <;> first | rfl | simp [Above, Frame.level] at h
  · rfl

theorem pushDisj_pend {init : List (Expr Q)} {S : List (Frame Q)} (h : Above 10 S) (t : Expr Q) :
    pushDisj (pendD init S, t) = some (.disj (init ++ [t]) :: S, .need) := by
  unfold pendD
  split
  · rename_i hi
    subst hi
    cases S with
    | nil => rfl
    | cons f S => cases f <;> first | rfl | simp [Above, Frame.level] at h
  · rfl

/-- A logical AND: the part before it is complete, so that no BETWEEN is pending. -/
theorem pushAnd_conj {S S' : List (Frame Q)} {t u : Expr Q} (h : reduce 8 S' u = some (S, t)) (hS : Above 8 S) :
    (reduce 4 S' u).bind pushAnd = pushConj (S, t) := by
  obtain ⟨S1, t1, h1, h2⟩ := reduce_less (show 4 ≤ 8 by omega) h
  rw [h1]
  have : pushAnd (S1, t1) = (reduce 8 S1 t1).bind pushConj := by
    cases S1 with
    | nil => rfl
    | cons f S1 =>
      cases f <;> first | rfl | skip
      simp [reduce, Frame.level, Frame.close] at h2
  rw [Option.bind_some, this, h2]
  rfl

theorem snoc_inj {l init : List (Expr Q)} {t u : Expr Q} (h : l ++ [t] = init ++ [u]) : l = init ∧ t = u := by
  have := List.append_inj' h rfl
  exact ⟨this.1, by simpa using this.2⟩

theorem run_snoc {ts : List (Tok Q)} {s s' : State Q} (h : run ts s = some s') (tok : Tok Q) (ts' : List (Tok Q)) :
    run (ts ++ tok :: ts') s = (step s' tok).bind (run ts') := by
  rw [run_append, h]
  rfl

theorem opLevel_other {op : LogOp} (h : otherOp op = true) : opLevel op = some (4, 4) := by rw [opLevel, if_pos h]

theorem opLevel_cmp {op : LogOp} {n : Nat} (h : cmpLevel op = some (n + 1)) : opLevel op = some (n, n + 1) ∧ 4 ≤ n ∧ n ≤ 6 := by
  cases op <;> simp [cmpLevel] at h <;> subst h <;> simp [opLevel, otherOp, cmpLevel]

theorem run_cons (tok : Tok Q) (ts : List (Tok Q)) (s : State Q) : run (tok :: ts) s = (step s tok).bind (run ts) := rfl

theorem parsed {k : Kind} {ts : List (Tok Q)} {l : List (Expr Q)} (h : Reads k ts l) : Parsed ts l k := by
  have above : ∀ {n : Nat} {ts : List (Tok Q)} {t : Expr Q}, Parsed ts [t] (.lvl n) → ∀ {S : List (Frame Q)}, Above n S →
      ∃ S' u, run ts (S, .need) = some (S', .got u) ∧ reduce n S' u = some (S, t) := by
    intro n ts t h S hS
    obtain ⟨S', u, h1, h2⟩ := h t rfl S hS.ok
    exact ⟨S', u, h1, h2.trans (reduce_above hS t)⟩
  induction h with
  | atom e =>
    rintro t ht S hS
    cases ht
    exact ⟨S, e, rfl, rfl⟩
  | paren h ih =>
    rename_i ts t
    rintro t' ht S hS
    cases ht
    obtain ⟨S', u, h1, h2⟩ := above ih (S := .paren :: S) (by simp [Above, Frame.level])
    refine ⟨S, t, ?_, rfl⟩
    simp only [run, step, onNeed, Option.bind_some]
    rw [run_snoc h1]
    simp only [step, onGot, h2, Option.bind_some, popParen, run]
  | sign hop h ih =>
    rename_i op ts t
    rintro t' ht S hS
    cases ht
    obtain ⟨S', u, h1, h2⟩ := ih t rfl (.sign op :: S) (.inr ⟨rfl, rfl⟩)
    refine ⟨S', u, ?_, ?_⟩
    · rw [run_cons]; exact h1
    · rw [h2, reduce, if_pos (by simp [Frame.level])]; rfl
  | math hop hl hr ihl ihr =>
    rename_i op n l r a b
    rintro t' ht S hS
    cases ht
    have hn : 1 ≤ n ∧ n ≤ 3 := by cases op <;> simp [mathLevel] at hop <;> omega
    have hS := hS.above (by omega) (by omega)
    obtain ⟨S1, u1, h1, h2⟩ := above ihl hS
    obtain ⟨S2, u2, h3, h4⟩ := above ihr (S := .math op a :: S) (by simp [Above, Frame.level, hop])
    refine ⟨S2, u2, ?_, ?_⟩
    · rw [run_snoc h1]
      simp only [step, onGot, hop, h2, Option.map_some, Option.bind_some]
      exact h3
    · rw [reduce_reduce (show n ≤ n + 1 by omega) h4, reduce, if_pos (by simp [Frame.level, hop])]
      rfl
  | other hop hl hr ihl ihr =>
    rename_i op l r a b
    rintro t' ht S hS
    cases ht
    have hS := hS.above (by omega) (by omega)
    obtain ⟨S1, u1, h1, h2⟩ := above ihl hS
    obtain ⟨S2, u2, h3, h4⟩ := above ihr (S := .bin 4 op a :: S) (by simp [Above, Frame.level])
    refine ⟨S2, u2, ?_, ?_⟩
    · rw [run_snoc h1]
      simp only [step, onGot, opLevel_other hop, h2, Option.map_some, Option.bind_some]
      exact h3
    · rw [reduce_reduce (show 3 ≤ 4 by omega) h4, reduce, if_pos (by simp [Frame.level])]
      rfl
  | cmp hop hl hr ihl ihr =>
    rename_i op n l r a b
    rintro t' ht S hS
    cases ht
    obtain ⟨ho, hn1, hn2⟩ := opLevel_cmp hop
    have hS := hS.pred
    obtain ⟨S1, u1, h1, h2⟩ := above ihl hS
    obtain ⟨S2, u2, h3, h4⟩ := above ihr (S := .bin (n + 1) op a :: S) (by simp [Above, Frame.level])
    refine ⟨S2, u2, ?_, ?_⟩
    · rw [run_snoc h1]
      simp only [step, onGot, ho, h2, Option.map_some, Option.bind_some]
      exact h3
    · rw [reduce_reduce (show n ≤ n + 1 by omega) h4, reduce, if_pos (by simp [Frame.level])]
      rfl
  | between h1 h2 h3 i1 i2 i3 =>
    rename_i ts l u e a b
    rintro t' ht S hS
    cases ht
    have hS := hS.pred
    obtain ⟨S1, u1, g1, r1⟩ := above i1 hS
    obtain ⟨S2, u2, g2, r2⟩ := above i2 (S := .betw e :: S) (by simp [Above, Frame.level])
    obtain ⟨S3, u3, g3, r3⟩ := above i3 (S := .betw' e a :: S) (by simp [Above, Frame.level])
    refine ⟨S3, u3, ?_, ?_⟩
    · rw [run_snoc g1]
      simp only [step, onGot, r1, Option.map_some, Option.bind_some]
      rw [run_snoc g2]
      simp only [step, onGot, r2, Option.bind_some, pushAnd]
      exact g3
    · rw [reduce_reduce (show 4 ≤ 5 by omega) r3, reduce, if_pos (by simp [Frame.level])]
      rfl
  | inL h1 h2 i1 i2 =>
    rename_i ts vs e es
    rintro t' ht S hS
    cases ht
    obtain ⟨S1, u1, g1, r1⟩ := above i1 hS.pred
    obtain ⟨hne, i2⟩ := i2
    obtain ⟨init, t, rfl⟩ : ∃ init t, es = init ++ [t] := ⟨_, _, (List.dropLast_append_getLast hne).symm⟩
    obtain ⟨S2, u2, g2, r2⟩ := i2 init t rfl false e S
    refine ⟨S, _, ?_, rfl⟩
    rw [run_snoc g1]
    simp only [step, onGot, r1, Option.map_some, Option.bind_some, run_cons, onIn]
    rw [run_snoc g2]
    simp only [step, onGot, r2, Option.bind_some, popParen, run, mkIn, Bool.false_eq_true, if_false]
  | inQ h1 i1 =>
    rename_i ts e q
    rintro t' ht S hS
    cases ht
    obtain ⟨S1, u1, g1, r1⟩ := above i1 hS.pred
    refine ⟨S, _, ?_, rfl⟩
    rw [run_snoc g1]
    simp only [step, onGot, r1, Option.map_some, Option.bind_some, run_cons, onIn, run, mkIn, Bool.false_eq_true, if_false]
  | notInL h1 h2 i1 i2 =>
    rename_i ts vs e es
    rintro t' ht S hS
    cases ht
    obtain ⟨S1, u1, g1, r1⟩ := above i1 hS.pred
    obtain ⟨hne, i2⟩ := i2
    obtain ⟨init, t, rfl⟩ : ∃ init t, es = init ++ [t] := ⟨_, _, (List.dropLast_append_getLast hne).symm⟩
    obtain ⟨S2, u2, g2, r2⟩ := i2 init t rfl true e S
    refine ⟨S, _, ?_, rfl⟩
    rw [run_snoc g1]
    simp only [step, onGot, r1, Option.map_some, Option.bind_some, run_cons, onIn]
    rw [run_snoc g2]
    simp only [step, onGot, r2, Option.bind_some, popParen, run, mkIn, if_true]
  | notInQ h1 i1 =>
    rename_i ts e q
    rintro t' ht S hS
    cases ht
    obtain ⟨S1, u1, g1, r1⟩ := above i1 hS.pred
    refine ⟨S, _, ?_, rfl⟩
    rw [run_snoc g1]
    simp only [step, onGot, r1, Option.map_some, Option.bind_some, run_cons, onIn, run, mkIn, if_true]
  | not h ih =>
    rename_i ts t
    rintro t' ht S hS
    cases ht
    obtain ⟨S', u, h1, h2⟩ := ih t rfl (.not :: S) (.inr ⟨rfl, rfl⟩)
    refine ⟨S', u, ?_, ?_⟩
    · rw [run_cons]; exact h1
    · rw [h2, reduce, if_pos (by simp [Frame.level])]; rfl
  | conj1 h ih =>
    rename_i ts t
    refine ⟨by simp, ?_⟩
    rintro init t' ht S hS
    obtain ⟨rfl, rfl⟩ := snoc_inj (l := []) ht
    exact above ih (hS.mono (by omega))
  | conjS h1 h2 i1 i2 =>
    rename_i ts ts' l t
    refine ⟨by simp, ?_⟩
    rintro init t' ht S hS
    obtain ⟨rfl, rfl⟩ := snoc_inj ht
    obtain ⟨hne, i1⟩ := i1
    obtain ⟨init, t0, rfl⟩ : ∃ init t, l = init ++ [t] := ⟨_, _, (List.dropLast_append_getLast hne).symm⟩
    obtain ⟨S1, u1, g1, r1⟩ := i1 init t0 rfl S hS
    obtain ⟨S2, u2, g2, r2⟩ := above i2 (S := .conj (init ++ [t0]) :: S) (by simp [Above, Frame.level])
    refine ⟨S2, u2, ?_, ?_⟩
    · rw [run_snoc g1]
      simp only [step, onGot]
      rw [pushAnd_conj r1 (above_pendC hS), pushConj_pend hS]
      exact g2
    · rw [r2, pendC, if_neg (by simp)]
  | and h hl ih =>
    rename_i ts l
    rintro t' ht S hS
    cases ht
    obtain ⟨hne, ih⟩ := ih
    obtain ⟨init, t0, rfl⟩ : ∃ init t, l = init ++ [t] := ⟨_, _, (List.dropLast_append_getLast hne).symm⟩
    have hS := hS.above (by omega) (by omega)
    obtain ⟨S1, u1, g1, r1⟩ := ih init t0 rfl S hS
    refine ⟨S1, u1, g1, ?_⟩
    have hi : init ≠ [] := by rintro rfl; simp at hl
    rw [reduce_reduce (show 8 ≤ 9 by omega) r1, pendC, if_neg hi, reduce, if_pos (by simp [Frame.level])]
    rfl
  | disj1 h ih =>
    rename_i ts t
    refine ⟨by simp, ?_⟩
    rintro init t' ht S hS
    obtain ⟨rfl, rfl⟩ := snoc_inj (l := []) ht
    exact above ih (hS.mono (by omega))
  | disjS h1 h2 i1 i2 =>
    rename_i ts ts' l t
    refine ⟨by simp, ?_⟩
    rintro init t' ht S hS
    obtain ⟨rfl, rfl⟩ := snoc_inj ht
    obtain ⟨hne, i1⟩ := i1
    obtain ⟨init, t0, rfl⟩ : ∃ init t, l = init ++ [t] := ⟨_, _, (List.dropLast_append_getLast hne).symm⟩
    obtain ⟨S1, u1, g1, r1⟩ := i1 init t0 rfl S hS
    obtain ⟨S2, u2, g2, r2⟩ := above i2 (S := .disj (init ++ [t0]) :: S) (by simp [Above, Frame.level])
    refine ⟨S2, u2, ?_, ?_⟩
    · rw [run_snoc g1]
      simp only [step, onGot]
      rw [r1, Option.bind_some, pushDisj_pend hS]
      exact g2
    · rw [r2, pendD, if_neg (by simp)]
  | or h hl ih =>
    rename_i ts l
    rintro t' ht S hS
    cases ht
    obtain ⟨hne, ih⟩ := ih
    obtain ⟨init, t0, rfl⟩ : ∃ init t, l = init ++ [t] := ⟨_, _, (List.dropLast_append_getLast hne).symm⟩
    have hS := hS.above (by omega) (by omega)
    obtain ⟨S1, u1, g1, r1⟩ := ih init t0 rfl S hS
    refine ⟨S1, u1, g1, ?_⟩
    have hi : init ≠ [] := by rintro rfl; simp at hl
    rw [reduce_reduce (show 9 ≤ 10 by omega) r1, pendD, if_neg hi, reduce, if_pos (by simp [Frame.level])]
    rfl
  | args1 h ih =>
    rename_i ts t
    refine ⟨by simp, ?_⟩
    rintro init t' ht neg e S
    obtain ⟨rfl, rfl⟩ := snoc_inj (l := []) ht
    exact above ih (by simp [Above, Frame.level])
  | argsS h1 h2 i1 i2 =>
    rename_i ts ts' l t
    refine ⟨by simp, ?_⟩
    rintro init t' ht neg e S
    obtain ⟨rfl, rfl⟩ := snoc_inj ht
    obtain ⟨hne, i1⟩ := i1
    obtain ⟨init, t0, rfl⟩ : ∃ init t, l = init ++ [t] := ⟨_, _, (List.dropLast_append_getLast hne).symm⟩
    obtain ⟨S1, u1, g1, r1⟩ := i1 init t0 rfl neg e S
    obtain ⟨S2, u2, g2, r2⟩ := above i2 (S := .list neg e (init ++ [t0]) :: S) (by simp [Above, Frame.level])
    refine ⟨S2, u2, ?_, r2⟩
    rw [run_snoc g1]
    simp only [step, onGot]
    rw [r1, Option.bind_some]
    exact g2
  | up hn h ih =>
    rename_i n ts t
    rintro t' ht S hS
    cases ht
    obtain ⟨S', u, h1, h2⟩ := above ih hS.pred
    exact ⟨S', u, h1, reduce_reduce (by omega) h2⟩

theorem Reads.single {n : Nat} {ts : List (Tok Q)} {l : List (Expr Q)} (h : Reads (.lvl n) ts l) : ∃ t, l = [t] := by
  generalize hk : Kind.lvl n = k at h
  cases h <;> first | exact ⟨_, rfl⟩ | cases hk

/-- The grammar is unambiguous: a text can be read in at most one way. -/
theorem reads_unique {ts : List (Tok Q)} {t t' : Expr Q} (h : Reads (.lvl 10) ts [t]) (h' : Reads (.lvl 10) ts [t']) : t = t' := by
  obtain ⟨S, u, h1, h2⟩ := parsed h t rfl [] trivial
  obtain ⟨S', u', h1', h2'⟩ := parsed h' t' rfl [] trivial
  rw [h1] at h1'
  simp only [Option.some.injEq, Prod.mk.injEq, Mode.got.injEq] at h1'
  obtain ⟨rfl, rfl⟩ := h1'
  rw [h2] at h2'
  simpa [reduce] using h2'

/-! ### Meanings -/

/-- What expressions mean, in any domain of values `V`. Addition, multiplication and concatenation are associative, nested conjunctions can be
flattened, and a negative number is the negation of its absolute value. -/
structure Meaning (Q V : Type) where
  atom : Expr Q → V
  math : MathOp → V → V → V
  sign : MathOp → V → V
  cmp : LogOp → V → V → V
  between : V → V → V → V
  isIn : V → List V → V
  notF : V → V
  allF : List V → V
  anyF : List V → V
  assoc : ∀ op, op = .add ∨ op = .mul ∨ op = .concat → ∀ a b c, math op (math op a b) c = math op a (math op b c)
  negative : ∀ n : Int, n < 0 → sign .sub (atom (.static (.num (-n)))) = atom (.static (.num n))
  all_one : ∀ v, allF [v] = v
  all_flat : ∀ a b c, allF (a ++ allF b :: c) = allF (a ++ b ++ c)

mutual
/-- The meaning of an expression. -/
def denote {V : Type} (M : Meaning Q V) : Expr Q → V
  | .math op f [] => M.sign op (denote M f)
  | .math op f ss => (denoteAll M ss).foldl (M.math op) (denote M f)
  | .binary op a b => M.cmp op (denote M a) (denote M b)
  | .between e l u => M.between (denote M e) (denote M l) (denote M u)
  | .inP e vs => M.isIn (denote M e) (denoteAll M vs)
  | .unary e none => denote M e
  | .compound .not [c] => M.notF (denote M c)
  | .compound .and cs => M.allF (denoteAll M cs)
  | .compound .or cs => M.anyF (denoteAll M cs)
  | e => M.atom e

def denoteAll {V : Type} (M : Meaning Q V) : List (Expr Q) → List V
  | [] => []
  | e :: es => denote M e :: denoteAll M es
end

/-! ### Which expressions are printed correctly -/

/-- Expressions whose text delimits itself. -/
def isLeaf : Expr Q → Bool
  | .math _ _ _ | .binary _ _ _ | .between _ _ _ | .inP _ _ | .unary _ none | .compound _ _ => false
  | .unary _ (some op) => op == .existsOp
  | _ => true

/-- Operands of operators. -/
def isOperand : Expr Q → Bool
  | .math _ _ _ => true
  | e => isLeaf e

/-- A negative number. -/
def isNegative : Expr Q → Bool
  | .static (.num n) => decide (n < 0)
  | _ => false

/-- The first operand of an operator must not be a sum (of a product or modulo), or a difference (of a division). -/
def leftOk (op : MathOp) : Expr Q → Bool
  | .math cop _ (_ :: _) =>
    match op, cop with
    | .mul, .add | .mod, .add | .div, .sub => false
    | _, _ => true
  | _ => true

/-- The second operand must not be one of these either, nor one with the same operator (unless the operator is associative), nor a modulo in a
product or vice versa. -/
def rightOk (op : MathOp) : Expr Q → Bool
  | .math cop f (_ :: ss) =>
    if cop = op then (op == .add || op == .mul || op == .concat) && (!ss.isEmpty || rightOk op f)
    else
      match op, cop with
      | .mul, .add | .mod, .add | .div, .sub | .mul, .mod | .mod, .mul => false
      | _, _ => true
  | _ => true

/-- The text is that of a conjunction. -/
def looksAnd : Expr Q → Bool
  | .compound .and _ => true
  | .unary e none => looksAnd e
  | _ => false

/-- The text is that of a concatenation. -/
def isConcat : Expr Q → Bool
  | .math .concat _ (_ :: _) => true
  | _ => false

/-- Expressions that are printed correctly. -/
inductive Fine : Expr Q → Prop
  | leaf {e} : isLeaf e = true → Fine e
  | sign {op f} : op = .add ∨ op = .sub → isLeaf f = true → isNegative f = false → Fine (.math op f [])
  | math {op f s} : Fine f → Fine s → isOperand f = true → isOperand s = true → leftOk op f = true → rightOk op s = true → Fine (.math op f [s])
  | nary {op f s s' ss} : Fine f → (∀ c ∈ s :: s' :: ss, Fine c) → Fine (.math op f (s :: s' :: ss))
  | cmp {op a b} : cmpLevel op ≠ none → Fine a → Fine b → isOperand a = true → isOperand b = true → Fine (.binary op a b)
  | other {op a b} : otherOp op = true → Fine a → Fine b → isOperand a = true → isOperand b = true → isConcat b = false → Fine (.binary op a b)
  | between {e l u} : Fine e → Fine l → Fine u → isOperand e = true → isOperand l = true → isOperand u = true → Fine (.between e l u)
  | inP {e vs} : Fine e → isOperand e = true → vs ≠ [] → (∀ c ∈ vs, Fine c) → Fine (.inP e vs)
  | unary {e} : Fine e → Fine (.unary e none)
  | not {c} : Fine c → looksAnd c = false → Fine (.compound .not [c])
  | and {cs} : 2 ≤ cs.length → (∀ c ∈ cs, Fine c) → Fine (.compound .and cs)
  | or {cs} : 2 ≤ cs.length → (∀ c ∈ cs, Fine c) → Fine (.compound .or cs)

/-! ### Reading the text of these expressions -/

theorem Reads.upTo {m n : Nat} {ts : List (Tok Q)} {t : Expr Q} (h : Reads (.lvl m) ts [t]) (hm : m ≤ n) (hn : n ≤ 10) : Reads (.lvl n) ts [t] := by
  induction n with
  | zero => obtain rfl : m = 0 := by omega
            exact h
  | succ n ih =>
    by_cases e : m = n + 1
    · subst e; exact h
    · exact .up (by omega) (ih (by omega) (by omega))

theorem Reads.nonempty {k : Kind} {ts : List (Tok Q)} {l : List (Expr Q)} (h : Reads k ts l) : l ≠ [] := by
  cases h <;> simp

theorem Reads.conj_one {ts : List (Tok Q)} {t : Expr Q} (h : Reads .conj ts [t]) : Reads (.lvl 8) ts [t] := by
  generalize hl : [t] = l at h
  cases h with
  | conj1 h => cases hl; exact h
  | conjS h1 h2 =>
    obtain ⟨rfl, rfl⟩ := snoc_inj (l := []) hl
    exact absurd rfl h1.nonempty

theorem Reads.conj_append {ts : List (Tok Q)} {l : List (Expr Q)} (h : Reads .conj ts l) {ts' : List (Tok Q)} {l' : List (Expr Q)}
    (h' : Reads .conj ts' l') : Reads .conj (ts ++ .andT :: ts') (l ++ l') := by
  generalize hk : Kind.conj = k at h'
  induction h' with
  | conj1 h' => exact .conjS h h'
  | conjS h1 h2 i1 _ =>
    have := Reads.conjS (i1 hk) h2
    simpa using this
  | _ => cases hk

theorem denoteAll_map {V : Type} (M : Meaning Q V) (l : List (Expr Q)) : denoteAll M l = l.map (denote M) := by
  induction l with
  | nil => rfl
  | cons e l ih => rw [denoteAll, ih]; rfl

theorem printAll_map (l : List (Expr Q)) : printAll l = l.map print := by
  induction l with
  | nil => rfl
  | cons e l ih => rw [printAll, ih]; rfl

theorem denote_math1 {V : Type} (M : Meaning Q V) (op : MathOp) (f s : Expr Q) :
    denote M (.math op f [s]) = M.math op (denote M f) (denote M s) := by
  simp [denote, denoteAll]

theorem denote_leaf {V : Type} (M : Meaning Q V) {e : Expr Q} (h : isLeaf e = true) : denote M e = M.atom e := by
  cases e with
  | unary e op => cases op <;> simp_all [isLeaf, denote]
  | _ => simp_all [isLeaf, denote]

/-- Same meaning in all domains. -/
def Same (t e : Expr Q) : Prop := ∀ (V : Type) (M : Meaning Q V), denote M t = denote M e

/-- The level of the text of an operand. -/
def opl : Expr Q → Nat
  | .math op _ (_ :: _) => mathLevel op
  | _ => 1

/-- The text of an operand, with brackets if necessary. -/
def operandText (op : MathOp) (e : Expr Q) : List (Tok Q) := if requiresBrackets op e then bracket (print e) else print e

structure Good (e : Expr Q) : Prop where
  conj : ∃ l, Reads .conj (print e) l ∧ ∀ (V : Type) (M : Meaning Q V), M.allF (l.map (denote M)) = denote M e
  single : looksAnd e = false → ∃ t, Reads (.lvl 8) (print e) [t] ∧ Same t e
  operand : isOperand e = true → ∃ t, Reads (.lvl (opl e)) (print e) [t] ∧ Same t e
  right : isOperand e = true → ∀ op l t1, rightOk op e = true → Reads (.lvl (mathLevel op)) l [t1] →
    ∃ t, Reads (.lvl (mathLevel op)) (l ++ .mop op :: operandText op e) [t] ∧
      ∀ (V : Type) (M : Meaning Q V), denote M t = M.math op (denote M t1) (denote M e)

theorem mathLevel_pos (op : MathOp) : ∃ n, mathLevel op = n + 1 ∧ 1 ≤ n ∧ n ≤ 3 := by cases op <;> exact ⟨_, rfl, by omega, by omega⟩

theorem opl_le (e : Expr Q) : opl e ≤ 4 := by
  cases e with
  | math op f ss => cases ss <;> simp [opl]; cases op <;> simp [mathLevel]
  | _ => simp [opl]

theorem Good.top {e : Expr Q} (h : Good e) : ∃ t, Reads (.lvl 9) (print e) [t] ∧ Same t e := by
  obtain ⟨l, hl, hd⟩ := h.conj
  rcases l with _ | ⟨t, _ | ⟨t', l⟩⟩
  · exact absurd rfl hl.nonempty
  · refine ⟨t, (hl.conj_one).upTo (by omega) (by omega), fun V M => ?_⟩
    rw [← hd V M]
    exact (M.all_one _).symm
  · refine ⟨_, .and hl (by simp), fun V M => ?_⟩
    rw [← hd V M, denote, denoteAll_map]

theorem Good.bracketed {e : Expr Q} (h : Good e) : ∃ t, Reads (.lvl 0) (bracket (print e)) [t] ∧ Same t e := by
  obtain ⟨t, h1, h2⟩ := h.top
  exact ⟨t, .paren (h1.upTo (by omega) (by omega)), h2⟩

/-- An expression that is no conjunction. -/
theorem Good.ofSingle {e t : Expr Q} (h : Reads (.lvl 8) (print e) [t]) (hs : Same t e) (ho : isOperand e = false) : Good e := by
  refine ⟨⟨[t], .conj1 h, fun V M => ?_⟩, fun _ => ⟨t, h, hs⟩, (fun x => by simp [ho] at x), (fun x => by simp [ho] at x)⟩
  rw [← hs V M]
  exact M.all_one _

/-- An operand. -/
theorem Good.ofOperand {e t : Expr Q} (h : Reads (.lvl (opl e)) (print e) [t]) (hs : Same t e)
    (hr : ∀ op l t1, rightOk op e = true → Reads (.lvl (mathLevel op)) l [t1] →
    ∃ t, Reads (.lvl (mathLevel op)) (l ++ .mop op :: operandText op e) [t] ∧
      ∀ (V : Type) (M : Meaning Q V), denote M t = M.math op (denote M t1) (denote M e)) : Good e := by
  have h8 := h.upTo (n := 8) (by have := opl_le e; omega) (by omega)
  refine ⟨⟨[t], .conj1 h8, fun V M => ?_⟩, fun _ => ⟨t, h8, hs⟩, fun _ => ⟨t, h, hs⟩, fun _ => hr⟩
  rw [← hs V M]
  exact M.all_one _

/-- An operand that binds tighter than the operator. -/
theorem right_tight {e t : Expr Q} {op : MathOp} {n : Nat} (hn : n < mathLevel op) (h : Reads (.lvl n) (operandText op e) [t]) (hs : Same t e)
    {l : List (Tok Q)} {t1 : Expr Q} (hl : Reads (.lvl (mathLevel op)) l [t1]) :
    ∃ t, Reads (.lvl (mathLevel op)) (l ++ .mop op :: operandText op e) [t] ∧
      ∀ (V : Type) (M : Meaning Q V), denote M t = M.math op (denote M t1) (denote M e) := by
  obtain ⟨m, hm, h1, h2⟩ := mathLevel_pos op
  rw [hm] at hl ⊢
  refine ⟨_, .math hm hl (h.upTo (by omega) (by omega)), fun V M => ?_⟩
  rw [denote_math1, hs V M]

theorem good_leaf {e : Expr Q} (h : isLeaf e = true) : Good e := by
  have hop : isOperand e = true := by cases e <;> simp_all [isOperand, isLeaf]
  have hl : opl e = 1 := by cases e <;> simp_all [isLeaf, opl]
  have hb : ∀ op, requiresBrackets op e = false := by intro op; cases e <;> simp_all [isLeaf, requiresBrackets]
  have hr : ∃ t, Reads (.lvl 1) (print e) [t] ∧ Same t e := by
    by_cases hv : ∃ v, e = .static v
    · obtain ⟨v, rfl⟩ := hv
      rw [print]
      cases v with
      | num n =>
        rw [literal]
        split
        · rename_i hn
          refine ⟨_, .sign (.inr rfl) (.up (by omega) (.atom _)), fun V M => ?_⟩
          simp only [denote]
          exact M.negative n hn
        · exact ⟨_, .up (by omega) (.atom _), fun V M => rfl⟩
      | null => exact ⟨_, .up (by omega) (.atom _), fun V M => rfl⟩
      | str => exact ⟨_, .up (by omega) (.atom _), fun V M => rfl⟩
    · have hp : print e = [.atom e] := by
        cases e with
        | static v => exact absurd ⟨v, rfl⟩ hv
        | unary e op =>
          cases op with
          | none => simp [isLeaf] at h
          | some op => simp [isLeaf] at h; subst h; simp [print]
        | _ => simp_all [isLeaf, print]
      rw [hp]
      exact ⟨e, .up (by omega) (.atom _), fun V M => rfl⟩
  obtain ⟨t, ht, hs⟩ := hr
  refine Good.ofOperand (t := t) (by rw [hl]; exact ht) hs ?_
  intro op l t1 _ hl'
  obtain ⟨m, hm, h1, h2⟩ := mathLevel_pos op
  exact right_tight (n := 1) (by omega) (by rw [operandText, hb]; exact ht) hs hl'

theorem right_other {op op' : MathOp} {f s : Expr Q} {ss : List (Expr Q)} {t : Expr Q} (hne : op ≠ op')
    (h : Reads (.lvl (mathLevel op)) (print (.math op f (s :: ss))) [t]) (hs : Same t (.math op f (s :: ss)))
    (hr : rightOk op' (.math op f (s :: ss)) = true) {l : List (Tok Q)} {t1 : Expr Q} (hl : Reads (.lvl (mathLevel op')) l [t1]) :
    ∃ t, Reads (.lvl (mathLevel op')) (l ++ .mop op' :: operandText op' (.math op f (s :: ss))) [t] ∧
      ∀ (V : Type) (M : Meaning Q V), denote M t = M.math op' (denote M t1) (denote M (.math op f (s :: ss))) := by
  by_cases hb : requiresBrackets op' (.math op f (s :: ss)) = true
  · refine right_tight (n := 0) (t := t) (by cases op' <;> simp [mathLevel]) ?_ hs hl
    rw [operandText, if_pos hb]
    exact .paren (h.upTo (by cases op <;> simp [mathLevel]) (by omega))
  · refine right_tight (n := mathLevel op) (t := t) ?_ ?_ hs hl
    · cases op <;> cases op' <;> simp_all [requiresBrackets, rightOk, mathLevel, eagerOp, lazyOp]
    · rw [operandText, if_neg hb]; exact h

theorem left_read {op : MathOp} {f : Expr Q} (hf : Good f) (ho : isOperand f = true) (hk : leftOk op f = true) :
    ∃ t, Reads (.lvl (mathLevel op)) (operandText op f) [t] ∧ Same t f := by
  by_cases hb : requiresBrackets op f = true
  · obtain ⟨t, h1, h2⟩ := hf.bracketed
    refine ⟨t, ?_, h2⟩
    rw [operandText, if_pos hb]
    exact h1.upTo (by omega) (by cases op <;> simp [mathLevel])
  · obtain ⟨t, h1, h2⟩ := hf.operand ho
    refine ⟨t, ?_, h2⟩
    rw [operandText, if_neg hb]
    refine h1.upTo ?_ (by cases op <;> simp [mathLevel])
    cases f with
    | math cop f' ss =>
      cases ss with
      | nil => cases op <;> simp [opl, mathLevel]
      | cons x xs => cases op <;> cases cop <;> simp_all [requiresBrackets, leftOk, mathLevel, eagerOp, lazyOp, opl]
    | _ => cases op <;> simp [opl, mathLevel]

theorem good_math {op : MathOp} {f s : Expr Q} (hf : Good f) (hs : Good s) (of : isOperand f = true) (os : isOperand s = true)
    (lf : leftOk op f = true) (rs : rightOk op s = true) : Good (.math op f [s]) := by
  have hp : print (.math op f [s]) = operandText op f ++ .mop op :: operandText op s := by rw [print]; rfl
  obtain ⟨tf, h1, h2⟩ := left_read hf of lf
  obtain ⟨t, h3, h4⟩ := hs.right os op _ _ rs h1
  have hread : Reads (.lvl (opl (.math op f [s]))) (print (.math op f [s])) [t] := by rw [hp]; exact h3
  have hsame : Same t (.math op f [s]) := fun V M => by rw [h4, denote_math1, h2 V M]
  refine Good.ofOperand hread hsame ?_
  intro op' l t1 hr hl
  by_cases e : op = op'
  · subst e
    have hb : operandText op (.math op f [s]) = print (.math op f [s]) := by rw [operandText]; simp [requiresBrackets]
    rw [hb, hp]
    simp only [rightOk, if_true, List.isEmpty_nil, Bool.not_true, Bool.false_or, Bool.and_eq_true, Bool.or_eq_true, beq_iff_eq] at hr
    obtain ⟨ha, hrf⟩ := hr
    obtain ⟨t2, h5, h6⟩ := hf.right of op l t1 hrf hl
    obtain ⟨t3, h7, h8⟩ := hs.right os op _ _ rs h5
    refine ⟨t3, by simpa using h7, fun V M => ?_⟩
    rw [h8, h6, denote_math1]
    exact M.assoc op (by tauto) _ _ _
  · exact right_other e hread hsame hr hl

theorem joinToks_cons (sep : Tok Q) (ts : List (Tok Q)) (l : List (List (Tok Q))) :
    joinToks sep (ts :: l) = ts ++ l.flatMap (fun x => sep :: x) := by
  induction l generalizing ts with
  | nil => simp [joinToks]
  | cons t l ih => rw [joinToks, ih]; simp; simp

theorem nary_read {op : MathOp} (ss : List (Expr Q)) (h : ∀ c ∈ ss, Good c) {l : List (Tok Q)} {t1 : Expr Q}
    (hl : Reads (.lvl (mathLevel op)) l [t1]) :
    ∃ t, Reads (.lvl (mathLevel op)) (l ++ (ss.map fun c => bracket (print c)).flatMap (fun x => .mop op :: x)) [t] ∧
      ∀ (V : Type) (M : Meaning Q V), denote M t = (ss.map (denote M)).foldl (M.math op) (denote M t1) := by
  induction ss generalizing l t1 with
  | nil => exact ⟨t1, by simpa using hl, fun _ _ => rfl⟩
  | cons c ss ih =>
    obtain ⟨tc, h1, h2⟩ := (h c (by simp)).bracketed
    obtain ⟨m, hm, hm1, hm2⟩ := mathLevel_pos op
    have h3 : Reads (.lvl (mathLevel op)) (l ++ .mop op :: bracket (print c)) [.math op t1 [tc]] := by
      rw [hm] at hl ⊢
      exact .math hm hl (h1.upTo (by omega) (by omega))
    obtain ⟨t, h4, h5⟩ := ih (fun x hx => h x (by simp [hx])) h3
    refine ⟨t, by simpa using h4, fun V M => ?_⟩
    rw [h5, denote_math1, h2 V M]
    rfl

theorem foldl_assoc {V : Type} (g : V → V → V) (ha : ∀ a b c, g (g a b) c = g a (g b c)) (l : List V) (a b : V) :
    l.foldl g (g a b) = g a (l.foldl g b) := by
  induction l generalizing b with
  | nil => rfl
  | cons x l ih => simp only [List.foldl_cons]; rw [ha, ih]

theorem good_nary {op : MathOp} {f s s' : Expr Q} {ss : List (Expr Q)} (hf : Good f) (hs : ∀ c ∈ s :: s' :: ss, Good c) :
    Good (.math op f (s :: s' :: ss)) := by
  have hp : print (.math op f (s :: s' :: ss)) =
      bracket (print f) ++ ((s :: s' :: ss).map fun c => bracket (print c)).flatMap (fun x => .mop op :: x) := by
    rw [print, joinToks_cons, printAll_map, List.map_map]
    · rfl
    · simp
    · simp
  have hd : ∀ (V : Type) (M : Meaning Q V),
      denote M (.math op f (s :: s' :: ss)) = ((s :: s' :: ss).map (denote M)).foldl (M.math op) (denote M f) := by
    intro V M
    rw [denote, denoteAll_map]
    simp
  obtain ⟨tf, h1, h2⟩ := hf.bracketed
  have h10 : mathLevel op ≤ 10 := by cases op <;> simp [mathLevel]
  obtain ⟨t, h3, h4⟩ := nary_read (op := op) _ hs (h1.upTo (by omega) h10)
  have hread : Reads (.lvl (opl (.math op f (s :: s' :: ss)))) (print (.math op f (s :: s' :: ss))) [t] := by rw [hp]; exact h3
  have hsame : Same t (.math op f (s :: s' :: ss)) := fun V M => by rw [h4, hd, h2 V M]
  refine Good.ofOperand hread hsame ?_
  intro op' l t1 hr hl
  by_cases e : op = op'
  · subst e
    have hb : operandText op (.math op f (s :: s' :: ss)) = print (.math op f (s :: s' :: ss)) := by rw [operandText]; simp [requiresBrackets]
    rw [hb, hp]
    simp only [rightOk, if_true, Bool.and_eq_true, Bool.or_eq_true, beq_iff_eq] at hr
    obtain ⟨ha, -⟩ := hr
    obtain ⟨t2, h5, h6⟩ := nary_read (op := op) (f :: s :: s' :: ss) (by
      intro c hc
      rcases List.mem_cons.mp hc with rfl | hc
      · exact hf
      · exact hs c hc) hl
    refine ⟨t2, by simpa using h5, fun V M => ?_⟩
    rw [h6, hd]
    exact foldl_assoc _ (M.assoc op (by tauto)) _ _ _
  · exact right_other e hread hsame hr hl

theorem good_sign {op : MathOp} {f : Expr Q} (ho : op = .add ∨ op = .sub) (hl : isLeaf f = true) (hn : isNegative f = false) :
    Good (.math op f []) := by
  have hp : print f = [.atom f] := by
    cases f with
    | static v => cases v <;> simp_all [isNegative, print, literal]
    | unary e op =>
      cases op with
      | none => simp [isLeaf] at hl
      | some op => simp [isLeaf] at hl; subst hl; simp [print]
    | _ => simp_all [isLeaf, print]
  have hp' : print (.math op f []) = [.mop op, .atom f] := by rw [print, hp]; rfl
  have hread : Reads (.lvl 1) (print (.math op f [])) [.math op f []] := by
    rw [hp']
    exact .sign ho (.up (by omega) (.atom _))
  refine Good.ofOperand (t := .math op f []) hread (fun V M => rfl) ?_
  intro op' l t1 _ hl'
  by_cases hb : requiresBrackets op' (.math op f []) = true
  · refine right_tight (n := 0) (t := .math op f []) (by cases op' <;> simp [mathLevel]) ?_ (fun V M => rfl) hl'
    rw [operandText, if_pos hb]
    exact .paren (hread.upTo (by omega) (by omega))
  · refine right_tight (n := 1) (t := .math op f []) (by cases op' <;> simp [mathLevel]) ?_ (fun V M => rfl) hl'
    rw [operandText, if_neg hb]
    exact hread

theorem Good.op4 {e : Expr Q} (h : Good e) (ho : isOperand e = true) : ∃ t, Reads (.lvl 4) (print e) [t] ∧ Same t e := by
  obtain ⟨t, h1, h2⟩ := h.operand ho
  exact ⟨t, h1.upTo (opl_le e) (by omega), h2⟩

theorem good_cmp {op : LogOp} {a b : Expr Q} (hop : cmpLevel op ≠ none) (ha : Good a) (hb : Good b) (oa : isOperand a = true)
    (ob : isOperand b = true) : Good (.binary op a b) := by
  obtain ⟨ta, a1, a2⟩ := ha.op4 oa
  obtain ⟨tb, b1, b2⟩ := hb.op4 ob
  obtain ⟨n, hn, h4, h8⟩ : ∃ n, cmpLevel op = some (n + 1) ∧ 4 ≤ n ∧ n + 1 ≤ 8 := by
    cases op <;> simp_all [cmpLevel]
  refine Good.ofSingle (t := .binary op ta tb) ?_ (fun V M => ?_) rfl
  · rw [print]
    exact (Reads.cmp hn (a1.upTo h4 (by omega)) (b1.upTo h4 (by omega))).upTo h8 (by omega)
  · rw [denote, denote, a2 V M, b2 V M]

theorem good_other {op : LogOp} {a b : Expr Q} (hop : otherOp op = true) (ha : Good a) (hb : Good b) (oa : isOperand a = true)
    (ob : isOperand b = true) (hc : isConcat b = false) : Good (.binary op a b) := by
  obtain ⟨ta, a1, a2⟩ := ha.op4 oa
  obtain ⟨tb, b1, b2⟩ := hb.operand ob
  refine Good.ofSingle (t := .binary op ta tb) ?_ (fun V M => ?_) rfl
  · rw [print]
    refine (Reads.other hop a1 (b1.upTo ?_ (by omega))).upTo (by omega) (by omega)
    cases b with
    | math op f ss => cases op <;> cases ss <;> simp_all [isConcat, opl, mathLevel]
    | _ => simp [opl]
  · rw [denote, denote, a2 V M, b2 V M]

theorem good_between {e l u : Expr Q} (he : Good e) (hl : Good l) (hu : Good u) (oe : isOperand e = true) (ol : isOperand l = true)
    (ou : isOperand u = true) : Good (.between e l u) := by
  obtain ⟨ta, a1, a2⟩ := he.op4 oe
  obtain ⟨tb, b1, b2⟩ := hl.op4 ol
  obtain ⟨tc, c1, c2⟩ := hu.op4 ou
  refine Good.ofSingle (t := .between ta tb tc) ?_ (fun V M => ?_) rfl
  · rw [print]
    exact (Reads.between a1 b1 c1).upTo (by omega) (by omega)
  · rw [denote, denote, a2 V M, b2 V M, c2 V M]

theorem args_read (vs : List (Expr Q)) (h0 : vs ≠ []) (h : ∀ c ∈ vs, Good c) :
    ∃ es, Reads .args (joinToks .comma (printAll vs)) es ∧ ∀ (V : Type) (M : Meaning Q V), es.map (denote M) = vs.map (denote M) := by
  induction vs using List.reverseRecOn with
  | nil => exact absurd rfl h0
  | append_singleton l c ih =>
    obtain ⟨t, h1, h2⟩ := (h c (by simp)).top
    rcases l with _ | ⟨x, l⟩
    · refine ⟨[t], ?_, fun V M => by simp [h2 V M]⟩
      simp only [List.nil_append, printAll, joinToks]
      exact .args1 (h1.upTo (by omega) (by omega))
    · obtain ⟨es, h3, h4⟩ := ih (by simp) (fun c hc => h c (by simp only [List.mem_append]; exact .inl hc))
      refine ⟨es ++ [t], ?_, fun V M => by rw [List.map_append, List.map_append, h4 V M]; simp [h2 V M]⟩
      rw [printAll_map] at h3 ⊢
      have := Reads.argsS h3 (h1.upTo (n := 10) (by omega) (by omega))
      simpa [joinToks_cons] using this

theorem values_cases (vs : List (Expr Q)) (tss : List (List (Tok Q))) :
    (∃ q, vs = [.subq q] ∧ values vs tss = [.atom (.subq q)]) ∨ values vs tss = bracket (joinToks .comma tss) := by
  unfold values
  split
  · exact .inl ⟨_, rfl, rfl⟩
  · exact .inr rfl

theorem denoteAll_congr {V : Type} {M : Meaning Q V} {es vs : List (Expr Q)} (h : es.map (denote M) = vs.map (denote M)) :
    denoteAll M es = denoteAll M vs := by rw [denoteAll_map, denoteAll_map, h]

theorem good_in {e : Expr Q} {vs : List (Expr Q)} (he : Good e) (oe : isOperand e = true) (h0 : vs ≠ []) (hv : ∀ c ∈ vs, Good c) :
    Good (.inP e vs) := by
  obtain ⟨ta, a1, a2⟩ := he.op4 oe
  rcases values_cases vs (printAll vs) with ⟨q, rfl, hq⟩ | hq
  · refine Good.ofSingle (t := .inP ta [.subq q]) ?_ (fun V M => ?_) rfl
    · rw [print, hq]
      exact (Reads.inQ a1).upTo (by omega) (by omega)
    · rw [denote, denote, a2 V M]
  · obtain ⟨es, h1, h2⟩ := args_read vs h0 hv
    refine Good.ofSingle (t := .inP ta es) ?_ (fun V M => ?_) rfl
    · rw [print, hq]
      exact (Reads.inL a1 h1).upTo (by omega) (by omega)
    · rw [denote, denote, a2 V M, denoteAll_congr (h2 V M)]

theorem good_notIn {e : Expr Q} {vs : List (Expr Q)} (he : Good e) (oe : isOperand e = true) (h0 : vs ≠ []) (hv : ∀ c ∈ vs, Good c) :
    Good (.compound .not [.inP e vs]) := by
  obtain ⟨ta, a1, a2⟩ := he.op4 oe
  rcases values_cases vs (printAll vs) with ⟨q, rfl, hq⟩ | hq
  · refine Good.ofSingle (t := .compound .not [.inP ta [.subq q]]) ?_ (fun V M => ?_) rfl
    · rw [print, hq]
      exact (Reads.notInQ a1).upTo (by omega) (by omega)
    · rw [denote, denote, denote, denote, a2 V M]
  · obtain ⟨es, h1, h2⟩ := args_read vs h0 hv
    refine Good.ofSingle (t := .compound .not [.inP ta es]) ?_ (fun V M => ?_) rfl
    · rw [print, hq]
      exact (Reads.notInL a1 h1).upTo (by omega) (by omega)
    · rw [denote, denote, denote, denote, a2 V M, denoteAll_congr (h2 V M)]

theorem good_unary {e : Expr Q} (he : Good e) : Good (.unary e none) := by
  have hp : print (.unary e none) = print e := by rw [print]
  have hd : ∀ (V : Type) (M : Meaning Q V), denote M (.unary e none) = denote M e := fun V M => by rw [denote]
  obtain ⟨l, h1, h2⟩ := he.conj
  refine ⟨⟨l, by rw [hp]; exact h1, fun V M => by rw [hd, h2]⟩, fun hl => ?_, fun h => ?_, fun h => ?_⟩
  · rw [looksAnd] at hl
    obtain ⟨t, h3, h4⟩ := he.single hl
    exact ⟨t, by rw [hp]; exact h3, fun V M => by rw [hd, h4 V M]⟩
  · simp [isOperand, isLeaf] at h
  · simp [isOperand, isLeaf] at h

theorem good_not {c : Expr Q} (hc : Good c) (hl : looksAnd c = false) (hi : ∀ e vs, c ≠ .inP e vs) : Good (.compound .not [c]) := by
  obtain ⟨t, h1, h2⟩ := hc.single hl
  refine Good.ofSingle (t := .compound .not [t]) ?_ (fun V M => ?_) rfl
  · rw [print]
    · exact .not h1
    · intro e vs h
      simp only [List.cons.injEq, and_true] at h
      exact hi e vs h
  · rw [denote, denote, h2 V M]

theorem all_flatten {V : Type} (M : Meaning Q V) (ls : List (List V)) (a : List V) :
    M.allF (a ++ ls.map M.allF) = M.allF (a ++ ls.flatten) := by
  induction ls generalizing a with
  | nil => rfl
  | cons l ls ih =>
    rw [List.map_cons, M.all_flat]
    rw [ih]
    simp

theorem conj_read (cs : List (Expr Q)) (h0 : cs ≠ []) (h : ∀ c ∈ cs, Good c) :
    ∃ l, Reads .conj (joinToks .andT (printAll cs)) l ∧
      ∀ (V : Type) (M : Meaning Q V), ∃ ls : List (List V), l.map (denote M) = ls.flatten ∧ ls.map M.allF = cs.map (denote M) := by
  induction cs using List.reverseRecOn with
  | nil => exact absurd rfl h0
  | append_singleton l c ih =>
    obtain ⟨t, h1, h2⟩ := (h c (by simp)).conj
    rcases l with _ | ⟨x, l⟩
    · refine ⟨t, ?_, fun V M => ⟨[t.map (denote M)], by simp, by simp [h2]⟩⟩
      simp only [List.nil_append, printAll, joinToks]
      exact h1
    · obtain ⟨es, h3, h4⟩ := ih (by simp) (fun c hc => h c (by simp only [List.mem_append]; exact .inl hc))
      refine ⟨es ++ t, ?_, fun V M => ?_⟩
      · rw [printAll_map] at h3 ⊢
        have := Reads.conj_append h3 h1
        simpa [joinToks_cons] using this
      · obtain ⟨ls, h5, h6⟩ := h4 V M
        refine ⟨ls ++ [t.map (denote M)], by simp [h5], ?_⟩
        rw [List.map_append, h6]
        simp [h2]

theorem good_and {cs : List (Expr Q)} (h0 : cs ≠ []) (h : ∀ c ∈ cs, Good c) : Good (.compound .and cs) := by
  obtain ⟨l, h1, h2⟩ := conj_read cs h0 h
  refine ⟨⟨l, by rw [print]; exact h1, fun V M => ?_⟩, fun h => by simp [looksAnd] at h, fun h => by simp [isOperand, isLeaf] at h,
    fun h => by simp [isOperand, isLeaf] at h⟩
  obtain ⟨ls, h5, h6⟩ := h2 V M
  have := all_flatten M ls []
  simp only [List.nil_append] at this
  rw [h5, denote, denoteAll_map, ← h6, this]

/-- The text of a part of a disjunction. -/
def partText (c : Expr Q) : List (Tok Q) := if isCompound c then bracket (print c) else print c

theorem parts_eq (cs : List (Expr Q)) :
    List.zipWith (fun c ts => if isCompound c then bracket ts else ts) cs (printAll cs) = cs.map partText := by
  induction cs with
  | nil => rfl
  | cons c cs ih => rw [printAll, List.zipWith_cons_cons, ih]; rfl

theorem disj_read (cs : List (Expr Q)) (h0 : cs ≠ []) (h : ∀ c ∈ cs, Good c) :
    ∃ l, Reads .disj (joinToks .orT (cs.map partText)) l ∧ l.length = cs.length ∧
      ∀ (V : Type) (M : Meaning Q V), l.map (denote M) = cs.map (denote M) := by
  induction cs using List.reverseRecOn with
  | nil => exact absurd rfl h0
  | append_singleton l c ih =>
    obtain ⟨t, h1, h2⟩ : ∃ t, Reads (.lvl 9) (partText c) [t] ∧ Same t c := by
      unfold partText
      split
      · obtain ⟨t, h1, h2⟩ := (h c (by simp)).bracketed
        exact ⟨t, h1.upTo (by omega) (by omega), h2⟩
      · exact (h c (by simp)).top
    rcases l with _ | ⟨x, l⟩
    · refine ⟨[t], ?_, rfl, fun V M => by simp [h2 V M]⟩
      simp only [List.nil_append, List.map_cons, List.map_nil, joinToks]
      exact .disj1 h1
    · obtain ⟨es, h3, hlen, h4⟩ := ih (by simp) (fun c hc => h c (by simp only [List.mem_append]; exact .inl hc))
      refine ⟨es ++ [t], ?_, by simp [hlen], fun V M => by rw [List.map_append, List.map_append, h4 V M]; simp [h2 V M]⟩
      have := Reads.disjS h3 h1
      simpa [joinToks_cons] using this

theorem good_or {cs : List (Expr Q)} (h0 : 2 ≤ cs.length) (h : ∀ c ∈ cs, Good c) : Good (.compound .or cs) := by
  obtain ⟨l, h1, h2, h3⟩ := disj_read cs (by rintro rfl; simp at h0) h
  refine Good.ofSingle (t := .compound .or l) ?_ (fun V M => ?_) rfl
  · rw [print, parts_eq]
    exact (Reads.paren (.or h1 (by omega))).upTo (by omega) (by omega)
  · rw [denote, denote, denoteAll_congr (h3 V M)]

theorem good_of_fine' {e : Expr Q} (h : Fine e) :
    Good e ∧ ∀ x vs, e = .inP x vs → Good x ∧ isOperand x = true ∧ vs ≠ [] ∧ ∀ c ∈ vs, Good c := by
  induction h with
  | leaf h => exact ⟨good_leaf h, by rintro x vs rfl; simp [isLeaf] at h⟩
  | sign h1 h2 h3 => exact ⟨good_sign h1 h2 h3, by simp⟩
  | math _ _ o1 o2 l r i1 i2 => exact ⟨good_math i1.1 i2.1 o1 o2 l r, by simp⟩
  | nary _ _ i1 i2 => exact ⟨good_nary i1.1 (fun c hc => (i2 c hc).1), by simp⟩
  | cmp h _ _ o1 o2 i1 i2 => exact ⟨good_cmp h i1.1 i2.1 o1 o2, by simp⟩
  | other h _ _ o1 o2 hc i1 i2 => exact ⟨good_other h i1.1 i2.1 o1 o2 hc, by simp⟩
  | between _ _ _ o1 o2 o3 i1 i2 i3 => exact ⟨good_between i1.1 i2.1 i3.1 o1 o2 o3, by simp⟩
  | inP _ o h0 _ i1 i2 =>
    refine ⟨good_in i1.1 o h0 (fun c hc => (i2 c hc).1), ?_⟩
    intro x vs h
    cases h
    exact ⟨i1.1, o, h0, fun c hc => (i2 c hc).1⟩
  | unary _ i => exact ⟨good_unary i.1, by simp⟩
  | not hf hl i =>
    rename_i c
    refine ⟨?_, by simp⟩
    by_cases hi : ∃ e vs, c = .inP e vs
    · obtain ⟨e, vs, rfl⟩ := hi
      obtain ⟨h1, h2, h3, h4⟩ := i.2 e vs rfl
      exact good_notIn h1 h2 h3 h4
    · exact good_not i.1 hl (fun e vs he => hi ⟨e, vs, he⟩)
  | and h0 _ i => exact ⟨good_and (by rintro rfl; simp at h0) (fun c hc => (i c hc).1), by simp⟩
  | or h0 _ i => exact ⟨good_or h0 (fun c hc => (i c hc).1), by simp⟩

/-! ### C110 -/

/-- **C110 (partial)**: the text of an expression can be read by the precedence rules of SQL, in exactly one way, and what is read has the same
meaning as the expression. Missing: expressions that are not `Fine`; their text may have a different meaning, as the theorems below show. -/
theorem C110_text_partial {e : Expr Q} (h : Fine e) :
    ∃ t, Reads (.lvl 10) (print e) [t] ∧ (∀ t', Reads (.lvl 10) (print e) [t'] → t' = t) ∧
      ∀ (V : Type) (M : Meaning Q V), denote M t = denote M e := by
  obtain ⟨t, h1, h2⟩ := (good_of_fine' h).1.top
  have h3 := h1.upTo (n := 10) (by omega) (by omega)
  exact ⟨t, h3, fun t' ht => reads_unique ht h3, h2⟩

/-- **C110**: two expressions with the same text that are both printed correctly have the same meaning. -/
theorem C110_same_text_partial {e e' : Expr Q} (h : Fine e) (h' : Fine e') (he : print e = print e') {V : Type} (M : Meaning Q V) :
    denote M e = denote M e' := by
  obtain ⟨t, h1, h2, h3⟩ := C110_text_partial h
  obtain ⟨t', h1', h2', h3'⟩ := C110_text_partial h'
  rw [← h3, ← h3', h2' t (he ▸ h1)]

section examples

/-- Integer arithmetic. The value of a column is its number, truth is 1. -/
def arith : Meaning Unit Int where
  atom e := match e with
    | .static (.num n) => n
    | .col c => c.name
    | _ => 0
  math op a b := match op with
    | .add => a + b
    | .sub => a - b
    | .mul => a * b
    | .div => a / b
    | .mod => a % b
    | .concat => a
  sign op a := if op = .sub then -a else a
  cmp op a b := match op with
    | .eq => if a = b then 1 else 0
    | .lt => if a < b then 1 else 0
    | _ => 0
  between a l u := if l ≤ a ∧ a ≤ u then 1 else 0
  isIn a vs := if a ∈ vs then 1 else 0
  notF a := if a = 0 then 1 else 0
  allF := List.prod
  anyF l := if ∃ a ∈ l, a ≠ 0 then 1 else 0
  assoc := by rintro op (rfl | rfl | rfl) a b c <;> simp [Int.add_assoc, Int.mul_assoc]
  negative := by intro n _; simp
  all_one := by simp
  all_flat := by intro a b c; simp [mul_assoc]

def cl (n : Nat) : Expr Unit := .col ⟨none, n⟩

/-- `2 * 3 * (4 - 1) = -5 OR NOT c7 IN (1, 2 + 3 * 4) AND c1 BETWEEN 1 AND 3 + 4` is printed correctly. -/
def fineEx : Expr Unit :=
  .compound .or [.binary .eq (.math .mul (cl 2) [.math .mul (cl 3) [.math .sub (cl 4) [cl 1]]]) (.static (.num (-5))),
    .compound .and [.compound .not [.inP (cl 7) [cl 1, .math .add (cl 2) [.math .mul (cl 3) [cl 4]]]],
      .between (cl 1) (.static (.num 1)) (.math .add (cl 3) [cl 4])]]

theorem fine_cl (n : Nat) : Fine (cl n) := .leaf rfl

theorem fineEx_fine : Fine fineEx := by
  refine .or (by simp) ?_
  have hadd : Fine (.math .add (cl 3) [cl 4]) := .math (fine_cl _) (fine_cl _) rfl rfl rfl rfl
  have hmul : Fine (.math .mul (cl 3) [cl 4]) := .math (fine_cl _) (fine_cl _) rfl rfl rfl rfl
  have hsub : Fine (.math .sub (cl 4) [cl 1]) := .math (fine_cl _) (fine_cl _) rfl rfl rfl rfl
  simp only [List.forall_mem_cons]
  refine ⟨.cmp (by simp [cmpLevel]) (.math (fine_cl _) (.math (fine_cl _) hsub rfl rfl rfl rfl) rfl rfl rfl rfl) (.leaf rfl) rfl rfl, ?_, by simp⟩
  refine .and (by simp) ?_
  simp only [List.forall_mem_cons]
  refine ⟨.not (.inP (fine_cl _) rfl (by simp) ?_) rfl, .between (fine_cl _) (.leaf rfl) hadd rfl rfl rfl, by simp⟩
  simp only [List.forall_mem_cons]
  exact ⟨fine_cl _, .math (fine_cl _) hmul rfl rfl rfl rfl, by simp⟩

example : ∃ t, Reads (.lvl 10) (print fineEx) [t] ∧ denote arith t = 1 := by
  obtain ⟨t, h1, _, h2⟩ := C110_text_partial fineEx_fine
  refine ⟨t, h1, ?_⟩
  rw [h2]
  simp [fineEx, cl, denote, denoteAll, arith]

/-- A two-step derivation: `a op b op' c` read as `(a op b) op' c` or `a op (b op' c)`. -/
theorem reads_cl (k n : Nat) (h : n ≤ 10) : Reads (.lvl n) [.atom (cl k)] [cl k] := Reads.upTo (.atom _) (by omega) h

/-- **C110 violated**: `(a + b) * c` is printed as `a + b * c`, which means `a + (b * c)`. The same holds for `(a + b) % c` and `(a - b) / c`. -/
theorem C110_product_of_sum_violated :
    ∃ e t : Expr Unit, e = .math .mul (.math .add (cl 5) [cl 3]) [cl 2] ∧ Reads (.lvl 10) (print e) [t] ∧
      t = .math .add (cl 5) [.math .mul (cl 3) [cl 2]] ∧ denote arith t = 11 ∧ denote arith e = 16 := by
  refine ⟨_, _, rfl, ?_, rfl, by decide +kernel, by decide +kernel⟩
  exact (Reads.math (n := 2) (l := [.atom (cl 5)]) (r := [.atom (cl 3), .mop .mul, .atom (cl 2)]) rfl (reads_cl _ _ (by omega))
    (.math (n := 1) (l := [.atom (cl 3)]) rfl (reads_cl _ _ (by omega)) (reads_cl _ _ (by omega)))).upTo (by omega) (by omega)

theorem C110_quotient_of_difference_violated :
    ∃ e t : Expr Unit, e = .math .div (.math .sub (cl 9) [cl 3]) [cl 2] ∧ Reads (.lvl 10) (print e) [t] ∧
      t = .math .sub (cl 9) [.math .div (cl 3) [cl 2]] ∧ denote arith t = 8 ∧ denote arith e = 3 := by
  refine ⟨_, _, rfl, ?_, rfl, by decide +kernel, by decide +kernel⟩
  exact (Reads.math (n := 2) (l := [.atom (cl 9)]) (r := [.atom (cl 3), .mop .div, .atom (cl 2)]) rfl (reads_cl _ _ (by omega))
    (.math (n := 1) (l := [.atom (cl 3)]) rfl (reads_cl _ _ (by omega)) (reads_cl _ _ (by omega)))).upTo (by omega) (by omega)

/-- **C110 violated**: `a - (b - c)` is printed as `a - b - c`, which means `(a - b) - c`. The same holds for divisions. -/
theorem C110_difference_of_difference_violated :
    ∃ e t : Expr Unit, e = .math .sub (cl 9) [.math .sub (cl 4) [cl 1]] ∧ Reads (.lvl 10) (print e) [t] ∧
      t = .math .sub (.math .sub (cl 9) [cl 4]) [cl 1] ∧ denote arith t = 4 ∧ denote arith e = 6 := by
  refine ⟨_, _, rfl, ?_, rfl, by decide +kernel, by decide +kernel⟩
  exact (Reads.math (n := 2) (l := [.atom (cl 9), .mop .sub, .atom (cl 4)]) rfl
    (.math (n := 2) (l := [.atom (cl 9)]) rfl (reads_cl _ _ (by omega)) (reads_cl _ _ (by omega))) (reads_cl _ _ (by omega))).upTo (by omega) (by omega)

/-- **C110 violated**: `a * (b % c)` is printed as `a * b % c`, which means `(a * b) % c`. -/
theorem C110_product_of_modulo_violated :
    ∃ e t : Expr Unit, e = .math .mul (cl 2) [.math .mod (cl 7) [cl 4]] ∧ Reads (.lvl 10) (print e) [t] ∧
      t = .math .mod (.math .mul (cl 2) [cl 7]) [cl 4] ∧ denote arith t = 2 ∧ denote arith e = 6 := by
  refine ⟨_, _, rfl, ?_, rfl, by decide +kernel, by decide +kernel⟩
  exact (Reads.math (n := 1) (l := [.atom (cl 2), .mop .mul, .atom (cl 7)]) rfl
    (.math (n := 1) (l := [.atom (cl 2)]) rfl (reads_cl _ _ (by omega)) (reads_cl _ _ (by omega))) (reads_cl _ _ (by omega))).upTo (by omega) (by omega)

/-- **C110 violated**: `-(a + b)` is printed as `-a + b`. -/
theorem C110_negated_sum_violated :
    ∃ e t : Expr Unit, e = .math .sub (.math .add (cl 5) [cl 3]) [] ∧ Reads (.lvl 10) (print e) [t] ∧
      t = .math .add (.math .sub (cl 5) []) [cl 3] ∧ denote arith t = -2 ∧ denote arith e = -8 := by
  refine ⟨_, _, rfl, ?_, rfl, by decide +kernel, by decide +kernel⟩
  exact (Reads.math (n := 2) (l := [.mop .sub, .atom (cl 5)]) rfl
    ((Reads.sign (.inr rfl) (reads_cl 5 1 (by omega))).upTo (by omega) (by omega)) (reads_cl _ _ (by omega))).upTo (by omega) (by omega)

/-- **C110 violated**: `NOT (a AND b)` is printed as `NOT a AND b`, which means `(NOT a) AND b`. -/
theorem C110_negated_conjunction_violated :
    ∃ e t : Expr Unit, e = .compound .not [.compound .and [cl 1, cl 0]] ∧ Reads (.lvl 10) (print e) [t] ∧
      t = .compound .and [.compound .not [cl 1], cl 0] ∧ denote arith t = 0 ∧ denote arith e = 1 := by
  refine ⟨_, _, rfl, ?_, rfl, by decide +kernel, by decide +kernel⟩
  exact (Reads.and (.conjS (ts := [.notT, .atom (cl 1)]) (.conj1 (.not (reads_cl 1 8 (by omega)))) (reads_cl 0 8 (by omega))) (by simp)).upTo (by omega)
    (by omega)

/-- Texts that can be read contain neither the start of a comment nor an unknown identifier. -/
theorem Reads.clean {k : Kind} {ts : List (Tok Q)} {l : List (Expr Q)} (h : Reads k ts l) : ∀ t ∈ ts, t ≠ .comment ∧ t ≠ .junk := by
  induction h <;> simp_all [or_imp, forall_and]

/-- **C110 violated**: the double negation of any expression whose text does not start with a hyphen, and the negation of a negative number, start a
comment. -/
theorem C110_double_negation_violated (e : Expr Q) :
    (∀ n : Int, n < 0 → e = .static (.num n) → ∀ k l, ¬ Reads k (print (.math .sub e [])) l) ∧
    ((∀ ts, print e ≠ .mop .sub :: ts) → ∀ k l, ¬ Reads k (print (.math .sub (.math .sub e []) [])) l) := by
  refine ⟨?_, ?_⟩
  · rintro n hn rfl k l h
    have := h.clean .comment (by simp [print, literal, hn, glue])
    simp at this
  · intro h0 k l h
    have hg : glue .sub (print e) = .mop .sub :: print e := by
      unfold glue
      split
      · rename_i ts hts; exact absurd hts (h0 ts)
      · rfl
    have := h.clean .comment (by rw [print, print, hg]; simp [glue])
    simp at this

/-- **C110 violated**: a unary predicate with an operator other than EXISTS is not printed as SQL. -/
theorem C110_unary_violated (e : Expr Q) (op : LogOp) (h : op ≠ .existsOp) (k : Kind) (l : List (Expr Q)) :
    ¬ Reads k (print (.unary e (some op))) l := by
  intro hr
  have := hr.clean .junk (by cases op <;> simp_all [print])
  simp at this

end examples

end PB.PrintProps
