import Verif.Model.HintQuery
import Verif.Props.Clauses

/-!
# Hinted queries (C245)
-/

set_option linter.unusedSimpArgs false
set_option linter.unusedSectionVars false

namespace PB.HintQueryProps

open PB.Clauses PB.ClausesProps PB.HintQuery

variable {R : Type} [DecidableEq R]

/-! ### Specification -/

/-- The same contents, up to the dialect of EXPLAIN and LIMIT clauses. -/
inductive SamePay : Pay R → Pay R → Prop
  | same (p) : SamePay p p
  | explain (d d' e) : SamePay (.explain d e) (.explain d' e)
  | limit (d d' l) : SamePay (.limit d l) (.limit d' l)

/-- The same clause, up to the dialect. -/
inductive SameClause : Option (Clause (Pay R)) → Option (Clause (Pay R)) → Prop
  | none : SameClause none none
  | some (k p p') : SamePay p p' → SameClause (some ⟨k, p⟩) (some ⟨k, p'⟩)

/-- Queries of the same class with the same clauses, up to the dialect, except for their hints. -/
def SameQuery (q q' : Query (Pay R)) : Prop :=
  q'.cls = q.cls ∧ ∀ s, s ≠ .hint → SameClause (q.get s) (q'.get s)

/-! ### Proofs -/

theorem SamePay.trans {a b c : Pay R} (h : SamePay a b) (h' : SamePay b c) : SamePay a c := by
  cases h <;> cases h' <;> constructor

theorem SameClause.trans {a b c : Option (Clause (Pay R))} (h : SameClause a b) (h' : SameClause b c) : SameClause a c := by
  cases h with
  | none => exact h'
  | some k p p' hp => cases h' with | some k p' p'' hp' => exact .some _ _ _ (hp.trans hp')

theorem SameClause.refl (a : Option (Clause (Pay R))) : SameClause a a := by
  cases a with
  | none => exact .none
  | some c => exact .some _ _ _ (.same _)

theorem SameClause.kind {a b : Option (Clause (Pay R))} (h : SameClause a b) : a.map (·.kind) = b.map (·.kind) := by
  cases h <;> rfl

theorem SameClause.isNone {a b : Option (Clause (Pay R))} (h : SameClause a b) : a = Option.none ↔ b = Option.none := by
  cases h <;> simp

theorem toPg_same (p : Pay R) : SamePay p (toPg p) := by
  cases p <;> constructor

/-- The class of a query follows from its clauses. -/
theorem cls_eq (q q' : Query (Pay R)) (hq : WF q) (hc : ClassFits q) (hq' : WF q') (hc' : ClassFits q')
    (h : ∀ s, s ≠ .hint → SameClause (q.get s) (q'.get s)) : q'.cls = q.cls := by
  have hset : q.cls = .set ↔ q'.cls = .set := by
    constructor
    · intro hs
      by_contra hn
      obtain ⟨⟨s, h1, h2, -⟩, -⟩ := hq.set hs
      have hsn : s ≠ .hint := by rintro rfl; simp [isSetSlot] at h1
      exact h2 ((h s hsn).isNone.2 ((hq'.plain hn).2 s h1))
    · intro hs
      by_contra hn
      obtain ⟨⟨s, h1, h2, -⟩, -⟩ := hq'.set hs
      have hsn : s ≠ .hint := by rintro rfl; simp [isSetSlot] at h1
      exact h2 ((h s hsn).isNone.1 ((hq.plain hn).2 s h1))
  have hk := (h .from_ (by simp)).kind
  rcases hc with e | ⟨e, f⟩ | ⟨e, c, f, g⟩ | ⟨e, c, f, g⟩
  · rw [e]; exact hset.1 e
  all_goals
    rcases hc' with e' | ⟨e', f'⟩ | ⟨e', c', f', g'⟩ | ⟨e', c', f', g'⟩
    · rw [hset.2 e'] at e; simp at e
  · rw [e, e']
  · exfalso
    rw [f'] at hk
    cases hf : q.get .from_ with
    | none => simp [hf] at hk
    | some d => simp [hf] at hk; rw [f d hf, g'] at hk; simp at hk
  · exfalso
    rw [f'] at hk
    cases hf : q.get .from_ with
    | none => simp [hf] at hk
    | some d => simp [hf] at hk; rw [f d hf, g'] at hk; simp at hk
  · exfalso
    rw [f] at hk
    cases hf : q'.get .from_ with
    | none => simp [hf] at hk
    | some d => simp [hf] at hk; rw [f' d hf, g] at hk; simp at hk
  · rw [e, e']
  · exfalso; rw [f, f'] at hk; simp [g, g'] at hk
  · exfalso
    rw [f] at hk
    cases hf : q'.get .from_ with
    | none => simp [hf] at hk
    | some d => simp [hf] at hk; rw [f' d hf, g] at hk; simp at hk
  · exfalso; rw [f, f'] at hk; simp [g, g'] at hk
  · rw [e, e']

/-- Replacing the clause of a slot by its Postgres version. -/
theorem replace_spec (q : Query (Pay R)) (hq : WF q) (s : Slot) (hs : s = .explain ∨ s = .limit) (c : Clause (Pay R)) (hc : q.get s = some c) :
    ∃ q', replaceClause q [⟨c.kind, toPg c.payload⟩] = some q' ∧ WF q' ∧ ClassFits q' ∧
      q'.get s = some ⟨c.kind, toPg c.payload⟩ ∧ ∀ t, t ≠ s → q'.get t = q.get t := by
  obtain ⟨q', h1, h2, h3, h4⟩ := C42_replace q hq [⟨c.kind, toPg c.payload⟩]
  refine ⟨q', h1, h2, h3, ?_, ?_⟩
  · rcases (h4 s).2 c hc with ⟨r, hr, -, h⟩ | ⟨h, -⟩
    · simp at hr; subst hr; exact h
    · exact absurd (show Replaces ⟨c.kind, toPg c.payload⟩ c from Or.inl rfl) (h _ (List.mem_singleton.2 rfl))
  · intro t ht
    have hk : sortOf c.kind = s := hq.kinds s c hc
    cases ht' : q.get t with
    | none => exact (h4 t).1 ht'
    | some d =>
      have hd := hq.kinds t d ht'
      rcases (h4 t).2 d ht' with ⟨r, hr, hrep, h⟩ | ⟨-, h⟩
      · exfalso
        simp at hr; subst hr
        rcases hrep with e | ⟨e, e'⟩
        · simp only at e
          rw [e] at hk
          exact ht (hd.symm.trans hk)
        · simp only at e'
          rcases e' with e' | e' <;> rw [e'] at hk <;> rcases hs with rfl | rfl <;> simp [sortOf] at hk
      · exact h

theorem adapt_spec (q : Query (Pay R)) (hq : WF q) (hc : ClassFits q) (s : Slot) (hs : s = .explain ∨ s = .limit) :
    ∃ q', adapt s q = some q' ∧ WF q' ∧ ClassFits q' ∧ (∀ t, t ≠ s → q'.get t = q.get t) ∧
      (q.get s = none → q'.get s = none) ∧ ∀ c, q.get s = some c → q'.get s = some ⟨c.kind, toPg c.payload⟩ := by
  unfold adapt
  cases h : q.get s with
  | none => exact ⟨q, rfl, hq, hc, fun _ _ => rfl, fun _ => h, by simp⟩
  | some c =>
    simp only
    by_cases hp : isPg c.payload = true
    · rw [if_pos hp]
      refine ⟨q, rfl, hq, hc, fun _ _ => rfl, by simp, ?_⟩
      rintro d ⟨rfl⟩
      rw [h]
      obtain ⟨k, p⟩ := c
      cases p with
      | explain d e => cases d <;> simp [isPg, toPg] at hp ⊢
      | limit d l => cases d <;> simp [isPg, toPg] at hp ⊢
      | _ => simp [isPg] at hp
    · rw [if_neg hp]
      obtain ⟨q', h1, h2, h3, h4, h5⟩ := replace_spec q hq s hs c h
      exact ⟨q', h1, h2, h3, h5, by simp, by rintro d ⟨rfl⟩; exact h4⟩

theorem add_spec (q : Query (Pay R)) (hq : WF q) (prep hints : String) :
    ∃ q', addClause q [⟨.hint, .hint prep hints⟩] = some q' ∧ WF q' ∧ ClassFits q' ∧
      q'.get .hint = some ⟨.hint, .hint prep hints⟩ ∧ ∀ s, s ≠ .hint → q'.get s = q.get s := by
  obtain ⟨q', h1, h2, h3, h4⟩ := C42_add_partial q hq [⟨.hint, .hint prep hints⟩] (by intro c hc; simp at hc; subst hc; simp [sortOf, isSetSlot, isOuterSlot])
  refine ⟨q', h1, h2, h3, (h4 .hint).1 _ ⟨[], [], rfl, rfl, by simp⟩, fun s hs => (h4 s).2 ?_⟩
  intro c hc
  simp at hc; subst hc
  exact fun h => hs h.symm

/-! ### C245 -/

/-- C245 (partial: `C245_earlier_violated`). A query with hints for Postgres is the same query except for the hints, with EXPLAIN and
LIMIT clauses of Postgres. -/
theorem C245_postgres_partial (q : Query (Pay R)) (hq : WF q) (hc : ClassFits q) (prep hints : String) :
    ∃ q', pgQuery q prep hints = some q' ∧ SameQuery q q' ∧ q'.get .hint = some ⟨.hint, .hint prep hints⟩ ∧
      (∀ d e, q.get .explain = some ⟨.explain, .explain d e⟩ → q'.get .explain = some ⟨.explain, .explain .postgres e⟩) ∧
      (∀ d l, q.get .limit = some ⟨.limit, .limit d l⟩ → q'.get .limit = some ⟨.limit, .limit .postgres l⟩) := by
  obtain ⟨q1, a1, a2, a3, a4, a5, a6⟩ := adapt_spec q hq hc .explain (Or.inl rfl)
  obtain ⟨q2, b1, b2, b3, b4, b5, b6⟩ := adapt_spec q1 a2 a3 .limit (Or.inr rfl)
  obtain ⟨q3, c1, c2, c3, c4, c5⟩ := add_spec q2 b2 prep hints
  have he : ∀ t : Slot, t = .explain ∨ t = .limit ∨ (t ≠ .explain ∧ t ≠ .limit) := by intro t; cases t <;> simp
  have hget : ∀ s, s ≠ .hint → SameClause (q.get s) (q3.get s) := by
    intro s hs
    rw [c5 s hs]
    rcases he s with rfl | rfl | ⟨h1, h2⟩
    · rw [b4 _ (by simp)]
      cases h : q.get .explain with
      | none => rw [a5 h]; exact .none
      | some c => rw [a6 c h]; exact .some _ _ _ (toPg_same _)
    · cases h : q.get .limit with
      | none => rw [b5 (by rw [a4 _ (by simp), h])]; exact .none
      | some c => rw [b6 c (by rw [a4 _ (by simp), h])]; exact .some _ _ _ (toPg_same _)
    · rw [b4 _ h2, a4 _ h1]; exact .refl _
  refine ⟨q3, by simp [pgQuery, a1, b1, c1], ⟨cls_eq q q3 hq hc c2 c3 hget, hget⟩, c4, ?_, ?_⟩
  · intro d e h
    rw [c5 _ (by simp), b4 _ (by simp), a6 _ h]; rfl
  · intro d l h
    rw [c5 _ (by simp), b6 ⟨.limit, .limit d l⟩ (by rw [a4 _ (by simp), h])]; rfl

/-- C245 (partial: `C245_earlier_violated`). Hints for DuckDB: the same query except for the hints, with LIMIT clauses of Postgres.
Without hints for the given decisions, existing hints remain. -/
theorem C245_duckdb_partial (q : Query (Pay R)) (hq : WF q) (hc : ClassFits q) (block : Option (String × String)) :
    ∃ q', duckQuery q block = some q' ∧ SameQuery q q' ∧ q'.get .explain = q.get .explain ∧
      (∀ prep hints, block = some (prep, hints) → q'.get .hint = some ⟨.hint, .hint prep hints⟩) ∧
      (block = none → q'.get .hint = q.get .hint) ∧
      (∀ d l, q.get .limit = some ⟨.limit, .limit d l⟩ → q'.get .limit = some ⟨.limit, .limit .postgres l⟩) := by
  obtain ⟨q1, a1, a2, a3, a4, a5, a6⟩ := adapt_spec q hq hc .limit (Or.inr rfl)
  have hget : ∀ s, SameClause (q.get s) (q1.get s) := by
    intro s
    by_cases hs : s = .limit
    · subst hs
      cases h : q.get .limit with
      | none => rw [a5 h]; exact .none
      | some c => rw [a6 c h]; exact .some _ _ _ (toPg_same _)
    · rw [a4 _ hs]; exact .refl _
  cases block with
  | none =>
    refine ⟨q1, by simp [duckQuery, a1], ⟨cls_eq q q1 hq hc a2 a3 fun s _ => hget s, fun s _ => hget s⟩, a4 _ (by simp), by simp, fun _ => a4 _ (by simp), ?_⟩
    intro d l h
    rw [a6 _ h]; rfl
  | some b =>
    obtain ⟨prep, hints⟩ := b
    obtain ⟨q3, c1, c2, c3, c4, c5⟩ := add_spec q1 a2 prep hints
    have hget' : ∀ s, s ≠ .hint → SameClause (q.get s) (q3.get s) := fun s hs => by rw [c5 s hs]; exact hget s
    refine ⟨q3, by simp [duckQuery, a1, c1], ⟨cls_eq q q3 hq hc c2 c3 hget', hget'⟩, by rw [c5 _ (by simp), a4 _ (by simp)], ?_, by simp, ?_⟩
    · rintro p h ⟨rfl, rfl⟩; exact c4
    · intro d l h
      rw [c5 _ (by simp), a6 _ h]; rfl

/-- C245 (partial: `C245_earlier_violated`). Hints for MySQL: the same query except for the hints. Without hints for the given
decisions, the query is unchanged. -/
theorem C245_mysql_partial (q : Query (Pay R)) (hq : WF q) (hc : ClassFits q) :
    mysqlQuery q none = some q ∧
    ∀ prep hints, ∃ q', mysqlQuery q (some (prep, hints)) = some q' ∧ SameQuery q q' ∧ (∀ s, s ≠ .hint → q'.get s = q.get s) ∧
      q'.get .hint = some ⟨.hint, .hint prep hints⟩ := by
  refine ⟨rfl, fun prep hints => ?_⟩
  obtain ⟨q3, c1, c2, c3, c4, c5⟩ := add_spec q hq prep hints
  have hget : ∀ s, s ≠ .hint → SameClause (q.get s) (q3.get s) := fun s hs => by rw [c5 s hs]; exact .refl _
  exact ⟨q3, c1, ⟨cls_eq q q3 hq hc c2 c3 hget, hget⟩, c5, c4⟩

/-- C245: the text for Postgres is that of the same query, with its hints, and an EXPLAIN clause of Postgres. -/
theorem C245_format (q : Query (Pay R)) (hq : WF q) (hc : ClassFits q) :
    ∃ q', pgFormatted q = some q' ∧ SameQuery q q' ∧ q'.get .hint = q.get .hint ∧
      (∀ d e, q.get .explain = some ⟨.explain, .explain d e⟩ → q'.get .explain = some ⟨.explain, .explain .postgres e⟩) := by
  unfold pgFormatted
  cases h : q.get .explain with
  | none => exact ⟨q, rfl, ⟨rfl, fun s _ => .refl _⟩, rfl, by simp⟩
  | some c =>
    obtain ⟨q', h1, h2, h3, h4, h5⟩ := replace_spec q hq .explain (Or.inl rfl) c h
    have hget : ∀ s, s ≠ .hint → SameClause (q.get s) (q'.get s) := by
      intro s _
      by_cases hs : s = .explain
      · subst hs; rw [h, h4]; exact .some _ _ _ (toPg_same _)
      · rw [h5 s hs]; exact .refl _
    refine ⟨q', h1, ⟨cls_eq q q' hq hc h2 h3 hget, hget⟩, h5 _ (by simp), ?_⟩
    rintro d e ⟨rfl⟩
    exact h4

/-- C245 is violated for queries that already have hints: no system keeps the earlier hints or their preparatory statements when new
hints are added. -/
theorem C245_earlier_violated (q : Query (Pay R)) (hq : WF q) (hc : ClassFits q) (p h p' h' : String) (hne : p ≠ p' ∨ h ≠ h')
    (_ho : q.get .hint = some ⟨.hint, .hint p h⟩) : ∀ q',
      pgQuery q p' h' = some q' ∨ duckQuery q (some (p', h')) = some q' ∨ mysqlQuery q (some (p', h')) = some q' →
      ∀ s, q'.get s ≠ some ⟨.hint, .hint p h⟩ := by
  intro q' hq' s hs
  have hh : q'.get .hint = some ⟨.hint, .hint p' h'⟩ ∧ WF q' := by
    obtain ⟨q1, a1, a2, a3, a4, a5, a6⟩ := adapt_spec q hq hc .explain (Or.inl rfl)
    rcases hq' with e | e | e
    · obtain ⟨q2, b1, b2, b3, b4, b5, b6⟩ := adapt_spec q1 a2 a3 .limit (Or.inr rfl)
      obtain ⟨q3, c1, c2, c3, c4, c5⟩ := add_spec q2 b2 p' h'
      simp [pgQuery, a1, b1, c1] at e
      subst e; exact ⟨c4, c2⟩
    · obtain ⟨q2, b1, b2, b3, b4, b5, b6⟩ := adapt_spec q hq hc .limit (Or.inr rfl)
      obtain ⟨q3, c1, c2, c3, c4, c5⟩ := add_spec q2 b2 p' h'
      simp [duckQuery, b1, c1] at e
      subst e; exact ⟨c4, c2⟩
    · obtain ⟨q3, c1, c2, c3, c4, c5⟩ := add_spec q hq p' h'
      simp [mysqlQuery, c1] at e
      subst e; exact ⟨c4, c2⟩
  have := hh.2.kinds s _ hs
  simp [sortOf] at this
  subst this
  rw [hh.1] at hs
  simp at hs
  rcases hne with e | e
  · exact e hs.1.symm
  · exact e hs.2.symm

/-- A query with a hint, an EXPLAIN and a LIMIT clause. -/
def qHint : Query (Pay Nat) := ⟨.implicit, fun s => match s with
  | .hint => some ⟨.hint, .hint "SET geqo = off;" ""⟩
  | .explain => some ⟨.explain, .explain .plain ⟨true, some "JSON"⟩⟩
  | .select => some ⟨.select, .other 1⟩
  | .from_ => some ⟨.fromImplicit, .other 2⟩
  | .limit => some ⟨.limit, .limit .plain ⟨some 10, none, "first"⟩⟩
  | _ => none⟩

theorem qHint_ok : WF qHint ∧ ClassFits qHint := by
  refine ⟨⟨?_, fun _ => ⟨⟨_, rfl⟩, ?_⟩, fun h => by cases h⟩, .inr (.inl ⟨rfl, ?_⟩)⟩
  · intro s c h; cases s <;> simp [qHint] at h <;> subst h <;> rfl
  · intro s h; cases s <;> simp [isSetSlot] at h <;> rfl
  · intro c h; simp [qHint] at h; subst h; rfl

example : ("SET geqo = off;" ≠ "" ∨ "" ≠ "/*=pg_lab= */") ∧ qHint.get .hint = some ⟨.hint, .hint "SET geqo = off;" ""⟩ := ⟨Or.inl (by decide), rfl⟩

/-! ### The texts -/

/-- C245 (partial: `C245_format_violated`). The EXPLAIN clause for Postgres lists the settings, the requested measurements and the
requested format. -/
theorem C245_explain_partial (analyze : Bool) (format : String) :
    pgExplainText ⟨analyze, some format⟩ =
      "EXPLAIN (" ++ ", ".intercalate (["SETTINGS"] ++ (if analyze then ["ANALYZE", "BUFFERS"] else []) ++ ["FORMAT " ++ format]) ++ ")" := by
  cases analyze <;> simp [pgExplainText, String.toList_intercalate, ← String.toList_inj, List.intercalate]

/-- C245 is violated for EXPLAIN clauses without format: the text has the unknown format `None`. -/
theorem C245_format_violated (analyze : Bool) : ∃ pre : String, pgExplainText ⟨analyze, none⟩ = pre ++ "FORMAT None)" := by
  cases analyze
  · exact ⟨"EXPLAIN (SETTINGS, ", by decide +kernel⟩
  · exact ⟨"EXPLAIN (SETTINGS, ANALYZE, BUFFERS, ", by decide +kernel⟩

/-- How Postgres reads LIMIT and OFFSET. -/
inductive Reads : String → Option Nat → Option Nat → Prop
  | nothing : Reads "" none none
  | limit (n) : Reads ("LIMIT " ++ toString n) (some n) none
  | offset (m) : Reads ("OFFSET " ++ toString m) none (some m)
  | both (n m) : Reads ("LIMIT " ++ toString n ++ " OFFSET " ++ toString m) (some n) (some m)

/-- The rows that are returned. -/
def window {α : Type} (limit offset : Option Nat) (rows : List α) : List α :=
  match limit with
  | some n => (rows.drop (offset.getD 0)).take n
  | none => rows.drop (offset.getD 0)

theorem reads_truthy (l : Limit) : Reads (pgLimitText l) (truthy l.limit) (truthy l.offset) := by
  unfold pgLimitText
  cases truthy l.limit <;> cases truthy l.offset <;> simp only <;> constructor

theorem window_offset {α : Type} (n o : Option Nat) (rows : List α) : window n (truthy o) rows = window n o rows := by
  rcases o with _ | _ | m <;> rfl

/-- C245 (partial: not for LIMIT 0). The text of LIMIT clauses for Postgres selects the same rows. -/
theorem C245_limit_partial (l : Limit) (h : l.limit ≠ some 0) :
    ∃ n m, Reads (pgLimitText l) n m ∧ ∀ (α : Type) (rows : List α), window n m rows = window l.limit l.offset rows := by
  refine ⟨_, _, reads_truthy l, fun α rows => ?_⟩
  rw [window_offset]
  rcases hl : l.limit with _ | _ | n
  · rfl
  · exact absurd hl h
  · rfl

/-- C245 is violated for LIMIT 0: instead of no row, all rows after the offset are returned. -/
theorem C245_limit_violated (offset : Option Nat) {α : Type} (rows : List α) (h : offset.getD 0 < rows.length) :
    ∃ m, Reads (pgLimitText ⟨some 0, offset, "first"⟩) none m ∧ window none m rows ≠ [] ∧ window (some 0) offset rows = [] := by
  refine ⟨_, reads_truthy ⟨some 0, offset, "first"⟩, ?_, ?_⟩
  · simp only [window_offset]
    intro hc
    simp only [window, List.drop_eq_nil_iff] at hc
    omega
  · simp [window]

example : (Limit.mk (some 10) (some 5) "first").limit ≠ some 0 ∧ (some 5 : Option Nat).getD 0 < [1, 2, 3, 4, 5, 6].length := by decide

end PB.HintQueryProps
