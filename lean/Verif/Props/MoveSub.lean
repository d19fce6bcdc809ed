import Mathlib.Data.Multiset.Bind
import Verif.Model.MoveSub
import Verif.Props.TransformPreds
import Verif.Props.Rename

set_option linter.unusedSimpArgs false
set_option linter.unusedVariables false
set_option linter.unusedSectionVars false
set_option linter.unnecessarySimpa false
set_option linter.unnecessarySeqFocus false

/-! Property C215: moving tables of a query into a subquery does not change its result. -/

namespace PB.MoveSubProps
open PB PB.Qal PB.Qal.Expr PB.ExprProps PB.PredProps PB.QueryPredsProps PB.TransformProps PB.RenameProps PB.Transform
  PB.MoveSub

variable {Q V : Type}

/-! ### Specification: the result of a query

A row of a table gives a value to each column name. A query combines the rows of the sources of its FROM clause in all
possible ways, keeps the combinations accepted by the WHERE predicate, and evaluates its expressions on each of them.
Results are multisets: duplicates count, the order does not. The meaning `A` of the operations, `S` of nested queries
and `B` of values as truth values, the values `env` of columns of enclosing queries and `null` of missing columns are
arbitrary. -/

abbrev Row (V : Type) := Nat → V

/-- One row for each table. -/
abbrev Rows (V : Type) := Tab → Row V

/-- All ways to choose a row of each source, starting from `b`. -/
def combos (b : Rows V) : List (Tab × Multiset (Row V)) → Multiset (Rows V)
  | [] => {b}
  | (t, M) :: l => M.bind fun r => combos (Function.update b t r) l

/-- An interpretation of the operations. -/
structure Interp (Q V : Type) where
  A : Expr Q → List V → V
  S : Q → (Col → V) → V
  B : V → Option Bool
  env : Nat → V
  null : V

/-- The value of a column in a combination of rows. -/
def Interp.col (J : Interp Q V) (a : Rows V) (c : Col) : V :=
  match c.tab with
  | none => J.env c.name
  | some t => a t c.name

/-- The value of an expression if the columns have the given values. -/
def Interp.value (J : Interp Q V) (row : Col → V) (e : Expr Q) : V := eval J.A J.S row e

/-- A predicate holds if the columns have the given values. -/
def Interp.Holds (J : Interp Q V) (row : Col → V) (p : Expr Q) : Prop := Accepts (fun e => J.B (J.value row e)) p

/-- The combinations that satisfy an (optional) WHERE predicate. -/
noncomputable def Interp.selected (J : Interp Q V) (srcs : List (Tab × Multiset (Row V))) (w : Option (Expr Q)) :
    Multiset (Rows V) :=
  open Classical in (combos (fun _ _ => J.null) srcs).filter fun a => ∀ p, w = some p → J.Holds (J.col a) p

/-- The row of a subquery: the values of the selected columns, under their names. -/
def Interp.output (J : Interp Q V) (cols : List Col) (a : Rows V) : Row V := fun n =>
  match cols.find? fun c => c.name == n with
  | some c => J.col a c
  | none => J.null

/-- Name and rows of a FROM item, as the database reads its text: a source held by another one is printed like the
held source (postbound/qal/_qal.py:6266). Explicit joins are not needed here. -/
noncomputable def Interp.source (J : Interp Q V) (D : Tab → Multiset (Row V)) : Item Q → Option (Tab × Multiset (Row V))
  | .table t => some (t, D t)
  | .nested i => J.source D i
  | .sub s => some (s.name, (J.selected (s.tables.map fun t => (t, D t)) s.where_).map (J.output s.cols))
  | .join _ => none

/-- The values of the expressions of the query, for each selected combination of rows. -/
noncomputable def Interp.answer (J : Interp Q V) (D : Tab → Multiset (Row V)) (q : Query Q) : Option (Multiset (List V)) :=
  (q.items.mapM (J.source D)).map fun srcs =>
    (J.selected srcs q.where_).map fun a => q.others.map (J.value (J.col a))

/-! ### Combinations of rows -/

theorem combos_append (b : Rows V) (l l' : List (Tab × Multiset (Row V))) :
    combos b (l ++ l') = (combos b l).bind fun a => combos a l' := by
  induction l generalizing b with
  | nil => simp [combos]
  | cons x l ih =>
    obtain ⟨t, M⟩ := x
    simp only [List.cons_append, combos, Multiset.bind_assoc]
    exact Multiset.bind_congr fun r _ => ih _

theorem combos_perm (b : Rows V) {l l' : List (Tab × Multiset (Row V))} (h : l.Perm l') (hn : (l.map Prod.fst).Nodup) :
    combos b l = combos b l' := by
  induction h generalizing b with
  | nil => rfl
  | cons x _ ih =>
    obtain ⟨t, M⟩ := x
    simp only [List.map_cons, List.nodup_cons] at hn
    exact Multiset.bind_congr fun r _ => ih _ hn.2
  | swap x y l =>
    obtain ⟨t, M⟩ := x
    obtain ⟨u, N⟩ := y
    simp only [List.map_cons, List.nodup_cons, List.mem_cons, not_or] at hn
    simp only [combos]
    rw [Multiset.bind_bind]
    refine Multiset.bind_congr fun r _ => Multiset.bind_congr fun r' _ => ?_
    rw [Function.update_comm hn.1.1]
  | trans h1 _ ih1 ih2 =>
    rw [ih1 b hn, ih2 b ((h1.map Prod.fst).nodup_iff.1 hn)]

theorem combos_other {b a : Rows V} {l : List (Tab × Multiset (Row V))} (h : a ∈ combos b l) (t : Tab)
    (ht : t ∉ l.map Prod.fst) : a t = b t := by
  induction l generalizing b with
  | nil => simp [combos] at h; rw [h]
  | cons x l ih =>
    obtain ⟨u, M⟩ := x
    simp only [List.map_cons, List.mem_cons, not_or] at ht
    simp only [combos, Multiset.mem_bind] at h
    obtain ⟨r, _, h⟩ := h
    rw [ih h ht.2, Function.update_of_ne ht.1]

/-- Rows of the given tables from `x`, all others from `a`. -/
def overlay (ts : List Tab) (a x : Rows V) : Rows V := fun t => if t ∈ ts then x t else a t

theorem combos_overlay (a b : Rows V) (l : List (Tab × Multiset (Row V))) :
    combos a l = (combos b l).map (overlay (l.map Prod.fst) a) := by
  induction l generalizing a b with
  | nil => simp only [combos, Multiset.map_singleton, Multiset.singleton_inj]; funext t; simp [overlay]
  | cons x l ih =>
    obtain ⟨u, M⟩ := x
    simp only [combos, Multiset.map_bind]
    refine Multiset.bind_congr fun r _ => ?_
    rw [ih (Function.update a u r) (Function.update b u r)]
    refine Multiset.map_congr rfl fun x hx => ?_
    funext t
    simp only [overlay, List.map_cons, List.mem_cons]
    by_cases h1 : t ∈ l.map Prod.fst
    · simp [h1]
    · by_cases h2 : t = u
      · subst h2
        simp only [h1, if_false, true_or, if_true]
        rw [combos_other hx t h1]; simp
      · simp [h1, h2]

/-! ### Evaluation -/

/-- There are no nested queries in the expression. -/
def NoSubq (e : Expr Q) : Prop := ∀ q, ¬ Sub (.subq q) e

theorem value_congr (J : Interp Q V) (r r' : Col → V) (e : Expr Q) (hq : NoSubq e)
    (h : ∀ c, Sub (.col c) e → r c = r' c) : J.value r e = J.value r' e := by
  unfold Interp.value
  induction e using Expr.ind with
  | h e ih =>
    by_cases hc : ∃ c, e = .col c
    · obtain ⟨c, rfl⟩ := hc; simp [eval, h c (.refl _)]
    · by_cases hs : ∃ q, e = .subq q
      · obtain ⟨q, rfl⟩ := hs; exact absurd (Sub.refl _) (hq q)
      · have hc1 : ∀ c, e ≠ .col c := by simpa using hc
        have hq1 : ∀ q, e ≠ .subq q := by simpa using hs
        rw [eval_other J.A J.S _ e hc1 hq1, eval_other J.A J.S _ e hc1 hq1]
        congr 1
        exact List.map_congr_left fun c hm => ih c hm (fun q hs => hq q (hs.trans (.of_mem hm)))
          fun d hd => h d (hd.trans (.of_mem hm))

theorem truth_congr {I I' : Expr Q → Option Bool} (e : Expr Q)
    (h : ∀ s, Sub s e → s.isCompound = false → I s = I' s) : truth I e = truth I' e := by
  induction e using Expr.ind with
  | h e ih =>
    by_cases he : e.isCompound = false
    · rw [truth_base I he, truth_base I' he, h e (.refl _) he]
    · cases e with
      | compound op cs =>
        have hm : (cs.map fun c => truth I c) = cs.map fun c => truth I' c :=
          List.map_congr_left fun c hc => ih c (by simpa [subs] using hc)
            fun s hs => h s (hs.trans (.of_mem (by simpa [subs] using hc)))
        cases op <;> simp only [truth, hm]
      | _ => simp [isCompound] at he

theorem holds_congr (J : Interp Q V) (r r' : Col → V) (p : Expr Q) (hq : NoSubq p)
    (h : ∀ c, Sub (.col c) p → r c = r' c) : J.Holds r p ↔ J.Holds r' p := by
  unfold Interp.Holds Accepts
  rw [truth_congr p fun s hs _ => congrArg J.B (value_congr J r r' s (fun q hs' => hq q (hs'.trans hs))
    fun c hc => h c (hc.trans hs))]

theorem value_mapCols (J : Interp Q V) (σ : Col → Col) (r : Col → V) (e : Expr Q) (hq : NoSubq e) :
    J.value r (mapCols σ id e) = J.value (fun c => r (σ c)) e := by
  unfold Interp.value
  induction e using Expr.ind with
  | h e ih =>
    by_cases hc : ∃ c, e = .col c
    · obtain ⟨c, rfl⟩ := hc; simp [mapCols, eval]
    · by_cases hs : ∃ q, e = .subq q
      · obtain ⟨q, rfl⟩ := hs; exact absurd (Sub.refl _) (hq q)
      · have hc1 : ∀ c, e ≠ .col c := by simpa using hc
        have hq1 : ∀ q, e ≠ .subq q := by simpa using hs
        rw [eval_other J.A J.S _ e hc1 hq1, eval_other J.A J.S _ (mapCols σ id e), blank_mapCols _ _ e hc1 hq1,
          subs_mapCols, List.map_map]
        · congr 1
          exact List.map_congr_left fun c hm => ih c hm fun q hs => hq q (hs.trans (.of_mem hm))
        · intro c h; cases e <;> simp [mapCols] at h; exact hc1 _ rfl
        · intro c h; cases e <;> simp [mapCols] at h; exact hq1 _ rfl

theorem isCompound_mapCols (σ : Col → Col) (e : Expr Q) : (mapCols σ id e).isCompound = e.isCompound := by
  cases e <;> simp [mapCols, isCompound]

theorem holds_mapCols (J : Interp Q V) (σ : Col → Col) (r : Col → V) (p : Expr Q) (hq : NoSubq p) :
    J.Holds r (mapCols σ id p) ↔ J.Holds (fun c => r (σ c)) p := by
  unfold Interp.Holds Accepts
  suffices h : truth (fun e => J.B (J.value r e)) (mapCols σ id p)
      = truth (fun e => J.B (J.value (fun c => r (σ c)) e)) p by rw [h]
  induction p using Expr.ind with
  | h e ih =>
    by_cases he : e.isCompound = false
    · rw [truth_base _ he, truth_base _ ((isCompound_mapCols σ e).trans he), value_mapCols J σ r e hq]
    · cases e with
      | compound op cs =>
        have hm : ((cs.map (mapCols σ id)).map fun c => truth (fun e => J.B (J.value r e)) c)
            = cs.map fun c => truth (fun e => J.B (J.value (fun c => r (σ c)) e)) c := by
          rw [List.map_map]
          exact List.map_congr_left fun c hc => ih c (by simpa [subs] using hc)
            fun q hs => hq q (hs.trans (.of_mem (by simpa [subs] using hc)))
        cases op <;> simp only [mapCols, mapColsL_eq, truth, hm]
      | _ => simp [isCompound] at he

/-! ### Removing several predicates -/

/-- The nodes of an expression are constructible and can be renamed. -/
def Fine (e : Expr Q) : Prop := ∀ s, Sub s e → builtNode s = true ∧ renNode s = true

theorem Fine.sub {s e : Expr Q} (h : Fine e) (hs : Sub s e) : Fine s := fun t ht => h t (ht.trans hs)

theorem Fine.built {e : Expr Q} (h : Fine e) : Built e := fun s hs => (h s hs).1

theorem sub_cases {s e : Expr Q} (h : Sub s e) : s = e ∨ ∃ c ∈ e.subs, Sub s c := by
  cases h with
  | refl => exact .inl rfl
  | step hc h => exact .inr ⟨_, hc, h⟩

/-- What remains of a predicate consists of parts of it, combined by AND, OR and NOT. -/
theorem remove_parts (eq : Expr Q → Bool) (e : Expr Q) (hf : Fine e) (r : Expr Q) (h : removePred eq e = some (some r)) :
    (e.isPred = true → r.isPred = true) ∧
      ∀ s, Sub s r → (Sub s e ∨ s.isCompound = true) ∧ builtNode s = true ∧ renNode s = true := by
  induction e using Expr.ind generalizing r with
  | h e ih =>
    rcases compound_cases e with he | ⟨op, cs, rfl⟩
    · rw [removePred_other eq he, Option.some.injEq] at h
      split at h
      · cases h
      · cases h; exact ⟨id, fun s hs => ⟨.inl hs, hf s hs⟩⟩
    · by_cases heq : eq (.compound op cs) = true
      · rw [removePred, if_pos heq] at h; cases h
      · obtain ⟨fs, h2, h3⟩ := removePred_compound eq op cs _ h (by simpa using heq)
        have hpr : ∀ c ∈ cs, c.isPred = true := by
          have := (hf _ (.refl _)).2
          simpa [renNode] using this
        have hch : ∀ f, some f ∈ fs → f.isPred = true ∧
            ∀ s, Sub s f → (Sub s (.compound op cs) ∨ s.isCompound = true) ∧ builtNode s = true ∧ renNode s = true := by
          intro f hfm
          obtain ⟨c, hc, hfc⟩ := forall₂_mem_right h2 _ hfm
          have hcs : c ∈ (Expr.compound op cs).subs := by simpa [subs] using hc
          obtain ⟨h4, h5⟩ := ih c hcs (hf.sub (.of_mem hcs)) f hfc
          refine ⟨h4 (hpr c hc), fun s hs => ?_⟩
          obtain ⟨h6, h7⟩ := h5 s hs
          exact ⟨h6.imp (fun h => h.trans (.of_mem hcs)) id, h7⟩
        have build : ∀ (op' : CompOp) (ds : List (Expr Q)), (∀ d ∈ ds, some d ∈ fs) →
            builtNode (.compound op' ds) = true → (Expr.compound op' ds).isPred = true ∧
            ∀ s, Sub s (.compound op' ds) →
              (Sub s (.compound op cs) ∨ s.isCompound = true) ∧ builtNode s = true ∧ renNode s = true := by
          intro op' ds hds hb
          refine ⟨by simp [isPred, isCompound, isBase], fun s hs => ?_⟩
          rcases sub_cases hs with rfl | ⟨d, hd, hs⟩
          · refine ⟨.inr rfl, hb, ?_⟩
            simp only [renNode, List.all_eq_true]
            exact fun d hd => (hch d (hds d hd)).1
          · exact (hch d (hds d (by simpa [subs] using hd))).2 s hs
        rcases h3 with ⟨hop, ⟨c', rfl, h3⟩ | ⟨rfl, h3⟩⟩ | ⟨hop, h3⟩
        · cases h3
          have := build .not [c'] (by simp) (by simp [builtNode])
          exact ⟨fun _ => this.1, this.2⟩
        · cases h3
        · match hfr : fs.reduceOption, h3 with
          | [], h3 => simp [collapse] at h3
          | [d], h3 =>
            simp [collapse] at h3; subst h3
            have hd : some d ∈ fs := by rw [← List.reduceOption_mem_iff, hfr]; simp
            exact ⟨fun _ => (hch d hd).1, (hch d hd).2⟩
          | d1 :: d2 :: ds, h3 =>
            have hb : builtNode (.compound op (d1 :: d2 :: ds)) = true := by
              cases op <;> simp [builtNode] at hop ⊢
            have hr : r = .compound op (d1 :: d2 :: ds) := by
              cases op <;> simp [collapse, mkCompound] at h3 hop ⊢ <;> exact h3.symm
            subst hr
            have := build op (d1 :: d2 :: ds) (fun d hd => by rw [← List.reduceOption_mem_iff, hfr]; exact hd) hb
            exact ⟨fun _ => this.1, this.2⟩

theorem remove_fine (eq : Expr Q → Bool) (e : Expr Q) (hf : Fine e) (r : Expr Q) (h : removePred eq e = some (some r)) :
    Fine r := fun s hs => ((remove_parts eq e hf r h).2 s hs).2

/-- If the predicate is not part of a conjunct, the remaining conjuncts are conjuncts of the original predicate. -/
theorem remove_conjuncts [DecidableEq Q] (t e : Expr Q) (hb : Built e)
    (hc : ∀ c ∈ conjuncts e, c ≠ t → ¬ BoolPart t c) (r : Expr Q)
    (h : removePred (fun p => decide (p = t)) e = some (some r)) : ∀ c ∈ conjuncts r, c ∈ conjuncts e := by
  induction e using Expr.ind generalizing r with
  | h e ih =>
    by_cases het : e = t
    · subst het
      rcases compound_cases e with he | ⟨op, cs, rfl⟩
      · rw [removePred_other _ he] at h; simp at h
      · rw [removePred] at h; simp at h
    · by_cases he : ∃ cs, e = .compound .and cs
      · obtain ⟨cs, rfl⟩ := he
        obtain ⟨fs, h2, h3⟩ := removePred_compound _ _ cs _ h (by simpa using het)
        rcases h3 with ⟨hop, _⟩ | ⟨_, h3⟩
        · cases hop
        have key : ∀ f, some f ∈ fs → ∀ c ∈ conjuncts f, c ∈ conjuncts (.compound .and cs) := by
          intro f hf c hcf
          obtain ⟨d, hd, hfd⟩ := forall₂_mem_right h2 _ hf
          have := ih d (by simpa [subs] using hd) (hb.sub (.of_mem (by simpa [subs] using hd)))
            (fun x hx => hc x (by simp only [conjuncts, List.mem_flatMap]; exact ⟨d, hd, hx⟩)) f hfd c hcf
          simp only [conjuncts, List.mem_flatMap]; exact ⟨d, hd, this⟩
        match hfr : fs.reduceOption, h3 with
        | [], h3 => simp [collapse] at h3
        | [d], h3 =>
          simp [collapse] at h3; subst h3
          exact key d (by rw [← List.reduceOption_mem_iff, hfr]; simp)
        | d1 :: d2 :: ds, h3 =>
          have hr : r = .compound .and (d1 :: d2 :: ds) := by
            simp [collapse, mkCompound] at h3 ⊢; exact h3.symm
          subst hr
          intro c hcr
          rw [conjuncts, List.mem_flatMap] at hcr
          obtain ⟨d, hd, hcd⟩ := hcr
          exact key d (by rw [← List.reduceOption_mem_iff, hfr]; exact hd) c hcd
      · have hnone := hc e (by rw [conjuncts_other (by simpa using he)]; simp) het
        rw [C40_remove_absent _ e hb (fun s hs => by
          simp only [decide_eq_false_iff_not]; rintro rfl; exact hnone hs), Option.some.injEq] at h
        cases h
        exact fun c hc => hc

theorem removeAll_none [DecidableEq Q] (ps : List (Expr Q)) : removeAll none ps = some none := by
  induction ps with
  | nil => rfl
  | cons p ps ih => rw [removeAll, ih]

/-- Removing predicates that are implied by the original predicate, and that are not parts of its conjuncts. -/
theorem removeAll_spec [DecidableEq Q] (ps : List (Expr Q)) (e : Expr Q) (hf : Fine e)
    (hc : ∀ t ∈ ps, ∀ c ∈ conjuncts e, c ≠ t → ¬ BoolPart t c) :
    ∃ r, removeAll (some e) ps = some r ∧
      (∀ I, Accepts I e → ∀ f, r = some f → Accepts I f) ∧
      (∀ I, (∀ f, r = some f → Accepts I f) → (∀ t ∈ ps, Accepts I t) → Accepts I e) ∧
      ∀ f, r = some f → Fine f ∧ ∀ s, Sub s f → Sub s e ∨ s.isCompound = true := by
  induction ps generalizing e with
  | nil =>
    refine ⟨some e, rfl, fun I h f hf => by cases hf; exact h, fun I h _ => h e rfl, ?_⟩
    intro f hfe; cases hfe; exact ⟨hf, fun s hs => .inl hs⟩
  | cons t ps ih =>
    obtain ⟨r1, hr1⟩ := C40_remove_total (fun p => decide (p = t)) e hf.built
    have hacc := fun I => C40_remove_conjunct_partial t e hf.built (hc t (by simp)) r1 hr1 I
    rw [removeAll, hr1, Option.bind_some]
    cases r1 with
    | none =>
      refine ⟨none, removeAll_none ps, by simp, ?_, by simp⟩
      intro I _ h
      exact (hacc I).2 ⟨by simp, fun _ => h t (by simp)⟩
    | some f1 =>
      have hcj := remove_conjuncts t e hf.built (hc t (by simp)) f1 hr1
      obtain ⟨r, h1, h2, h3, h4⟩ := ih f1 (remove_fine _ e hf f1 hr1)
        fun t' ht' c hcf => hc t' (by simp [ht']) c (hcj c hcf)
      refine ⟨r, h1, ?_, ?_, ?_⟩
      · intro I ha f hrf
        exact h2 I (((hacc I).1 ha).1 f1 rfl) f hrf
      · intro I ha hps
        refine (hacc I).2 ⟨?_, fun _ => hps t (by simp)⟩
        intro f hf1; cases hf1
        exact h3 I ha fun t' ht' => hps t' (by simp [ht'])
      · intro f hrf
        obtain ⟨h5, h6⟩ := h4 f hrf
        refine ⟨h5, fun s hs => ?_⟩
        rcases h6 s hs with h | h
        · exact ((remove_parts _ e hf f1 hr1).2 s h).1
        · exact .inr h

/-! ### The moved predicates -/

/-- `t` is a conjunction of the predicates in `g`. -/
structure AndOf (g : List (Expr Q)) (t : Expr Q) : Prop where
  ne : g ≠ []
  part : ∀ p ∈ g, Part p t
  acc : ∀ I, Accepts I t ↔ ∀ p ∈ g, Accepts I p
  subs : ∀ s, Sub s t → (∃ p ∈ g, Sub s p) ∨ s.isCompound = true

theorem AndOf.one (p : Expr Q) : AndOf [p] p where
  ne := by simp
  part := by simp [Part.refl]
  acc := by simp
  subs := fun s hs => .inl ⟨p, by simp, hs⟩

theorem AndOf.create {l : List (Expr Q)} {t : Expr Q} (h : createAnd l = some t) (P : Expr Q → Prop)
    (hl : ∀ e ∈ l, ∃ g, AndOf g e ∧ ∀ p ∈ g, P p) : ∃ g, AndOf g t ∧ ∀ p ∈ g, P p := by
  choose! g hg hP using hl
  refine ⟨l.flatMap g, ⟨?_, ?_, ?_, ?_⟩, ?_⟩
  · have hne : l ≠ [] := createAnd_some.1 ⟨t, h⟩
    obtain ⟨e, he⟩ := List.exists_mem_of_ne_nil l hne
    obtain ⟨p, hp⟩ := List.exists_mem_of_ne_nil _ (hg e he).ne
    exact List.ne_nil_of_mem (List.mem_flatMap.2 ⟨e, he, hp⟩)
  · intro p hp
    obtain ⟨e, he, hp⟩ := List.mem_flatMap.1 hp
    exact ((hg e he).part p hp).trans (part_createAnd h he)
  · intro I
    rw [(C84_create_and l).2 t h I]
    simp only [List.mem_flatMap]
    constructor
    · rintro ha p ⟨e, he, hp⟩; exact ((hg e he).acc I).1 (ha e he) p hp
    · intro ha e he; exact ((hg e he).acc I).2 fun p hp => ha p ⟨e, he, hp⟩
  · intro s hs
    have lift : ∀ e ∈ l, Sub s e → (∃ p ∈ l.flatMap g, Sub s p) ∨ s.isCompound = true := by
      intro e he hse
      rcases (hg e he).subs s hse with ⟨p, hp, hsp⟩ | hc
      · exact .inl ⟨p, List.mem_flatMap.2 ⟨e, he, hp⟩, hsp⟩
      · exact .inr hc
    match l, h with
    | [a], h => simp [createAnd] at h; subst h; exact lift a (by simp) hs
    | a :: b :: l', h =>
      simp only [createAnd, Option.some.injEq] at h; subst h
      rcases sub_cases hs with rfl | ⟨c, hc, hsc⟩
      · exact .inr rfl
      · exact lift c (by simpa [Expr.subs] using hc) hsc
  · intro p hp
    obtain ⟨e, he, hp⟩ := List.mem_flatMap.1 hp
    exact hP e he p hp

/-- A WHERE predicate of supported form: nothing that renaming or `columns()` cannot handle; no nested queries; no OR
that mixes joins and filters; no conjunct is repeated within another one; filters mention at most one table and joins
compare exactly two tables. -/
structure Simple (ops : QOps Q) (w : Expr Q) : Prop where
  fine : Fine w
  regular : Regular w
  typed : Typed w
  nosubq : NoSubq w
  unmixed : ∀ c ∈ conjuncts w, mixedOr c = false
  separate : ∀ c ∈ conjuncts w, ∀ d ∈ conjuncts w, d ≠ c → ¬ BoolPart d c
  filters : ∀ c ∈ conjuncts w, c.isJoin = false → ∀ t u, MentionsTab ops t c → MentionsTab ops u c → t = u
  joins : ∀ c ∈ conjuncts w, c.isJoin = true → ∃ a b, OnlyBetween c a b ∧ ∀ t, MentionsTab ops t c ↔ t = a ∨ t = b

theorem collect_unmixed [DecidableEq Q] (c : Expr Q) (hb : builtNode c = true) (hna : ∀ cs, c ≠ .compound .and cs)
    (hm : mixedOr c = false) :
    c.collectFilters = (if c.isJoin then [] else [c]) ∧ c.collectJoins = (if c.isJoin then [c] else []) := by
  by_cases he : c.isCompound = false
  · obtain ⟨h1, h2⟩ := collect_other he
    rw [h1, h2, isFilter]
    cases c.isJoin <;> simp
  · cases c with
    | compound op cs =>
      cases op with
      | and => exact absurd rfl (hna cs)
      | not => simp only [collectFilters, collectJoins, isJoin_compound, and_self]
      | or =>
        simp only [builtNode, decide_eq_true_eq] at hb
        simp only [mixedOr, Bool.and_eq_false_iff] at hm
        simp only [collectFilters, collectJoins, isJoin_compound]
        rcases hm with hm | hm
        · have h1 : cs.filter isFilter = cs := by
            rw [List.filter_eq_self]; intro a ha; simp at hm; simp [isFilter, hm a ha]
          have h2 : cs.filter isJoin = [] := by
            rw [List.filter_eq_nil_iff]; intro a ha; simp at hm; simp [hm a ha]
          rw [h1, h2, hm]; simp; omega
        · have h1 : cs.filter isFilter = [] := by
            rw [List.filter_eq_nil_iff]; intro a ha; simp at hm; simp [hm a ha]
          have h2 : cs.filter isJoin = cs := by
            rw [List.filter_eq_self]; intro a ha; simp [isFilter] at hm; simp [hm a ha]
          have h3 : cs.any isJoin = true := by
            match cs, hb with
            | a :: l, _ => simp [isFilter] at hm; simp [hm.1]
          rw [h1, h2, h3]; simp; omega
    | _ => simp [isCompound] at he

/-- Filters and joins of a simple predicate are its conjuncts. -/
theorem mem_preds [DecidableEq Q] (ops : QOps Q) (qp : QueryPreds Q) (hv : qp.Valid ops) (w : Expr Q)
    (hr : qp.root = some w) (hw : Simple ops w) (p : Expr Q) :
    (p ∈ qp.filters ↔ p ∈ conjuncts w ∧ p.isJoin = false) ∧ (p ∈ qp.joins ↔ p ∈ conjuncts w ∧ p.isJoin = true) := by
  have hc : ∀ c ∈ conjuncts w, c.collectFilters = (if c.isJoin then [] else [c]) ∧
      c.collectJoins = (if c.isJoin then [c] else []) := fun c hc =>
    collect_unmixed c (hw.fine.built c (sub_conjuncts w c hc)) (conjuncts_not_and w c hc) (hw.unmixed c hc)
  rw [hv.filters, hv.joins, hr]
  simp only [Option.some.injEq, exists_eq_left']
  rw [(mem_collect w p).1, (mem_collect w p).2]
  constructor
  · constructor
    · rintro ⟨c, hcw, h⟩
      rw [(hc c hcw).1] at h
      by_cases hj : c.isJoin = true
      · simp [hj] at h
      · simp only [hj, Bool.false_eq_true, if_false, List.mem_singleton] at h; subst h
        exact ⟨hcw, by simpa using hj⟩
    · rintro ⟨hcw, hj⟩; exact ⟨p, hcw, by rw [(hc p hcw).1]; simp [hj]⟩
  · constructor
    · rintro ⟨c, hcw, h⟩
      rw [(hc c hcw).2] at h
      by_cases hj : c.isJoin = true
      · simp only [hj, if_true, List.mem_singleton] at h; subst h
        exact ⟨hcw, hj⟩
      · simp [hj] at h
    · rintro ⟨hcw, hj⟩; exact ⟨p, hcw, by rw [(hc p hcw).2]; simp [hj]⟩

/-- The moved predicates are conjunctions of conjuncts that only mention moved tables. -/
theorem moved_spec [DecidableEq Q] (ops : QOps Q) (qp : QueryPreds Q) (hv : qp.Valid ops) (w : Expr Q)
    (hr : qp.root = some w) (hw : Simple ops w) (ts : List Tab) (t : Expr Q) (ht : t ∈ moved ops qp ts) :
    ∃ g, AndOf g t ∧ ∀ p ∈ g, p ∈ conjuncts w ∧ ∀ u, MentionsTab ops u p → u ∈ ts := by
  have htab : ∀ p ∈ conjuncts w, ∀ u, u ∈ p.tables ops ↔ MentionsTab ops u p := fun p hp u =>
    C82_tables_partial ops p (hw.regular.sub (sub_conjuncts w p hp)) (hw.typed.sub (sub_conjuncts w p hp)) u
  rw [moved, List.mem_append] at ht
  rcases ht with ht | ht
  · obtain ⟨t0, ht0, hf⟩ := List.mem_filterMap.1 ht
    refine AndOf.create hf _ fun e he => ⟨[e], AndOf.one e, ?_⟩
    intro p hp
    rw [List.mem_singleton] at hp; subst hp
    obtain ⟨h1, h2⟩ := List.mem_filter.1 he
    obtain ⟨h3, h4⟩ := (mem_preds ops qp hv w hr hw p).1.1 h1
    refine ⟨h3, fun u hu => ?_⟩
    simp only [containsTable, decide_eq_true_eq] at h2
    rw [hw.filters p h3 h4 u t0 hu ((htab p h3 t0).1 h2)]
    exact ht0
  · rw [Option.mem_toList] at ht
    refine AndOf.create ht _ fun e he => ?_
    rw [List.mem_dedup, mem_matching] at he
    obtain ⟨a, ha, b, hb, he⟩ := he
    rcases (initMap_spec ops qp.joins qp.tabs [] qp.map hv.map _).2.1 e he with h | ⟨t0, _, js, hjs, he, K, hK, hkey⟩
    · simp [Dict.get?] at h
    obtain ⟨d, hwf, hf, hg, _⟩ := joinsFor_groups ops qp.joins t0 js hjs
    obtain ⟨g, hgm, hc⟩ := forall₂_mem_right hf e he
    obtain ⟨⟨k, g'⟩, hm, rfl⟩ := List.mem_map.1 hgm
    obtain ⟨hne, hmem⟩ := hg k g' (Dict.get?_of_mem hwf hm)
    have only : ∀ j ∈ g', j ∈ conjuncts w ∧ ∃ u, k = {some u} ∧ ∀ x, MentionsTab ops x j ↔ x = t0 ∨ x = u := by
      intro j hj
      obtain ⟨hjq, hjt, hjk⟩ := (hmem j).1 hj
      obtain ⟨h3, h4⟩ := (mem_preds ops qp hv w hr hw j).2.1 hjq
      obtain ⟨x, y, ⟨hxy, o1, o2⟩, hment⟩ := hw.joins j h3 h4
      have hs : j.joinPartners.isSome = true := by obtain ⟨ps, h, _⟩ := hxy; rw [h]; rfl
      refine ⟨h3, ?_⟩
      rcases (hment t0).1 ((htab j h3 t0).1 hjt) with rfl | rfl
      · rw [partnerTabs_unique hs hxy o1, Option.some.injEq] at hjk
        exact ⟨y, hjk.symm, hment⟩
      · rw [partnerTabs_unique hs hxy.symm o2, Option.some.injEq] at hjk
        exact ⟨x, hjk.symm, fun z => (hment z).trans or_comm⟩
    obtain ⟨j0, hj0⟩ := List.exists_mem_of_ne_nil g' hne
    obtain ⟨_, u, rfl, _⟩ := only j0 hj0
    rw [partnerTabs_and hc (fun j hj => ((hmem j).1 hj).2.2) hne, Option.some.injEq] at hK
    subst hK
    have hin : ∀ x, some x ∈ (insert (some t0) {some u} : Finset (Option Tab)) → x ∈ ts := by
      intro x hx
      rw [← hkey] at hx
      simp at hx
      rcases hx with rfl | rfl <;> assumption
    refine AndOf.create hc _ fun j hj => ⟨[j], AndOf.one j, ?_⟩
    intro p hp
    rw [List.mem_singleton] at hp; subst hp
    obtain ⟨h3, u', hu', hment⟩ := only p hj
    simp at hu'; subst hu'
    refine ⟨h3, fun x hx => ?_⟩
    rcases (hment x).1 hx with rfl | rfl
    · exact hin _ (by simp)
    · exact hin _ (by simp)

theorem boolPart_of_part {p t : Expr Q} (h : Part p t) : BoolPart p t := by
  induction h with
  | refl => exact .refl
  | step hc _ ih => exact .step hc ih

theorem sizeOf_sub {s e : Expr Q} (h : Sub s e) : s = e ∨ sizeOf s < sizeOf e := by
  induction h with
  | refl => exact .inl rfl
  | @step c e hc _ ih =>
    have := sizeOf_subs hc
    rcases ih with rfl | h
    · exact .inr this
    · exact .inr (by omega)

theorem Sub.antisymm {a b : Expr Q} (h : Sub a b) (h' : Sub b a) : a = b := by
  rcases sizeOf_sub h with e | h1
  · exact e
  · rcases sizeOf_sub h' with e | h2
    · exact e.symm
    · omega

theorem moved_separate [DecidableEq Q] (ops : QOps Q) (qp : QueryPreds Q) (hv : qp.Valid ops) (w : Expr Q)
    (hr : qp.root = some w) (hw : Simple ops w) (ts : List Tab) (t : Expr Q) (ht : t ∈ moved ops qp ts) (c : Expr Q)
    (hc : c ∈ conjuncts w) (hne : c ≠ t) : ¬ BoolPart t c := by
  intro hb
  obtain ⟨g, hg, hP⟩ := moved_spec ops qp hv w hr hw ts t ht
  obtain ⟨p, hp⟩ := List.exists_mem_of_ne_nil g hg.ne
  have h1 : BoolPart p t   := boolPart_of_part (hg.part p hp)
  by_cases hpc : p = c
  · subst hpc
    exact hne (Sub.antisymm h1.sub hb.sub)
  · exact hw.separate c hc p (hP p hp).1 hpc (h1.trans hb)

/-! ### The result -/

theorem mapM_table (J : Interp Q V) (D : Tab → Multiset (Row V)) (l : List Tab) :
    (l.map Item.table : List (Item Q)).mapM (J.source D) = some (l.map fun t => (t, D t)) := by
  induction l with
  | nil => rfl
  | cons t l ih => rw [List.map_cons, List.mapM_cons, ih]; rfl

theorem mapM_nested (J : Interp Q V) (D : Tab → Multiset (Row V)) (l : List (Item Q)) :
    (l.map Item.nested).mapM (J.source D) = l.mapM (J.source D) := by
  induction l with
  | nil => rfl
  | cons t l ih => rw [List.map_cons, List.mapM_cons, List.mapM_cons, ih]; rfl

theorem mapM_append_some {α β : Type} (f : α → Option β) (l : List α) (x : α) (ys : List β) (y : β)
    (h : l.mapM f = some ys) (hx : f x = some y) : (l ++ [x]).mapM f = some (ys ++ [y]) := by
  rw [List.mapM_append, h]
  simp [hx]

theorem get?_pairs (f : Col → Col) (l : List Col) (c : Col) :
    Dict.get? (l.map fun c => (c, f c)) c = if c ∈ l then some (f c) else none := by
  induction l with
  | nil => simp [Dict.get?]
  | cons a l ih =>
    by_cases h : a = c
    · subst h; simp [Dict.get?]
    · have h' : c ≠ a := fun e => h e.symm
      simp only [List.map_cons, Dict.get?, List.find?_cons] at ih ⊢
      simp [h, h'] at ih ⊢
      exact ih

theorem strictSubset_table (t : Tab) (ts : List Tab) (hn : ts.Nodup) (h2 : 2 ≤ ts.length) :
    strictSubset (Item.table t : Item Q) ts = decide (t ∈ ts) := by
  unfold strictSubset
  by_cases h : t ∈ ts
  · have : ∃ u ∈ ts, u ≠ t := by
      match ts, h2 with
      | a :: b :: l, _ =>
        by_cases ha : a = t
        · subst ha
          refine ⟨b, by simp, ?_⟩
          rintro rfl; simp at hn
        · exact ⟨a, by simp, ha⟩
    obtain ⟨u, hu, hut⟩ := this
    simp [Item.tables, Reported.isIn, Reported.isRef, h]
    exact ⟨u, hu, fun e => hut e.symm⟩
  · simp [Item.tables, Reported.isIn, Reported.isRef, h]

/-- The expressions of a query all have a supported form, and only mention columns of tables of the FROM clause. -/
structure Supported (ops : QOps Q) (q : Query Q) (tabs : List Tab) : Prop where
  where_ : ∀ w, q.where_ = some w → Simple ops w
  others : ∀ e ∈ q.others, Fine e ∧ Regular e ∧ NoSubq e ∧ ∀ t, e ≠ .star t
  bound : ∀ e ∈ q.where_.toList ++ q.others, ∀ c, Sub (.col c) e → ∀ t, c.tab = some t → t ∈ tabs

theorem mem_exported (ops : QOps Q) (q : Query Q) (tabs ts : List Tab) (hs : Supported ops q tabs) (c : Col) :
    c ∈ exported ops q ts ↔ (∃ e ∈ q.where_.toList ++ q.others, Sub (.col c) e) ∧ ∃ t ∈ ts, c.tab = some t := by
  rw [exported, Finset.mem_filter, mem_unionAll]
  have key : ∀ e ∈ q.where_.toList ++ q.others, c ∈ e.columns ops ↔ Sub (.col c) e := by
    intro e he
    have hreg : Regular e ∧ NoSubq e := by
      rcases List.mem_append.1 he with he | he
      · rw [Option.mem_toList] at he
        exact ⟨(hs.where_ e he).regular, (hs.where_ e he).nosubq⟩
      · exact ⟨(hs.others e he).2.1, (hs.others e he).2.2.1⟩
    rw [C82_columns_partial ops e hreg.1]
    constructor
    · rintro ⟨s, h1, rfl | ⟨q', rfl, _⟩⟩
      · exact h1
      · exact absurd h1 (hreg.2 q')
    · intro h; exact ⟨_, h, .inl rfl⟩
  constructor
  · rintro ⟨⟨x, hx, hc⟩, ht⟩
    obtain ⟨e, he, rfl⟩ := List.mem_map.1 hx
    exact ⟨⟨e, he, (key e he).1 hc⟩, ht⟩
  · rintro ⟨⟨e, he, hc⟩, ht⟩
    exact ⟨⟨_, List.mem_map.2 ⟨e, he, rfl⟩, (key e he).2 hc⟩, ht⟩

theorem find_name (l : List Col) (c : Col) (hc : c ∈ l) (hu : ∀ a ∈ l, ∀ b ∈ l, a.name = b.name → a = b) :
    l.find? (fun d => d.name == c.name) = some c := by
  cases h : l.find? fun d => d.name == c.name with
  | none => rw [List.find?_eq_none] at h; exact absurd (h c hc) (by simp)
  | some d =>
    have h1 := List.find?_some h
    have h2 := List.mem_of_find?_eq_some h
    simp at h1
    rw [hu d h2 c hc h1]

theorem createAnd_holds (ps : List (Expr Q)) (I : Expr Q → Option Bool) :
    (∀ p, createAnd ps = some p → Accepts I p) ↔ ∀ t ∈ ps, Accepts I t := by
  cases h : createAnd ps with
  | none =>
    have : ps = [] := by
      by_contra hne
      obtain ⟨e, he⟩ := createAnd_some.2 hne
      rw [h] at he; cases he
    subst this; simp
  | some e => simp only [Option.some.injEq, forall_eq']; exact (C84_create_and ps).2 e h I

/-- Renaming a list of expressions of supported form. -/
theorem renameL_fine (ren : Q → Option Q) (ρ : Dict Col Col) (l : List (Expr Q)) (h : ∀ e ∈ l, Fine e ∧ NoSubq e) :
    renameL ren ρ l = some (l.map (mapCols (renamed ρ) id)) :=
  renameL_spec ren ρ _ l fun e he => C41_rename_partial ren ρ id e (h e he).1.built
    (fun s hs => ((h e he).1 s hs).2) fun q hq => absurd hq ((h e he).2 q)

theorem renameO_fine (ren : Q → Option Q) (ρ : Dict Col Col) (o : Option (Expr Q)) (h : ∀ e, o = some e → Fine e ∧ NoSubq e) :
    renameO ren ρ o = some (o.map (mapCols (renamed ρ) id)) :=
  renameO_spec ren ρ _ o fun e he => by
    rw [Option.mem_toList] at he
    exact C41_rename_partial ren ρ id e (h e he).1.built
      (fun s hs => ((h e he).1 s hs).2) fun q hq => absurd hq ((h e he).2 q)

theorem map_filter_congr {α β : Type} (s : Multiset α) {p p' : α → Prop} {_ : DecidablePred p} {_ : DecidablePred p'} {f g : α → β}
    (hp : ∀ x, p x ↔ p' x) (hf : ∀ x, f x = g x) : (s.filter p).map f = (s.filter p').map g := by
  rw [Multiset.filter_congr fun x _ => hp x]
  exact Multiset.map_congr rfl fun x _ => hf x

/-- **C215 (partial).** If the transformation of a query over plain tables succeeds and the name of the subquery is not
the name of a remaining table, the transformed query has the same result as the original one, for all data and all
interpretations of the operations. Missing: `SELECT *`, explicit joins, name clashes, predicates that are repeated
within other ones, ORs that mix joins and filters, see the violations below; nested queries and predicates over three
or more tables. -/
theorem C215_result_partial [DecidableEq Q] (ops : QOps Q) (virtual : Tab → Bool) (ord : Finset Col → List Col)
    (hord : ∀ s, (ord s).toFinset = s) (ren : Q → Option Q) (qp : QueryPreds Q) (hv : qp.Valid ops) (q q' : Query Q)
    (hroot : qp.root = q.where_) (tabs : List Tab) (hitems : q.items = tabs.map .table) (htabs : tabs.Nodup)
    (hs : Supported ops q tabs) (ts : List Tab) (hts : ts.Nodup) (hsub : ∀ t ∈ ts, t ∈ tabs) (name : Tab)
    (hname : name ∈ tabs → name ∈ ts) (h : moveIntoSubquery ops virtual ord ren qp q ts name = some q')
    (J : Interp Q V) (D : Tab → Multiset (Row V)) :
    J.answer D q' = J.answer D q ∧ (J.answer D q).isSome = true := by
  have hmo : ∀ s c, c ∈ ord s ↔ c ∈ s := fun s c => by rw [← List.mem_toFinset, hord]
  unfold moveIntoSubquery at h
  split at h; · cases h
  split at h; · cases h
  split at h; · cases h
  rename_i h2
  simp only at h
  split at h; · cases h
  rename_i hcard
  split at h; · cases h
  have h2' : 2 ≤ ts.length := by omega
  have huniq : ∀ a ∈ exported ops q ts, ∀ b ∈ exported ops q ts, a.name = b.name → a = b := by
    have : Set.InjOn Col.name (exported ops q ts : Set Col) :=
      Finset.card_image_iff.1 (le_antisymm Finset.card_image_le (by omega))
    intro a ha b hb he; exact this ha hb he
  set ρ : Dict Col Col := (ord (exported ops q ts)).map fun c => (c, (⟨some name, c.name⟩ : Col)) with hρ
  obtain ⟨w', hw', h⟩ := Option.bind_eq_some_iff.1 h
  obtain ⟨w'', hw'', h⟩ := Option.bind_eq_some_iff.1 h
  obtain ⟨os, hos, h⟩ := Option.map_eq_some_iff.1 h
  -- the renaming
  have hren : ∀ c, renamed ρ c = if c ∈ exported ops q ts then ⟨some name, c.name⟩ else c := by
    intro c
    rw [renamed, hρ, get?_pairs (fun c => (⟨some name, c.name⟩ : Col))]
    simp only [hmo]
    split <;> rfl
  have hos' := renameL_fine ren ρ q.others fun e he => ⟨(hs.others e he).1, (hs.others e he).2.2.1⟩
  rw [hos, Option.some.injEq] at hos'
  -- the remaining predicate
  have hrem : (∀ I, (∀ w, q.where_ = some w → Accepts I w) ↔
        (∀ t ∈ moved ops qp ts, Accepts I t) ∧ ∀ f, w' = some f → Accepts I f) ∧
      (∀ f, w' = some f → Fine f ∧ NoSubq f ∧ ∀ c, Sub (.col c) f → ∃ w, q.where_ = some w ∧ Sub (.col c) w) ∧
      (∀ t ∈ moved ops qp ts, NoSubq t ∧ ∀ c, Sub (.col c) t → ∀ u, c.tab = some u → u ∈ ts) := by
    cases hq : q.where_ with
    | none =>
      have hm : moved ops qp ts = [] := by
        have hf : qp.filters = [] := List.eq_nil_iff_forall_not_mem.2 fun p hp => by
          obtain ⟨r, hr, _⟩ := (hv.filters p).1 hp; rw [hroot, hq] at hr; cases hr
        have hmap : qp.map = [] := by
          have ht : qp.tabs = [] := List.eq_nil_iff_forall_not_mem.2 fun p hp => by
            obtain ⟨r, hr, _⟩ := (hv.tabs p).1 hp; rw [hroot, hq] at hr; cases hr
          have := hv.map
          rw [ht, initMap, Option.some.injEq] at this
          exact this.symm
        have hj : qp.matchingJoins ts ts = [] := List.eq_nil_iff_forall_not_mem.2 fun e he => by
          obtain ⟨a, _, b, _, h⟩ := (mem_matching qp ts ts e).1 he
          rw [hmap] at h; simp [Dict.get?] at h
        rw [moved, QueryPreds.joinsBetween, hj]
        simp [QueryPreds.filtersFor, hf, createAnd]
      rw [hq, removeAll_none, Option.some.injEq] at hw'
      subst hw'
      simp [hm]
    | some w =>
      have hw := hs.where_ w hq
      rw [hq] at hroot
      rw [hq] at hw'
      obtain ⟨r, hr, a1, a2, a3⟩ := removeAll_spec (moved ops qp ts) w hw.fine
        (fun t ht c hc hne => moved_separate ops qp hv w hroot hw ts t ht c hc hne)
      rw [hw', Option.some.injEq] at hr
      subst hr
      have himp : ∀ I, Accepts I w → ∀ t ∈ moved ops qp ts, Accepts I t := by
        intro I ha t ht
        obtain ⟨g, hg, hP⟩ := moved_spec ops qp hv w hroot hw ts t ht
        exact (hg.acc I).2 fun p hp => (accepts_conjuncts I w).1 ha p (hP p hp).1
      refine ⟨fun I => ?_, fun f hf => ?_, fun t ht => ?_⟩
      · simp only [Option.some.injEq, forall_eq']
        exact ⟨fun h => ⟨himp I h, a1 I h⟩, fun h => a2 I h.2 h.1⟩
      · obtain ⟨b1, b2⟩ := a3 f hf
        refine ⟨b1, fun x hx => ?_, fun c hc => ⟨w, rfl, ?_⟩⟩
        · rcases b2 _ hx with h | h
          · exact hw.nosubq x h
          · simp [isCompound] at h
        · rcases b2 _ hc with h | h
          · exact h
          · simp [isCompound] at h
      · obtain ⟨g, hg, hP⟩ := moved_spec ops qp hv w hroot hw ts t ht
        refine ⟨fun x hx => ?_, fun c hc u hu => ?_⟩
        · rcases hg.subs _ hx with ⟨p, hp, h⟩ | h
          · exact hw.nosubq x (h.trans (sub_conjuncts w p (hP p hp).1))
          · simp [isCompound] at h
        · rcases hg.subs _ hc with ⟨p, hp, h⟩ | h
          · exact (hP p hp).2 u ⟨_, h, .inr (.inl ⟨c, rfl, hu⟩)⟩
          · simp [isCompound] at h
  obtain ⟨hacc, hrest, hmv⟩ := hrem
  have hwf' := renameO_fine ren ρ w' fun e he => ⟨(hrest e he).1, (hrest e he).2.1⟩
  rw [hw'', Option.some.injEq] at hwf'
  subst hwf'
  subst hos'
  subst h
  -- the sources
  set kept := tabs.filter fun t => decide (t ∉ ts) with hkept
  have hkeep : q.items.filter (fun i => !strictSubset i ts) = kept.map .table := by
    rw [hitems, List.filter_map, hkept]
    congr 1
    refine List.filter_congr fun t _ => ?_
    simp [strictSubset_table t ts hts h2']
  have hsrc : q.items.mapM (J.source D) = some (tabs.map fun t => (t, D t)) := by rw [hitems]; exact mapM_table J D tabs
  have hperm : tabs.Perm (kept ++ ts) := by
    refine (List.perm_ext_iff_of_nodup htabs ?_).2 fun t => ?_
    · refine List.Nodup.append (htabs.filter _) hts fun t h1 h2 => ?_
      simp [hkept] at h1; exact h1.2 h2
    · simp only [List.mem_append, hkept, List.mem_filter, decide_eq_true_eq]
      constructor
      · intro h; by_cases ht : t ∈ ts
        · exact .inr ht
        · exact .inl ⟨h, ht⟩
      · rintro (h | h)
        · exact h.1
        · exact hsub t h
  have hcombos : combos (fun _ _ => J.null) (tabs.map fun t => (t, D t)) =
      (combos (fun _ _ => J.null) (kept.map fun t => (t, D t))).bind fun a => combos a (ts.map fun t => (t, D t)) := by
    rw [combos_perm _ (hperm.map _) (by simpa [Function.comp_def] using htabs), List.map_append, combos_append]
  refine ⟨?_, by rw [Interp.answer, hsrc]; rfl⟩
  rw [Interp.answer, Interp.answer, hsrc]
  simp only
  rw [mapM_nested, hkeep, mapM_append_some (J.source D) (kept.map Item.table) (Item.sub ⟨ord (exported ops q ts), ts,
    createAnd (moved ops qp ts), name⟩) _ _ (mapM_table J D kept) rfl]
  simp only [Option.map_some, Option.some.injEq]
  unfold Interp.selected
  rw [hcombos, combos_append, Multiset.filter_bind, Multiset.filter_bind, Multiset.map_bind, Multiset.map_bind]
  refine Multiset.bind_congr fun a _ => ?_
  simp only [combos, Multiset.bind_map, Multiset.bind_singleton, Multiset.filter_map, Multiset.map_map,
    Multiset.filter_filter]
  rw [combos_overlay a (fun _ _ => J.null)]
  simp only [Multiset.filter_map, Multiset.map_map, List.map_map]
  -- the values of columns
  have hkeys : (ts.map fun t => (t, D t)).map Prod.fst = ts := by simp [Function.comp_def]
  have hval : ∀ x : Rows V, ∀ e ∈ q.where_.toList ++ q.others, ∀ c, Sub (.col c) e →
      J.col (Function.update a name (J.output (ord (exported ops q ts)) x)) (renamed ρ c)
        = J.col (overlay ts a x) c := by
    intro x e he c hc
    rw [hren]
    by_cases hx : c ∈ exported ops q ts
    · rw [if_pos hx]
      obtain ⟨_, t, ht, hct⟩ := (mem_exported ops q tabs ts hs c).1 hx
      simp only [Interp.col, Function.update_self, Interp.output, hct, overlay, if_pos ht]
      rw [find_name (ord (exported ops q ts)) c ((hmo _ _).2 hx) fun a ha b hb =>
        huniq a ((hmo _ _).1 ha) b ((hmo _ _).1 hb)]
      simp [hct]
    · rw [if_neg hx]
      have hnt : ∀ t ∈ ts, c.tab ≠ some t := fun t ht hct =>
        hx ((mem_exported ops q tabs ts hs c).2 ⟨⟨e, he, hc⟩, t, ht, hct⟩)
      cases hct : c.tab with
      | none => simp [Interp.col, hct]
      | some t =>
        have h1 : t ∉ ts := fun h => hnt t h hct
        have h3 : t ≠ name := by
          rintro rfl
          exact h1 (hname (hs.bound e he c hc t hct))
        simp [Interp.col, hct, overlay, h1, Function.update_of_ne h3]
  have hin : ∀ x : Rows V, ∀ t ∈ moved ops qp ts, J.Holds (J.col x) t ↔ J.Holds (J.col (overlay ts a x)) t := by
    intro x t ht
    refine holds_congr J _ _ t (hmv t ht).1 fun c hc => ?_
    cases hct : c.tab with
    | none => simp [Interp.col, hct]
    | some u => simp [Interp.col, hct, overlay, (hmv t ht).2 c hc u hct]
  have hpred : ∀ x : Rows V,
      ((∀ p, w'.map (mapCols (renamed ρ) id) = some p →
          J.Holds (J.col (Function.update a name (J.output (ord (exported ops q ts)) x))) p) ∧
        ∀ p, createAnd (moved ops qp ts) = some p → J.Holds (J.col x) p) ↔
      ∀ p, q.where_ = some p → J.Holds (J.col (overlay ts a x)) p := by
    intro x
    rw [show (∀ p, q.where_ = some p → J.Holds (J.col (overlay ts a x)) p) ↔ _ from
      hacc fun e => J.B (J.value (J.col (overlay ts a x)) e)]
    rw [and_comm]
    refine and_congr ?_ ?_
    · rw [show (∀ p, createAnd (moved ops qp ts) = some p → J.Holds (J.col x) p) ↔ _ from
        createAnd_holds (moved ops qp ts) fun e => J.B (J.value (J.col x) e)]
      exact forall₂_congr fun t ht => hin x t ht
    · cases hw : w' with
      | none => simp
      | some f =>
        simp only [Option.map_some, Option.some.injEq, forall_eq']
        obtain ⟨_, h4, h5⟩ := hrest f hw
        rw [holds_mapCols J _ _ f h4]
        refine holds_congr J _ _ f h4 fun c hc => ?_
        obtain ⟨w, hw1, hw2⟩ := h5 c hc
        exact hval x w (by simp [hw1]) c hw2
  have hid : List.map (fun x : Tab => x) ts = ts := by simp
  simp only [Function.comp_def, hid] at hpred ⊢
  refine map_filter_congr _ (fun x => ?_) fun x => List.map_congr_left fun e he => ?_
  · rw [hid]
    exact hpred x
  try rw [hid]
  rw [value_mapCols J _ _ e (hs.others e he).2.2.1]
  exact value_congr J _ _ e (hs.others e he).2.2.1 fun c hc => hval x e (List.mem_append_right _ he) c hc

/-- `t1.x = t2.y AND t1.z = 1 AND t2.y < t3.w AND t3.w = 5` -/
def wEx : Expr Unit :=
  .compound .and [jXY, fZ 1, .binary .lt (.col cy) (.col ⟨some 3, 40⟩), .binary .eq (.col ⟨some 3, 40⟩) (.static (.num 5))]

def qpEx : QueryPreds Unit :=
  ⟨some wEx, [fZ 1, .binary .eq (.col ⟨some 3, 40⟩) (.static (.num 5))],
    [jXY, .binary .lt (.col cy) (.col ⟨some 3, 40⟩)], [1, 2, 3],
    [({some 1, some 2}, jXY), ({some 2, some 3}, .binary .lt (.col cy) (.col ⟨some 3, 40⟩))]⟩

def qEx : Query Unit := ⟨[.table 1, .table 2, .table 3], some wEx, [.col cx, .col ⟨some 3, 40⟩]⟩

theorem qpEx_valid : qpEx.Valid noOps where
  filters := by
    have h : wEx.collectFilters = [fZ 1, .binary .eq (.col ⟨some 3, 40⟩) (.static (.num 5))] := by decide +kernel
    intro p; simp [qpEx, h]
  joins := by
    have h : wEx.collectJoins = [jXY, .binary .lt (.col cy) (.col ⟨some 3, 40⟩)] := by decide +kernel
    intro p; simp [qpEx, h]
  filtersNodup := by decide +kernel
  joinsNodup := by decide +kernel
  tabs := by
    have h : wEx.tables noOps = {1, 2, 3} := by decide +kernel
    intro p; simp [qpEx, h]
  map := by decide +kernel

theorem boolPart_base {s e : Expr Q} (h : BoolPart s e) (he : e.isCompound = false) : s = e := by
  cases h with
  | refl => rfl
  | step => simp [isCompound] at he

theorem onlyBetween_of {j : Expr Q} {x y : Col} {a b : Tab} (hp : j.joinPartners = some {(x, y)}) (hx : x.tab = some a)
    (hy : y.tab = some b) (hab : a ≠ b) : OnlyBetween j a b := by
  refine ⟨⟨_, hp, _, Finset.mem_singleton_self _, .inl ⟨hx, hy⟩⟩, ?_, ?_⟩
  · rintro u ⟨ps, h, p, hm, hc⟩
    rw [hp] at h; cases h
    simp only [Finset.mem_singleton] at hm; subst hm
    rcases hc with ⟨_, h⟩ | ⟨_, h⟩
    · exact h.symm.trans hy
    · simp only at h; rw [hy] at h; simp at h; exact absurd h.symm hab
  · rintro u ⟨ps, h, p, hm, hc⟩
    rw [hp] at h; cases h
    simp only [Finset.mem_singleton] at hm; subst hm
    rcases hc with ⟨h, _⟩ | ⟨h, _⟩
    · simp only at h; rw [hx] at h; simp at h; exact absurd h hab
    · exact h.symm.trans hx

theorem noSubq_of (e : Expr Unit) (h : everywhere (fun e => match e with | .subq _ => false | _ => true) e = true) :
    NoSubq e := by
  intro q hq
  have h := (everywhere_iff _ e).1 h _ hq
  simp at h

theorem fine_of (e : Expr Q) (h : everywhere (fun e => builtNode e && renNode e) e = true) : Fine e := fun s hs => by
  have := (everywhere_iff _ e).1 h s hs
  simpa using this

theorem conj_wEx : conjuncts wEx = [jXY, fZ 1, .binary .lt (.col cy) (.col ⟨some 3, 40⟩),
    .binary .eq (.col ⟨some 3, 40⟩) (.static (.num 5))] := by decide +kernel

theorem wEx_simple : Simple noOps wEx where
  fine := fine_of _ (by decide +kernel)
  regular := (everywhere_iff _ _).1 (by decide +kernel)
  typed := (everywhere_iff _ _).1 (by decide +kernel)
  nosubq := noSubq_of _ (by decide +kernel)
  unmixed := by decide +kernel
  separate := by
    intro c hc d hd hne hb
    exact hne (boolPart_base hb ((by decide +kernel : ∀ c ∈ conjuncts wEx, c.isCompound = false) c hc))
  filters := by
    intro c hc hj t u ht hu
    have hr : Regular c := fun s hs => (everywhere_iff regularNode wEx).1 (by decide +kernel) s
      (hs.trans (sub_conjuncts _ c hc))
    have hty : Typed c := fun s hs => (everywhere_iff typedNode wEx).1 (by decide +kernel) s
      (hs.trans (sub_conjuncts _ c hc))
    rw [← C82_tables_partial noOps c hr hty] at ht hu
    have key : ∀ c ∈ conjuncts wEx, c.isJoin = false → (c.tables noOps).card ≤ 1 := by decide +kernel
    exact Finset.card_le_one.1 (key c hc hj) t ht u hu
  joins := by
    intro c hc hj
    have hr : Regular c := fun s hs => (everywhere_iff regularNode wEx).1 (by decide +kernel) s
      (hs.trans (sub_conjuncts _ c hc))
    have hty : Typed c := fun s hs => (everywhere_iff typedNode wEx).1 (by decide +kernel) s
      (hs.trans (sub_conjuncts _ c hc))
    simp only [← C82_tables_partial noOps c hr hty]
    rw [conj_wEx] at hc
    simp only [List.mem_cons, List.not_mem_nil, or_false] at hc
    rcases hc with rfl | rfl | rfl | rfl
    · have ht : jXY.tables noOps = {1, 2} := by decide +kernel
      exact ⟨1, 2, onlyBetween_of (x := cx) (y := cy) (by decide +kernel) rfl rfl (by decide), by simp [ht]⟩
    · exact absurd hj (by decide +kernel)
    · have ht : (Expr.binary .lt (.col cy) (.col ⟨some 3, 40⟩) : Expr Unit).tables noOps = {2, 3} := by decide +kernel
      exact ⟨2, 3, onlyBetween_of (x := cy) (y := ⟨some 3, 40⟩) (by decide +kernel) rfl rfl (by decide), by simp [ht]⟩
    · exact absurd hj (by decide +kernel)

theorem qEx_supported : Supported noOps qEx [1, 2, 3] where
  where_ := by intro w hw; cases hw; exact wEx_simple
  others := by
    intro e he
    simp only [qEx, List.mem_cons, List.not_mem_nil, or_false] at he
    rcases he with rfl | rfl <;>
      exact ⟨fine_of _ (by decide +kernel), (everywhere_iff _ _).1 (by decide +kernel), noSubq_of _ (by decide +kernel),
        by simp⟩
  bound := by
    intro e he c hc t ht
    have key : ∀ e ∈ qEx.where_.toList ++ qEx.others,
        everywhere (fun s => match s with | .col c => decide (c.tab = some 1 ∨ c.tab = some 2 ∨ c.tab = some 3) | _ => true) e
          = true := by decide +kernel
    have := (everywhere_iff _ e).1 (key e he) _ hc
    simp only [ht, Option.some.injEq, decide_eq_true_eq] at this
    simpa using this

/-- **C215 (partial).** For such a query over at least one plain table the transformation succeeds exactly if at least two tables are
given, no table of the query is virtual, some column of the given tables is used, and no two columns of the given tables
that are used have the same name. -/
theorem C215_defined_partial [DecidableEq Q] (ops : QOps Q) (virtual : Tab → Bool) (ord : Finset Col → List Col)
    (ren : Q → Option Q) (qp : QueryPreds Q) (hv : qp.Valid ops) (q : Query Q)
    (hroot : qp.root = q.where_) (tabs : List Tab) (hne : tabs ≠ []) (hitems : q.items = tabs.map .table)
    (hs : Supported ops q tabs) (hb : ∀ e ∈ q.where_.toList ++ q.others, ∀ t ∈ e.tables ops, t ∈ tabs) (ts : List Tab)
    (name : Tab) :
    (∃ q', moveIntoSubquery ops virtual ord ren qp q ts name = some q') ↔
      2 ≤ ts.length ∧ (∀ t ∈ tabs, virtual t = false) ∧
      (∃ e ∈ q.where_.toList ++ q.others, ∃ c, Sub (.col c) e ∧ ∃ t ∈ ts, c.tab = some t) ∧
      ∀ e ∈ q.where_.toList ++ q.others, ∀ e' ∈ q.where_.toList ++ q.others, ∀ c c', Sub (.col c) e → Sub (.col c') e' →
        (∃ t ∈ ts, c.tab = some t) → (∃ t ∈ ts, c'.tab = some t) → c.name = c'.name → c = c' := by
  have hmem := mem_exported ops q tabs ts hs
  have hvc : virtualCheck ops virtual q = some false ↔ ∀ t ∈ tabs, virtual t = false := by
    have h1 : ((q.items.flatMap Item.tables).mapM (isVirtual virtual)) = some (tabs.map virtual) := by
      rw [hitems]
      clear hne hitems hs hb hmem
      induction tabs with
      | nil => rfl
      | cons t l ih =>
        simp only [List.map_cons, List.flatMap_cons, Item.tables, List.cons_append, List.nil_append, List.mapM_cons]
        rw [ih]; rfl
    rw [virtualCheck, h1]
    simp only [Option.map_some, Option.some.injEq, Bool.or_eq_false_iff, decide_eq_false_iff_not, List.any_map,
      List.any_eq_false]
    constructor
    · rintro ⟨h, _⟩ t ht; simpa using h t ht
    · intro h
      refine ⟨fun t ht => by simpa using h t ht, ?_⟩
      rintro ⟨t, ht, hvt⟩
      obtain ⟨x, hx, htx⟩ := (mem_unionAll _ _).1 ht
      obtain ⟨e, he, rfl⟩ := List.mem_map.1 hx
      rw [h t (hb e he t htx)] at hvt; cases hvt
  have hcard : ¬ ((exported ops q ts).image Col.name).card < (exported ops q ts).card ↔
      ∀ a ∈ exported ops q ts, ∀ b ∈ exported ops q ts, a.name = b.name → a = b := by
    constructor
    · intro h a ha b hb he
      have : Set.InjOn Col.name (exported ops q ts : Set Col) :=
        Finset.card_image_iff.1 (le_antisymm Finset.card_image_le (by omega))
      exact this ha hb he
    · intro h
      have : Set.InjOn Col.name (exported ops q ts : Set Col) := fun a ha b hb he => h a ha b hb he
      rw [Finset.card_image_iff.2 this]; omega
  have hsub : ∀ w, q.where_ = some w → ∃ r, removeAll (some w) (moved ops qp ts) = some r ∧
      ∀ f, r = some f → Fine f ∧ NoSubq f := by
    intro w hq
    have hw := hs.where_ w hq
    obtain ⟨r, hr, _, _, a3⟩ := removeAll_spec (moved ops qp ts) w hw.fine
      (fun t ht c hc hne => moved_separate ops qp hv w (hroot.trans hq) hw ts t ht c hc hne)
    refine ⟨r, hr, fun f hf => ⟨(a3 f hf).1, fun x hx => ?_⟩⟩
    rcases (a3 f hf).2 _ hx with h | h
    · exact hw.nosubq x h
    · simp [isCompound] at h
  have hrem : ∃ r, removeAll q.where_ (moved ops qp ts) = some r ∧ ∀ f, r = some f → Fine f ∧ NoSubq f := by
    cases hq : q.where_ with
    | none => exact ⟨none, removeAll_none _, by simp⟩
    | some w => exact hsub w hq
  have hemp : exported ops q ts = ∅ ↔
      ¬ ∃ e ∈ q.where_.toList ++ q.others, ∃ c, Sub (.col c) e ∧ ∃ t ∈ ts, c.tab = some t := by
    rw [Finset.eq_empty_iff_forall_notMem]
    constructor
    · rintro h ⟨e, he, c, hc, ht⟩; exact h c ((hmem c).2 ⟨⟨e, he, hc⟩, ht⟩)
    · intro h c hc
      obtain ⟨⟨e, he, hce⟩, ht⟩ := (hmem c).1 hc
      exact h ⟨e, he, c, hce, ht⟩
  have hnames : (∀ a ∈ exported ops q ts, ∀ b ∈ exported ops q ts, a.name = b.name → a = b) ↔
      ∀ e ∈ q.where_.toList ++ q.others, ∀ e' ∈ q.where_.toList ++ q.others, ∀ c c', Sub (.col c) e → Sub (.col c') e' →
        (∃ t ∈ ts, c.tab = some t) → (∃ t ∈ ts, c'.tab = some t) → c.name = c'.name → c = c' := by
    constructor
    · intro h e he e' he' c c' hc hc' ht ht' hn
      exact h c ((hmem c).2 ⟨⟨e, he, hc⟩, ht⟩) c' ((hmem c').2 ⟨⟨e', he', hc'⟩, ht'⟩) hn
    · intro h a ha b hb hn
      obtain ⟨⟨e, he, hc⟩, ht⟩ := (hmem a).1 ha
      obtain ⟨⟨e', he', hc'⟩, ht'⟩ := (hmem b).1 hb
      exact h e he e' he' a b hc hc' ht ht' hn
  rw [← hvc, ← hnames, ← hcard]
  have hne' : q.items.isEmpty = false := by rw [hitems]; cases tabs <;> simp at hne ⊢
  unfold moveIntoSubquery
  rw [hne']
  obtain ⟨r, hr, hrf⟩ := hrem
  by_cases c1 : virtualCheck ops virtual q = some false
  · by_cases c2 : ts.length < 2
    · simp [c1, c2]
    · by_cases c3 : ((exported ops q ts).image Col.name).card < (exported ops q ts).card
      · simp [c1, c2, c3]
      · by_cases c4 : exported ops q ts = ∅
        · have := hemp.1 c4
          constructor
          · rintro ⟨q', hq⟩
            simp [c1, c2, c4] at hq
          · rintro ⟨_, _, h, _⟩
            exact absurd h this
        · have h4 := (not_iff_not.2 hemp).1 c4
          rw [not_not] at h4
          simp only [Bool.false_eq_true, if_false, c1, ne_eq, not_true, c2, c3, c4, hr, Option.bind_some,
            renameO_fine ren _ r hrf, renameL_fine ren _ q.others fun e he => ⟨(hs.others e he).1, (hs.others e he).2.2.1⟩,
            Option.map_some]
          exact ⟨fun _ => ⟨by omega, trivial, h4, fun h => h⟩, fun _ => ⟨_, rfl⟩⟩
  · simp [c1]

/-- The hypotheses are satisfiable: moving the first two tables of
`SELECT t1.x, t3.w FROM t1, t2, t3 WHERE t1.x = t2.y AND t1.z = 1 AND t2.y < t3.w AND t3.w = 5`. -/
example : qpEx.Valid noOps ∧ Supported noOps qEx [1, 2, 3] ∧
    ∃ q', moveIntoSubquery noOps (fun _ => false) Finset.toList some qpEx qEx [1, 2] 9 = some q' := by
  refine ⟨qpEx_valid, qEx_supported, ?_⟩
  refine (C215_defined_partial noOps (fun _ => false) Finset.toList some qpEx qpEx_valid qEx rfl [1, 2, 3] (by simp) rfl
    qEx_supported ?_ [1, 2] 9).2 ⟨by simp, by simp, ⟨wEx, by simp [qEx], cx, ?_, 1, by simp, rfl⟩, ?_⟩
  · have : ∀ e ∈ qEx.where_.toList ++ qEx.others, e.tables noOps ⊆ {1, 2, 3} := by decide +kernel
    intro e he t ht
    simpa using this e he ht
  · have : cx ∈ wEx.columns noOps := by decide +kernel
    obtain ⟨s, hs, rfl | ⟨q, rfl, _⟩⟩ := C82_columns_sound noOps wEx cx this
    · exact hs
    · exact absurd hs (wEx_simple.nosubq q)
  · have key : ∀ e ∈ qEx.where_.toList ++ qEx.others, ∀ c, Sub (.col c) e → c ∈ ([cx, cy, ⟨some 1, 30⟩, ⟨some 3, 40⟩] : List Col) := by
      intro e he c hc
      have := (everywhere_iff _ e).1 ((by decide +kernel : ∀ e ∈ qEx.where_.toList ++ qEx.others,
        everywhere (fun s => match s with | .col c => decide (c ∈ ([cx, cy, ⟨some 1, 30⟩, ⟨some 3, 40⟩] : List Col)) | _ => true) e
          = true) e he) _ hc
      simpa using this
    intro e he e' he' c c' hc hc' _ _ hn
    have h1 := key e he c hc
    have h2 := key e' he' c' hc'
    exact (by decide +kernel : ∀ c ∈ ([cx, cy, ⟨some 1, 30⟩, ⟨some 3, 40⟩] : List Col),
      ∀ c' ∈ ([cx, cy, ⟨some 1, 30⟩, ⟨some 3, 40⟩] : List Col), c.name = c'.name → c = c') c h1 c' h2 hn

/-! ### Where the transformation fails -/

theorem move_eq [DecidableEq Q] (ops : QOps Q) (virtual : Tab → Bool) (ord : Finset Col → List Col)
    (ren : Q → Option Q) (qp : QueryPreds Q) (q : Query Q) (ts : List Tab) (name : Tab) (E : Finset Col)
    (P : List (Expr Q)) (w : Option (Expr Q)) (h0 : q.items.isEmpty = false)
    (h1 : virtualCheck ops virtual q = some false) (h2 : ¬ ts.length < 2) (h3 : exported ops q ts = E)
    (h4 : ¬ (E.image Col.name).card < E.card) (h5 : E ≠ ∅) (h6 : moved ops qp ts = P)
    (h7 : removeAll q.where_ P = some w) :
    moveIntoSubquery ops virtual ord ren qp q ts name =
      (renameO ren ((ord E).map fun c => (c, ⟨some name, c.name⟩)) w).bind fun w' =>
        (renameL ren ((ord E).map fun c => (c, ⟨some name, c.name⟩)) q.others).map fun os =>
          ⟨((q.items.filter fun i => !strictSubset i ts) ++ [Item.sub ⟨ord E, ts, createAnd P, name⟩]).map Item.nested,
            w', os⟩ := by
  unfold moveIntoSubquery
  simp only [h0, h1, h2, h3, h4, h5, h6, h7, Bool.false_eq_true, if_false, ne_eq, not_true, Option.bind_some]

/-- `SELECT * FROM t1, t2 WHERE t1.x = t2.y` -/
def qStar : Query Unit := ⟨[.table 1, .table 2], some jXY, [.star none]⟩
def qpStar : QueryPreds Unit := ⟨some jXY, [], [jXY], [1, 2], [({some 1, some 2}, jXY)]⟩

theorem qpStar_valid : qpStar.Valid noOps where
  filters := by
    have h : jXY.collectFilters = [] := by decide +kernel
    intro p; simp [qpStar, h]
  joins := by
    have h : jXY.collectJoins = [jXY] := by decide +kernel
    intro p; simp [qpStar, h]
  filtersNodup := by decide +kernel
  joinsNodup := by decide +kernel
  tabs := by
    have h : jXY.tables noOps = {1, 2} := by decide +kernel
    intro p; simp [qpStar, h]
  map := by decide +kernel

/-- **C215 (violated).** `SELECT * FROM t1, t2 WHERE t1.x = t2.y` becomes
`SELECT * FROM (SELECT t1.x, t2.y FROM t1, t2 WHERE t1.x = t2.y) AS s`: all other columns of the two tables are lost. -/
theorem C215_star_violated (ord : Finset Col → List Col) :
    moveIntoSubquery noOps (fun _ => false) ord some qpStar qStar [1, 2] 9 =
      some ⟨[.nested (.sub ⟨ord {cx, cy}, [1, 2], some jXY, 9⟩)], none, [.star none]⟩ := by
  rw [move_eq noOps (fun _ => false) ord some qpStar qStar [1, 2] 9 {cx, cy} [jXY] none (by decide +kernel)
    (by decide +kernel) (by decide) (by decide +kernel) (by decide +kernel) (by decide +kernel) (by decide +kernel)
    (by decide +kernel)]
  have hc : createAnd [jXY] = some jXY := by decide +kernel
  have hf : (qStar.items.filter fun i => !strictSubset i [1, 2]) = [] := rfl
  simp only [hc, hf]
  simp [renameO, renameL, renameE, qStar]

theorem selected_singleton (J : Interp Q V) (srcs : List (Tab × Multiset (Row V))) (w : Option (Expr Q)) (a : Rows V)
    (h : combos (fun _ _ => J.null) srcs = {a}) (hw : ∀ p, w = some p → J.Holds (J.col a) p) :
    J.selected srcs w = {a} := by
  rw [Interp.selected, h, Multiset.filter_singleton, if_pos hw]

/-- `SELECT 1 FROM t1, t2 WHERE t1.x = t2.y OR t1.z = 1` -/
def wMixed : Expr Unit := .compound .or [jXY, fZ 1]
def qMixed : Query Unit := ⟨[.table 1, .table 2], some wMixed, [.static (.num 1)]⟩
def qpMixed : QueryPreds Unit := ⟨some wMixed, [fZ 1], [jXY], [1, 2], [({some 1, some 2}, jXY)]⟩

theorem qpMixed_valid : qpMixed.Valid noOps where
  filters := by
    have h : wMixed.collectFilters = [fZ 1] := by decide +kernel
    intro p; simp [qpMixed, h]
  joins := by
    have h : wMixed.collectJoins = [jXY] := by decide +kernel
    intro p; simp [qpMixed, h]
  filtersNodup := by decide +kernel
  joinsNodup := by decide +kernel
  tabs := by
    have h : wMixed.tables noOps = {1, 2} := by decide +kernel
    intro p; simp [qpMixed, h]
  map := by decide +kernel

/-- Numbers, with 1 for true and other numbers for false; `=` compares. -/
def jNat : Interp Unit Nat where
  A e vs := match e, vs with
    | .binary .eq _ _, [a, b] => if a = b then 1 else 0
    | .static _, _ => 1
    | _, _ => 0
  S _ _ := 0
  B v := some (decide (v = 1))
  env _ := 0
  null := 0

/-- One row of `t1` with `x = 3` and `z = 1`, one row of `t2` with `y = 4`. -/
def dEx (t : Tab) : Multiset (Row Nat) :=
  if t = 1 then {fun n => if n = 10 then 3 else 1} else if t = 2 then {fun _ => 4} else 0

/-- **C215 (violated).** `SELECT 1 FROM t1, t2 WHERE t1.x = t2.y OR t1.z = 1` becomes
`SELECT 1 FROM (SELECT … FROM t1, t2 WHERE t1.z = 1 AND t1.x = t2.y) AS s`. For one row `(x, z) = (3, 1)` of `t1` and
one row `y = 4` of `t2` the original query has one row, the new one has none. -/
theorem C215_mixed_violated (ord : Finset Col → List Col) :
    ∃ q', moveIntoSubquery noOps (fun _ => false) ord some qpMixed qMixed [1, 2] 9 = some q' ∧
      q'.where_ = none ∧
      (∃ s, q'.items = [.nested (.sub s)] ∧ s.where_ = some (.compound .and [fZ 1, jXY])) ∧
      jNat.answer dEx qMixed = some {[1]} ∧ jNat.answer dEx q' = some 0 := by
  rw [move_eq noOps (fun _ => false) ord some qpMixed qMixed [1, 2] 9 {cx, cy, ⟨some 1, 30⟩} [fZ 1, jXY] none
    (by decide +kernel) (by decide +kernel) (by decide) (by decide +kernel) (by decide +kernel) (by decide +kernel)
    (by decide +kernel) (by decide +kernel)]
  have hc : createAnd [fZ 1, jXY] = some (.compound .and [fZ 1, jXY]) := by decide +kernel
  have hf : (qMixed.items.filter fun i => !strictSubset i [1, 2]) = [] := rfl
  simp only [hc, hf]
  refine ⟨_, by simp only [renameO, renameL, renameE, qMixed, Option.map_some, Option.bind_some]; rfl, rfl, ⟨_, rfl, rfl⟩,
    ?_, ?_⟩
  · have hw : jNat.Holds (jNat.col (Function.update (Function.update (fun _ _ => jNat.null) 1 fun n => if n = 10 then 3 else 1) 2
        fun _ => 4)) wMixed := by
      simp [Interp.Holds, Accepts, wMixed, jXY, fZ, truth, Interp.value, eval, subs, blank, jNat, Interp.col, cx, cy, or3]
    have hs := selected_singleton jNat [(1, dEx 1), (2, dEx 2)] (some wMixed) _ (by simp [combos, dEx]; rfl)
      (by rintro p hp; cases hp; exact hw)
    have : jNat.answer dEx qMixed =
        some ((jNat.selected [(1, dEx 1), (2, dEx 2)] (some wMixed)).map fun a => qMixed.others.map (jNat.value (jNat.col a))) := rfl
    rw [this, hs]
    simp [qMixed, Interp.value, eval, subs, blank, jNat]
  · simp only [Interp.answer, List.mapM_cons, List.mapM_nil, Interp.source, Option.pure_def, Option.bind_eq_bind,
      Option.bind_some, Option.map_some, Interp.selected, combos, dEx, List.map_cons, List.map_nil, List.append_eq,
      List.nil_append]
    simp [Multiset.filter_singleton]
    simp [Interp.Holds, Accepts, jXY, fZ, truth, Interp.value, eval, subs, blank, jNat, Interp.col, cx, cy, and3]


/-- `SELECT 1 FROM t1, t2, t3 WHERE t1.x = t2.y AND (t1.z = 1 OR t3.w = 5)` -/
def orEx : Expr Unit := .compound .or [fZ 1, .binary .eq (.col ⟨some 3, 40⟩) (.static (.num 5))]
def wScope : Expr Unit := .compound .and [jXY, orEx]
def qScope : Query Unit := ⟨[.table 1, .table 2, .table 3], some wScope, [.static (.num 1)]⟩
def qpScope : QueryPreds Unit := ⟨some wScope, [orEx], [jXY], [1, 2, 3], [({some 1, some 2}, jXY)]⟩

theorem qpScope_valid : qpScope.Valid noOps where
  filters := by
    have h : wScope.collectFilters = [orEx] := by decide +kernel
    intro p; simp [qpScope, h]
  joins := by
    have h : wScope.collectJoins = [jXY] := by decide +kernel
    intro p; simp [qpScope, h]
  filtersNodup := by decide +kernel
  joinsNodup := by decide +kernel
  tabs := by
    have h : wScope.tables noOps = {1, 2, 3} := by decide +kernel
    intro p; simp [qpScope, h]
  map := by decide +kernel

/-- **C215 (violated).** Moving `t1` and `t2` of
`SELECT 1 FROM t1, t2, t3 WHERE t1.x = t2.y AND (t1.z = 1 OR t3.w = 5)` creates a subquery over `t1` and `t2` whose WHERE
clause still uses `t3.w`, which is not available there: the result is not a valid query. -/
theorem C215_scope_violated (ord : Finset Col → List Col) :
    ∃ q' s, moveIntoSubquery noOps (fun _ => false) ord some qpScope qScope [1, 2] 9 = some q' ∧
      q'.items = [.nested (.table 3), .nested (.sub s)] ∧ s.tables = [1, 2] ∧
      ∃ p, s.where_ = some p ∧ Sub (.col ⟨some 3, 40⟩) p := by
  rw [move_eq noOps (fun _ => false) ord some qpScope qScope [1, 2] 9 {cx, cy, ⟨some 1, 30⟩} [orEx, jXY] none
    (by decide +kernel) (by decide +kernel) (by decide) (by decide +kernel) (by decide +kernel) (by decide +kernel)
    (by decide +kernel) (by decide +kernel)]
  have hc : createAnd [orEx, jXY] = some (.compound .and [orEx, jXY]) := by decide +kernel
  have hf : (qScope.items.filter fun i => !strictSubset i [1, 2]) = [.table 3] := rfl
  simp only [hc, hf]
  refine ⟨_, _, by simp only [renameO, renameL, renameE, qScope, Option.map_some, Option.bind_some]; rfl, rfl, rfl, _, rfl, ?_⟩
  have : (⟨some 3, 40⟩ : Col) ∈ (Expr.compound .and [orEx, jXY]).columns noOps := by decide +kernel
  obtain ⟨s, hs, rfl | ⟨q, rfl, _⟩⟩ := C82_columns_sound noOps _ _ this
  · exact hs
  · exact absurd hs (noSubq_of _ (by decide +kernel) q)

/-- `SELECT 1 FROM t1 JOIN t2 ON … JOIN t3 ON … WHERE t1.x = t2.y` -/
def qJoin : Query Unit := ⟨[.join [1, 2, 3]], some jXY, [.static (.num 1)]⟩

/-- **C215 (violated).** For a query with explicit joins of `t1`, `t2` and `t3`, moving `t1` and `t2` keeps the whole
join and adds the subquery over `t1` and `t2` beside it, without any condition that connects the two. -/
theorem C215_explicit_violated (ord : Finset Col → List Col) :
    moveIntoSubquery noOps (fun _ => false) ord some qpStar qJoin [1, 2] 9 =
      some ⟨[.nested (.join [1, 2, 3]), .nested (.sub ⟨ord {cx, cy}, [1, 2], some jXY, 9⟩)], none,
        [.static (.num 1)]⟩ := by
  rw [move_eq noOps (fun _ => false) ord some qpStar qJoin [1, 2] 9 {cx, cy} [jXY] none (by decide +kernel)
    (by decide +kernel) (by decide) (by decide +kernel) (by decide +kernel) (by decide +kernel) (by decide +kernel)
    (by decide +kernel)]
  have hc : createAnd [jXY] = some jXY := by decide +kernel
  have hf : (qJoin.items.filter fun i => !strictSubset i [1, 2]) = [.join [1, 2, 3]] := rfl
  simp only [hc, hf]
  simp [renameO, renameL, renameE, qJoin]

/-- **C215 (violated).** What `tables()` reports for the FROM clause of a transformed query are no table references:
its tables cannot be moved again, whatever they are. -/
theorem C215_tables_violated [DecidableEq Q] (ops : QOps Q) (virtual : Tab → Bool) (ord : Finset Col → List Col)
    (ren : Q → Option Q) (qp : QueryPreds Q) (q q' : Query Q) (ts : List Tab) (name : Tab)
    (h : moveIntoSubquery ops virtual ord ren qp q ts name = some q') :
    (∀ i ∈ q'.items, ∀ r ∈ i.tables, ∃ j, r = .source j) ∧ (∃ i, i ∈ q'.items) ∧
    ∀ virtual' ord' ren' qp' ts' name', moveIntoSubquery ops virtual' ord' ren' qp' q' ts' name' = none := by
  have hi : ∃ l s, q'.items = (l ++ [Item.sub s]).map Item.nested := by
    unfold moveIntoSubquery at h
    split at h; · cases h
    split at h; · cases h
    split at h; · cases h
    simp only at h
    split at h; · cases h
    split at h; · cases h
    simp only [Option.bind_eq_some_iff, Option.map_eq_some_iff] at h
    obtain ⟨w, _, w', _, os, _, rfl⟩ := h
    exact ⟨_, _, rfl⟩
  obtain ⟨l, s, hi⟩ := hi
  refine ⟨?_, ⟨.nested (.sub s), by rw [hi]; simp⟩, ?_⟩
  · intro i h r hr
    rw [hi] at h
    obtain ⟨j, _, rfl⟩ := List.mem_map.1 h
    simp only [Item.tables, List.mem_singleton] at hr
    exact ⟨j, hr⟩
  · intro virtual' ord' ren' qp' ts' name'
    have hv : virtualCheck ops virtual' q' = none := by
      rw [virtualCheck, Option.map_eq_none_iff, hi]
      clear hi
      cases l with
      | nil => rfl
      | cons a l => simp [Item.tables, isVirtual]
    unfold moveIntoSubquery
    split
    · rfl
    · simp [hv]

/-- **C215 (violated).** The default name of the subquery for the tables `r` and `s` is the name of a third table
`r_s`: if the query contains it, the transformed query contains two tables with the same name. -/
theorem C215_name_violated : ∃ ident : Tab → String, ident 0 = "r" ∧ ident 1 = "s" ∧ ident 2 = "r_s" ∧
    defaultName ident [0, 1] = ident 2 :=
  ⟨fun n => if n = 0 then "r" else if n = 1 then "s" else "r_s", by decide +kernel⟩

end PB.MoveSubProps
