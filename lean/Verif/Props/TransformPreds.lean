import Verif.Model.Transform
import Verif.Props.EquivClasses
import Mathlib.Data.List.ReduceOption

set_option linter.unusedSimpArgs false
set_option linter.unusedVariables false
set_option linter.unusedSectionVars false
set_option linter.unnecessarySimpa false

/-! Properties C37, C38, C39, C40, C89: transformations of predicates. -/

namespace PB.TransformProps
open PB PB.Qal PB.Qal.Expr PB.ExprProps PB.PredProps PB.QueryPredsProps PB.EquivProps PB.Transform

variable {Q : Type}

/-! ### Specification vocabulary -/

/-- `BoolPart s e`: the predicate `s` occurs in `e`, below AND, OR and NOT only. -/
inductive BoolPart (s : Expr Q) : Expr Q → Prop
  | refl : BoolPart s s
  | step {c op cs} : c ∈ cs → BoolPart s c → BoolPart s (.compound op cs)

/-- `AndPart d e`: the conjunction `d` is nested in the conjunction `e`, below AND only. -/
inductive AndPart (d : Expr Q) : Expr Q → Prop
  | here {cs} : d ∈ cs → (∃ ds, d = .compound .and ds) → AndPart d (.compound .and cs)
  | deep {c cs} : c ∈ cs → AndPart d c → AndPart d (.compound .and cs)

/-- A conjunction that does not just repeat a single AND/OR/NOT predicate. -/
def Varied (d : Expr Q) : Prop :=
  (∃ p ∈ conjuncts d, ∃ q ∈ conjuncts d, p ≠ q) ∨ ∃ p ∈ conjuncts d, p.isCompound = false

theorem BoolPart.sub {s e : Expr Q} (h : BoolPart s e) : Sub s e := by
  induction h with
  | refl => exact .refl _
  | step hc _ ih => exact ih.trans (.of_mem hc)

theorem BoolPart.trans {a b c : Expr Q} (h : BoolPart a b) (h' : BoolPart b c) : BoolPart a c := by
  induction h' with
  | refl => exact h
  | step hc _ ih => exact .step hc ih

/-! ### Truth values of conjunctions -/

theorem and3_congr {l l' : List (Option Bool)} (h : ∀ x, x ∈ l ↔ x ∈ l') : and3 l = and3 l' := by
  simp only [and3, h]

theorem and3_eq (l : List (Option Bool)) (x : Option Bool) :
    and3 l = x ↔ (x = some false ∧ some false ∈ l) ∨ (x = none ∧ some false ∉ l ∧ none ∈ l) ∨
      (x = some true ∧ some false ∉ l ∧ none ∉ l) := by
  unfold and3
  split
  · rename_i h; simp [h, eq_comm]
  · rename_i h; split
    · rename_i h2; simp [h, h2, eq_comm]
    · rename_i h2; simp [h, h2, eq_comm]

theorem and3_flatMap {α : Type} (ls : List α) (f : α → List (Option Bool)) :
    and3 (ls.map fun c => and3 (f c)) = and3 (ls.flatMap f) := by
  have h1 : some false ∈ ls.map (fun c => and3 (f c)) ↔ some false ∈ ls.flatMap f := by
    simp [and3_eq]
  by_cases hf : some false ∈ ls.flatMap f
  · rw [and3, if_pos (h1.2 hf), and3, if_pos hf]
  · rw [and3, if_neg (h1.not.2 hf), and3, if_neg hf]
    have h2 : none ∈ ls.map (fun c => and3 (f c)) ↔ none ∈ ls.flatMap f := by
      simp only [List.mem_map, and3_eq, List.mem_flatMap] at hf ⊢
      push Not at hf
      constructor
      · rintro ⟨c, hc, h | h | h⟩
        · exact absurd h.1 (by simp)
        · exact ⟨c, hc, h.2.2⟩
        · exact absurd h.1 (by simp)
      · rintro ⟨c, hc, h⟩
        exact ⟨c, hc, .inr (.inl ⟨trivial, hf c hc, h⟩)⟩
    simp only [h2]

theorem and3_one (x : Option Bool) : and3 [x] = x := by
  cases x with
  | none => simp [and3]
  | some b => cases b <;> simp [and3]

/-- The truth value of a predicate is that of the conjunction of its conjuncts. -/
theorem truth_conjuncts (I : Expr Q → Option Bool) (e : Expr Q) : truth I e = and3 ((conjuncts e).map (truth I)) := by
  induction e using Expr.ind with
  | h e ih =>
    by_cases he : ∃ cs, e = .compound .and cs
    · obtain ⟨cs, rfl⟩ := he
      rw [truth, conjuncts, List.map_flatMap, ← and3_flatMap]
      congr 1
      exact List.map_congr_left fun c hc => ih c hc
    · rw [conjuncts_other (by simpa using he)]; simp [and3_one]

theorem truth_createAnd (I : Expr Q → Option Bool) {ps : List (Expr Q)} {p : Expr Q} (h : createAnd ps = some p) :
    truth I p = and3 (ps.map (truth I)) := by
  match ps with
  | [] => simp [createAnd] at h
  | [a] => simp [createAnd] at h; subst h; simp [and3_one]
  | a :: b :: ps => simp only [createAnd, Option.some.injEq] at h; subst h; rw [truth]

/-! ### C38: flattening conjunctions -/

theorem isAnd_iff (e : Expr Q) : isAnd e = true ↔ ∃ cs, e = .compound .and cs := by
  cases e with
  | compound op cs => cases op <;> simp [isAnd]
  | _ => simp [isAnd]

theorem flattenAnd_other [DecidableEq Q] (ord : List (Expr Q) → List (Expr Q)) {e : Expr Q} (h : isAnd e = false) :
    flattenAnd ord e = some e := by
  cases e with
  | compound op cs => cases op <;> simp [isAnd, flattenAnd] at h ⊢
  | _ => simp [flattenAnd]

theorem contribution_base {e : Expr Q} (h : e.isCompound = false) : contribution e = some [e] := by
  cases e <;> simp [contribution, isCompound] at h ⊢

theorem flattenParts_ok [DecidableEq Q] (ord : List (Expr Q) → List (Expr Q)) (cs : List (Expr Q))
    (h : ∀ c ∈ cs, ∃ l, (if isAnd c then (flattenAnd ord c).bind contribution else some [c]) = some l ∧
      ∀ p, p ∈ l ↔ p ∈ conjuncts c) :
    ∃ ps, flattenParts ord cs = some ps ∧ ∀ p, p ∈ ps ↔ p ∈ cs.flatMap conjuncts := by
  induction cs with
  | nil => exact ⟨[], by simp [flattenParts], by simp⟩
  | cons c cs ih =>
    obtain ⟨ps, hps, hmem⟩ := ih fun d hd => h d (by simp [hd])
    obtain ⟨l, hl, hlm⟩ := h c (by simp)
    refine ⟨l ++ ps, ?_, ?_⟩
    · rw [flattenParts, hl, hps]; rfl
    · intro p; rw [List.mem_append, hlm, hmem]; simp

theorem conjuncts_ne_nil (e : Expr Q) (hb : Built e) : conjuncts e ≠ [] := by
  induction e using Expr.ind with
  | h e ih =>
    by_cases he : ∃ cs, e = .compound .and cs
    · obtain ⟨cs, rfl⟩ := he
      have := hb _ (.refl _)
      simp only [builtNode, decide_eq_true_eq] at this
      match cs, this with
      | c :: cs, _ =>
        have := ih c (by simp [subs]) (hb.sub (.of_mem (by simp [subs])))
        simp [conjuncts, this]
    · rw [conjuncts_other (by simpa using he)]; simp

theorem flatten_parts [DecidableEq Q] (ord : List (Expr Q) → List (Expr Q)) (hord : ∀ l, (ord l).Perm l) (e : Expr Q) :
    Built e → (∀ d, AndPart d e → Varied d) →
      ∀ cs, e = .compound .and cs → ∃ ps, flattenParts ord cs = some ps ∧ ∀ p, p ∈ ps ↔ p ∈ conjuncts e := by
  induction e using Expr.ind with
  | h e ih =>
    intro hb hv cs he
    subst he
    have hc : ∀ p, p ∈ conjuncts (.compound .and cs) ↔ p ∈ cs.flatMap conjuncts := by intro p; rw [conjuncts]
    simp only [hc]
    refine flattenParts_ok ord cs fun c hcs => ?_
    by_cases ha : isAnd c = true
    · rw [if_pos ha]
      obtain ⟨ds, rfl⟩ := (isAnd_iff c).1 ha
      obtain ⟨ps, hps, hmem⟩ := ih _ (by simpa [subs] using hcs) (hb.sub (.of_mem (by simpa [subs] using hcs)))
        (fun d hd => hv d (.deep hcs hd)) ds rfl
      have hvar := hv _ (.here hcs ⟨ds, rfl⟩)
      rw [flattenAnd, hps, Option.bind_some]
      have hmem' : ∀ p, p ∈ ord ps.dedup ↔ p ∈ conjuncts (.compound .and ds) := by
        intro p; rw [(hord _).mem_iff, List.mem_dedup, hmem]
      match hl : ord ps.dedup with
      | [] =>
        rw [hl] at hmem'
        exact absurd (List.eq_nil_iff_forall_not_mem.2 fun p hp => by simpa using (hmem' p).2 hp)
          (conjuncts_ne_nil _ (hb.sub (.of_mem (by simpa [subs] using hcs))))
      | [p] =>
        rw [hl] at hmem'
        simp only [List.mem_singleton] at hmem'
        have hp : p.isCompound = false := by
          rcases hvar with ⟨a, ha, b, hb, hab⟩ | ⟨a, ha, h⟩
          · exact absurd (((hmem' a).2 ha).trans ((hmem' b).2 hb).symm) hab
          · rw [← (hmem' a).2 ha]; exact h
        exact ⟨[p], by rw [createAnd, Option.bind_some, contribution_base hp], by simpa using hmem'⟩
      | a :: b :: l =>
        rw [hl] at hmem'
        exact ⟨a :: b :: l, by simp [createAnd, contribution], hmem'⟩
    · rw [if_neg ha]
      refine ⟨[c], rfl, ?_⟩
      rw [conjuncts_other (fun ds h => ha ((isAnd_iff c).2 ⟨ds, h⟩))]
      simp

/-- **C38 (partial).** Flattening a predicate yields a predicate with the same truth value on every row. It is a flat
conjunction of the different conjuncts of the input, none of which is a conjunction (or the only conjunct). `ord` is
the arbitrary order in which a set is iterated. Missing: nested conjunctions that repeat a single AND/OR/NOT predicate,
see `C38_flatten_violated`. -/
theorem C38_flatten_partial [DecidableEq Q] (ord : List (Expr Q) → List (Expr Q)) (hord : ∀ l, (ord l).Perm l)
    (e : Expr Q) (hb : Built e) (hv : ∀ d, AndPart d e → Varied d) :
    ∃ f, flattenAnd ord e = some f ∧ (∀ I, truth I f = truth I e) ∧ (∀ I, Accepts I f ↔ Accepts I e) ∧
      (∀ p, p ∈ conjuncts f ↔ p ∈ conjuncts e) ∧
      ((∃ ps, f = .compound .and ps ∧ ps.Nodup ∧ 2 ≤ ps.length ∧ ∀ p ∈ ps, ∀ cs, p ≠ .compound .and cs) ∨
        ∀ cs, f ≠ .compound .and cs) := by
  by_cases ha : isAnd e = true
  · obtain ⟨cs, rfl⟩ := (isAnd_iff e).1 ha
    obtain ⟨ps, hps, hmem⟩ := flatten_parts ord hord _ hb hv cs rfl
    have hmem' : ∀ p, p ∈ ord ps.dedup ↔ p ∈ conjuncts (.compound .and cs) := by
      intro p; rw [(hord _).mem_iff, List.mem_dedup, hmem]
    have hnd : (ord ps.dedup).Nodup := (hord _).nodup_iff.2 (List.nodup_dedup _)
    have hne : ord ps.dedup ≠ [] := fun h => by
      rw [h] at hmem'
      exact conjuncts_ne_nil _ hb (List.eq_nil_iff_forall_not_mem.2 fun p hp => by simpa using (hmem' p).2 hp)
    obtain ⟨f, hf⟩ := createAnd_some.2 hne
    have htruth : ∀ I, truth I f = truth I (.compound .and cs) := by
      intro I
      rw [truth_createAnd I hf, truth_conjuncts I (.compound .and cs)]
      exact and3_congr fun x => by simp only [List.mem_map, hmem']
    have hand : ∀ p ∈ ord ps.dedup, ∀ cs, p ≠ .compound .and cs :=
      fun p hp => conjuncts_not_and _ p ((hmem' p).1 hp)
    refine ⟨f, by rw [flattenAnd, hps]; exact hf, htruth, fun I => by rw [Accepts, Accepts, htruth], ?_, ?_⟩
    · intro p
      rw [← hmem']
      match hl : ord ps.dedup with
      | [] => exact absurd hl hne
      | [a] =>
        rw [hl] at hf hand; simp only [createAnd, Option.some.injEq] at hf; subst hf
        rw [conjuncts_other (hand a (by simp))]
      | a :: b :: l =>
        rw [hl] at hf hand; simp only [createAnd, Option.some.injEq] at hf; subst hf
        rw [conjuncts]
        simp only [List.mem_flatMap]
        constructor
        · rintro ⟨c, hc, hp⟩
          rw [conjuncts_other (hand c hc)] at hp
          rw [List.mem_singleton.1 hp]; exact hc
        · intro hp; exact ⟨p, hp, by rw [conjuncts_other (hand p hp)]; simp⟩
    · match hl : ord ps.dedup with
      | [] => exact absurd hl hne
      | [a] =>
        rw [hl] at hf hand; simp only [createAnd, Option.some.injEq] at hf; subst hf
        exact .inr (hand a (by simp))
      | a :: b :: l =>
        rw [hl] at hf hand hnd; simp only [createAnd, Option.some.injEq] at hf; subst hf
        exact .inl ⟨_, rfl, hnd, by simp, hand⟩
  · have ha' : isAnd e = false := by simpa using ha
    exact ⟨e, flattenAnd_other ord ha', fun _ => rfl, fun _ => Iff.rfl, fun _ => Iff.rfl,
      .inr fun cs h => ha ((isAnd_iff e).2 ⟨cs, h⟩)⟩

/-- `(t1.z = 1 AND (t1.z = 2 OR t1.z = 3)) AND t1.z = 1` meets the hypotheses. -/
def nested1 : Expr Unit :=
  .compound .and [.compound .and [fZ 1, .compound .or [fZ 2, fZ 3]], fZ 1]

example : Built nested1 ∧ (∀ d, AndPart d nested1 → Varied d) ∧
    flattenAnd id nested1 = some (.compound .and [.compound .or [fZ 2, fZ 3], fZ 1]) := by
  refine ⟨(everywhere_iff _ _).1 (by decide +kernel), ?_, by decide +kernel⟩
  intro d hd
  have : d = .compound .and [fZ 1, .compound .or [fZ 2, fZ 3]] := by
    rcases hd with ⟨h, ds, rfl⟩ | ⟨hc, h⟩
    · simp [fZ] at h ⊢; exact h
    · simp only [List.mem_cons, List.not_mem_nil, or_false] at hc
      rcases hc with rfl | rfl
      · rcases h with ⟨h, ds, rfl⟩ | ⟨hc, h⟩
        · simp [fZ] at h
        · simp only [List.mem_cons, List.not_mem_nil, or_false] at hc
          rcases hc with rfl | rfl <;> cases h
      · cases h
  subst this
  exact .inr ⟨fZ 1, by decide +kernel, rfl⟩

/-- **C38 is violated.** `((p OR q) AND (p OR q)) AND r` is flattened to `p AND q AND r`, and a conjunction that
repeats a NOT makes the function fail. -/
theorem C38_flatten_violated :
    (∃ (e f : Expr Unit) (I : Expr Unit → Option Bool), Built e ∧ flattenAnd id e = some f ∧ Accepts I e ∧ ¬ Accepts I f) ∧
    ∃ e : Expr Unit, Built e ∧ flattenAnd id e = none := by
  constructor
  · refine ⟨.compound .and [.compound .and [.compound .or [fZ 1, fZ 2], .compound .or [fZ 1, fZ 2]], fZ 3],
      .compound .and [fZ 1, fZ 2, fZ 3], fun e => some (decide (e ≠ fZ 2)),
      (everywhere_iff _ _).1 (by decide +kernel), by decide +kernel, ?_, ?_⟩
    · unfold Accepts; decide +kernel
    · unfold Accepts; decide +kernel
  · exact ⟨.compound .and [.compound .and [.compound .not [fZ 1], .compound .not [fZ 1]], fZ 3],
      (everywhere_iff _ _).1 (by decide +kernel), by decide +kernel⟩

/-! ### C89: explicit joins -/

/-- The tables in a source and the join conditions in it (none: it has a source other than a table or inner join). -/
def leaves : Source Q → List Tab
  | .direct t => [t]
  | .inner l r _ => leaves l ++ leaves r
  | .other => []

def conditions : Source Q → List (Expr Q)
  | .direct _ => []
  | .inner l r c => c :: (conditions l ++ conditions r)
  | .other => []

/-- Only tables and inner joins. -/
def Convertible : Source Q → Prop
  | .direct _ => True
  | .inner l r _ => Convertible l ∧ Convertible r
  | .other => False

theorem implicitLoop_spec (ws : List (Source Q)) :
    ((∀ s ∈ ws, Convertible s) → ∃ r, implicitLoop ws = some r ∧ r.1.Perm (ws.flatMap leaves) ∧
      r.2.Perm (ws.flatMap conditions)) ∧
    ((∃ s ∈ ws, ¬ Convertible s) → implicitLoop ws = none) := by
  induction ws using implicitLoop.induct with
  | case1 => simp [implicitLoop]
  | case2 t ws ih =>
    constructor
    · intro h
      obtain ⟨r, hr, h1, h2⟩ := ih.1 fun s hs => h s (by simp [hs])
      exact ⟨(t :: r.1, r.2), by rw [implicitLoop, hr]; rfl, by simpa [leaves] using h1, by simpa [conditions] using h2⟩
    · rintro ⟨s, hs, hn⟩
      rw [implicitLoop, ih.2, Option.map_none]
      rcases List.mem_cons.1 hs with rfl | hs
      · exact absurd trivial hn
      · exact ⟨s, hs, hn⟩
  | case3 l r c ws ih =>
    constructor
    · intro h
      have h0 := h (.inner l r c) (by simp)
      obtain ⟨x, hx, h1, h2⟩ := ih.1 (by
        intro s hs
        rcases List.mem_cons.1 hs with rfl | hs
        · exact h0.2
        · rcases List.mem_cons.1 hs with rfl | hs
          · exact h0.1
          · exact h s (by simp [hs]))
      refine ⟨(x.1, c :: x.2), by rw [implicitLoop, hx]; rfl, ?_, ?_⟩
      · refine h1.trans ?_
        simp only [List.flatMap_cons, leaves]
        rw [← List.append_assoc]
        exact List.Perm.append_right _ List.perm_append_comm
      · simp only [List.flatMap_cons, conditions, List.cons_append]
        refine (h2.trans ?_).cons c
        simp only [List.flatMap_cons]
        rw [← List.append_assoc]
        exact List.Perm.append_right _ List.perm_append_comm
    · rintro ⟨s, hs, hn⟩
      rw [implicitLoop, ih.2, Option.map_none]
      rcases List.mem_cons.1 hs with rfl | hs
      · rw [Convertible, not_and_or] at hn
        rcases hn with hn | hn
        · exact ⟨l, by simp, hn⟩
        · exact ⟨r, by simp, hn⟩
      · exact ⟨s, by simp [hs], hn⟩
  | case4 ws =>
    constructor
    · intro h; exact absurd (h .other (by simp)) (by simp [Convertible])
    · intro _; rw [implicitLoop]

/-- **C89.** A FROM clause with anything but tables and inner joins is rejected. -/
theorem C89_unsupported [DecidableEq Q] (ord : List (Expr Q) → List (Expr Q)) (from_ : List (Source Q))
    (where_ : Option (Expr Q)) (h : ∃ s ∈ from_, ¬ Convertible s) : explicitToImplicit ord from_ where_ = none := by
  rw [explicitToImplicit, (implicitLoop_spec _).2 (by simpa using h)]; rfl

/-- **C89 (partial).** For tables and inner joins with at least one condition (or a WHERE clause), the result lists the
same tables (with multiplicity), and its WHERE clause accepts exactly the rows that satisfy the original WHERE clause
and all join conditions. Missing: conditions for which flattening fails (`C38_flatten_violated`) and queries without
any condition, see `C89_violated`. -/
theorem C89_explicit_to_implicit_partial [DecidableEq Q] (ord : List (Expr Q) → List (Expr Q))
    (hord : ∀ l, (ord l).Perm l) (from_ : List (Source Q)) (where_ : Option (Expr Q))
    (hs : ∀ s ∈ from_, Convertible s)
    (hne : where_ ≠ none ∨ ∃ s ∈ from_, conditions s ≠ [])
    (hb : ∀ p, (p ∈ where_ ∨ ∃ s ∈ from_, p ∈ conditions s) →
      Built p ∧ (∀ d, AndPart d p → Varied d) ∧ ((∃ cs, p = .compound .and cs) → Varied p)) :
    ∃ ts f, explicitToImplicit ord from_ where_ = some (ts, f) ∧ ts.Perm (from_.flatMap leaves) ∧
      ∀ I, Accepts I f ↔ (∀ p, where_ = some p → Accepts I p) ∧ ∀ s ∈ from_, ∀ p ∈ conditions s, Accepts I p := by
  obtain ⟨r, hr, h1, h2⟩ := (implicitLoop_spec from_.reverse).1 (by simpa using hs)
  have hmem2 : ∀ p, p ∈ r.2 ↔ ∃ s ∈ from_, p ∈ conditions s := by
    intro p; rw [h2.mem_iff]; simp
  have hmem : ∀ p, p ∈ where_.toList ++ r.2 ↔ p ∈ where_ ∨ ∃ s ∈ from_, p ∈ conditions s := by
    intro p; rw [List.mem_append, hmem2]; simp
  have hne' : where_.toList ++ r.2 ≠ [] := by
    intro h0
    rw [h0] at hmem
    rcases hne with h | ⟨s, hs', h⟩
    · obtain ⟨w, hw⟩ := Option.ne_none_iff_exists'.1 h
      simpa using (hmem w).2 (.inl hw)
    · obtain ⟨p, hp⟩ := List.exists_mem_of_ne_nil _ h
      simpa using (hmem p).2 (.inr ⟨s, hs', hp⟩)
  obtain ⟨p, hp⟩ := createAnd_some.2 hne'
  have hpb : Built p ∧ ∀ d, AndPart d p → Varied d := by
    match hl : where_.toList ++ r.2 with
    | [] => exact absurd hl hne'
    | [a] =>
      rw [hl] at hp hmem; simp only [createAnd, Option.some.injEq] at hp; subst hp
      have := hb a ((hmem a).1 (by simp))
      exact ⟨this.1, this.2.1⟩
    | a :: b :: l =>
      rw [hl] at hp hmem; simp only [createAnd, Option.some.injEq] at hp; subst hp
      constructor
      · intro s hs
        cases hs with
        | refl => simp [builtNode]
        | step hm h => exact (hb _ ((hmem _).1 (by simpa [subs] using hm))).1 _ h
      · intro d hd
        cases hd with
        | here hm hand => exact (hb d ((hmem d).1 hm)).2.2 hand
        | deep hm h => exact (hb _ ((hmem _).1 hm)).2.1 d h
  obtain ⟨f, hf, _, hacc, _⟩ := C38_flatten_partial ord hord p hpb.1 hpb.2
  refine ⟨r.1, f, ?_, ?_, ?_⟩
  · rw [explicitToImplicit, hr, Option.bind_some, hp, Option.bind_some, hf]; rfl
  · exact h1.trans ((List.reverse_perm _).flatMap_right _)
  · intro I
    rw [hacc, (C84_create_and _).2 p hp I]
    simp only [hmem]
    constructor
    · intro h; exact ⟨fun p hp => h p (.inl hp), fun s hs p hp => h p (.inr ⟨s, hs, hp⟩)⟩
    · rintro ⟨ha, hb⟩ q (hq | ⟨s, hs, hq⟩)
      · exact ha q hq
      · exact hb s hs q hq

example : explicitToImplicit id [.inner (.inner (.direct 1) (.direct 2) jXY) (.direct 3) jLt] (some (fZ 1)) =
    some ([3, 2, 1], .compound .and [fZ 1, jLt, jXY]) := by decide +kernel

/-- **C89 is violated.** A query over a single table without any condition is rejected. -/
theorem C89_violated : explicitToImplicit id [.direct 1] (none : Option (Expr Unit)) = none := by decide +kernel

/-! ### C39: fragments -/

/-- No NOT among the AND/OR structure of the predicate. -/
def NotFree (e : Expr Q) : Prop := ∀ cs, ¬ BoolPart (.compound .not cs) e

/-- The base predicate only uses the given tables. -/
def Within (ops : QOps Q) (ts : Finset Tab) (p : Expr Q) : Prop := p.tables ops ⊆ ts

theorem NotFree.child {op : CompOp} {cs : List (Expr Q)} (h : NotFree (.compound op cs)) {c : Expr Q} (hc : c ∈ cs) :
    NotFree c := fun ds hd => h ds (.step hc hd)

theorem NotFree.op {op : CompOp} {cs : List (Expr Q)} (h : NotFree (.compound op cs)) : op ≠ .not := by
  rintro rfl; exact h cs .refl

theorem mem_base_compound {op : CompOp} {cs : List (Expr Q)} {p : Expr Q} :
    p ∈ (Expr.compound op cs).basePredicates ↔ ∃ c ∈ cs, p ∈ c.basePredicates := by
  simp only [basePredicates, List.mem_flatMap]

theorem base_other {e : Expr Q} (h : e.isCompound = false) : e.basePredicates = [e] := by
  cases e <;> simp [basePredicates, isCompound] at h ⊢

theorem fragment_other (ops : QOps Q) (ts : Finset Tab) {e : Expr Q} (h : e.isCompound = false) :
    fragment ops ts e = some (if e.tables ops ⊆ ts then some e else none) := by
  cases e <;> simp [fragment, isCompound] at h ⊢

theorem compound_cases (e : Expr Q) : e.isCompound = false ∨ ∃ op cs, e = .compound op cs := by
  cases e <;> simp [isCompound]

theorem fragments_forall (ops : QOps Q) (ts : Finset Tab) (cs : List (Expr Q))
    (h : ∀ c ∈ cs, ∃ f, fragment ops ts c = some f) :
    ∃ fs, fragments ops ts cs = some fs ∧ List.Forall₂ (fun c f => fragment ops ts c = some f) cs fs := by
  induction cs with
  | nil => exact ⟨[], by simp [fragments], .nil⟩
  | cons c cs ih =>
    obtain ⟨fs, h1, h2⟩ := ih fun d hd => h d (by simp [hd])
    obtain ⟨f, hf⟩ := h c (by simp)
    exact ⟨f :: fs, by rw [fragments, hf, h1]; rfl, .cons hf h2⟩

theorem collapse_some (op : CompOp) (hop : op ≠ .not) (fs : List (Expr Q)) : ∃ r, collapse op fs = some r := by
  match op, fs with
  | _, [] => exact ⟨none, rfl⟩
  | _, [f] => exact ⟨some f, rfl⟩
  | .and, _ :: _ :: _ => exact ⟨_, rfl⟩
  | .or, _ :: _ :: _ => exact ⟨_, rfl⟩
  | .not, _ => exact absurd rfl hop

theorem collapse_base (op : CompOp) (fs : List (Expr Q)) (r : Option (Expr Q)) (h : collapse op fs = some r) (p : Expr Q) :
    (∃ f, r = some f ∧ p ∈ f.basePredicates) ↔ ∃ f ∈ fs, p ∈ f.basePredicates := by
  match op, fs with
  | _, [] => simp [collapse] at h; subst h; simp
  | _, [f] => simp [collapse] at h; subst h; simp
  | .and, a :: b :: l => simp [collapse, mkCompound] at h; subst h; simp [basePredicates]
  | .or, a :: b :: l => simp [collapse, mkCompound] at h; subst h; simp [basePredicates]
  | .not, a :: b :: l => simp [collapse, mkCompound] at h

theorem collapse_accepts_and (fs : List (Expr Q)) (r : Option (Expr Q)) (h : collapse .and fs = some r)
    (I : Expr Q → Option Bool) : (∀ f, r = some f → Accepts I f) ↔ ∀ f ∈ fs, Accepts I f := by
  match fs with
  | [] => simp [collapse] at h; subst h; simp
  | [f] => simp [collapse] at h; subst h; simp
  | a :: b :: l =>
    simp only [collapse, mkCompound, Option.map_some, Option.some.injEq] at h; subst h
    simp only [Option.some.injEq, forall_eq', accepts_and]

theorem fragment_total (ops : QOps Q) (ts : Finset Tab) (e : Expr Q) : NotFree e → ∃ r, fragment ops ts e = some r := by
  induction e using Expr.ind with
  | h e ih =>
    intro hn
    rcases compound_cases e with he | ⟨op, cs, rfl⟩
    · exact ⟨_, fragment_other ops ts he⟩
    · obtain ⟨fs, h1, h2⟩ := fragments_forall ops ts cs fun c hc => ih c (by simpa [subs] using hc) (hn.child hc)
      obtain ⟨r, hr⟩ := collapse_some op hn.op fs.reduceOption
      exact ⟨r, by rw [fragment, if_neg hn.op, h1]; exact hr⟩

theorem fragment_compound (ops : QOps Q) (ts : Finset Tab) (op : CompOp) (cs : List (Expr Q)) (r : Option (Expr Q))
    (h : fragment ops ts (.compound op cs) = some r) :
    op ≠ .not ∧ ∃ fs, List.Forall₂ (fun c f => fragment ops ts c = some f) cs fs ∧ collapse op fs.reduceOption = some r := by
  rw [fragment] at h
  split at h
  · cases h
  · rename_i hop
    obtain ⟨fs, h1, h2⟩ := Option.bind_eq_some_iff.1 h
    refine ⟨hop, fs, ?_, h2⟩
    clear h2 h
    induction cs generalizing fs with
    | nil => simp [fragments] at h1; subst h1; exact .nil
    | cons c cs ih =>
      rw [fragments] at h1
      obtain ⟨f, hf, h3⟩ := Option.bind_eq_some_iff.1 h1
      obtain ⟨fs', hfs, rfl⟩ := Option.map_eq_some_iff.1 h3
      exact .cons hf (ih fs' hfs)

/-- **C39 (partial).** The fragment of a predicate without NOT exists; it consists of exactly those base predicates
that use only the given tables (and it is absent only if there is none). Missing: NOT, see `C39_fragment_violated`. -/
theorem C39_fragment_tables_partial (ops : QOps Q) (ts : Finset Tab) (e : Expr Q) (hn : NotFree e) :
    ∃ r, fragment ops ts e = some r ∧
      ∀ p, (∃ f, r = some f ∧ p ∈ f.basePredicates) ↔ p ∈ e.basePredicates ∧ p.tables ops ⊆ ts := by
  obtain ⟨r, hr⟩ := fragment_total ops ts e hn
  refine ⟨r, hr, ?_⟩
  clear hn
  induction e using Expr.ind generalizing r with
  | h e ih =>
    intro p
    rcases compound_cases e with he | ⟨op, cs, rfl⟩
    · rw [fragment_other ops ts he, Option.some.injEq] at hr
      subst hr
      rw [base_other he, List.mem_singleton]
      split
      · rename_i h
        simp only [Option.some.injEq, exists_eq_left', base_other he, List.mem_singleton]
        exact ⟨fun hp => ⟨hp, hp ▸ h⟩, And.left⟩
      · rename_i h
        simp only [reduceCtorEq, false_and, exists_false, false_iff, not_and]
        rintro rfl; exact h
    · obtain ⟨hop, fs, h2, h3⟩ := fragment_compound ops ts op cs r hr
      rw [collapse_base op _ r h3, mem_base_compound]
      simp only [List.reduceOption_mem_iff]
      constructor
      · rintro ⟨f, hf, hp⟩
        obtain ⟨c, hc, hfc⟩ := forall₂_mem_right h2 _ hf
        obtain ⟨h4, h5⟩ := (ih c (by simpa [subs] using hc) _ hfc p).1 ⟨f, rfl, hp⟩
        exact ⟨⟨c, hc, h4⟩, h5⟩
      · rintro ⟨⟨c, hc, hp⟩, hts⟩
        obtain ⟨f, hf, hfc⟩ := forall₂_mem_left h2 _ hc
        obtain ⟨g, rfl, hg⟩ := (ih c (by simpa [subs] using hc) _ hfc p).2 ⟨hp, hts⟩
        exact ⟨g, hf, hg⟩

/-- Each top-level disjunction is completely within the given tables or has no part within them. -/
def CleanOrs (ops : QOps Q) (ts : Finset Tab) (e : Expr Q) : Prop :=
  ∀ c ∈ conjuncts e, (∀ p ∈ c.basePredicates, p.tables ops ⊆ ts) ∨ ∀ p ∈ c.basePredicates, ¬ p.tables ops ⊆ ts

theorem reduceOption_map_some (l : List (Expr Q)) : (l.map some).reduceOption = l := by
  simp [List.reduceOption]

/-- A predicate that is completely within the tables is its own fragment. -/
theorem fragment_inside (ops : QOps Q) (ts : Finset Tab) (e : Expr Q) :
    NotFree e → Built e → (∀ p ∈ e.basePredicates, p.tables ops ⊆ ts) → fragment ops ts e = some (some e) := by
  induction e using Expr.ind with
  | h e ih =>
    intro hn hb hin
    rcases compound_cases e with he | ⟨op, cs, rfl⟩
    · rw [fragment_other ops ts he, if_pos (hin e (by rw [base_other he]; simp))]
    · have hch : ∀ c ∈ cs, fragment ops ts c = some (some c) := fun c hc =>
        ih c (by simpa [subs] using hc) (hn.child hc) (hb.sub (.of_mem (by simpa [subs] using hc)))
          fun p hp => hin p (mem_base_compound.2 ⟨c, hc, hp⟩)
      have hfs : fragments ops ts cs = some (cs.map some) := by
        clear hn hb hin ih
        induction cs with
        | nil => simp [fragments]
        | cons c cs ih => rw [fragments, hch c (by simp), ih fun d hd => hch d (by simp [hd])]; rfl
      rw [fragment, if_neg hn.op, hfs, Option.bind_some, reduceOption_map_some]
      have hbn := hb _ (.refl _)
      match op, cs with
      | .not, _ => exact absurd rfl hn.op
      | .and, [] => simp [builtNode] at hbn
      | .or, [] => simp [builtNode] at hbn
      | .and, [_] => simp [builtNode] at hbn
      | .or, [_] => simp [builtNode] at hbn
      | .and, _ :: _ :: _ => rfl
      | .or, _ :: _ :: _ => rfl

theorem base_ne_nil (e : Expr Q) (hb : Built e) : e.basePredicates ≠ [] := by
  induction e using Expr.ind with
  | h e ih =>
    rcases compound_cases e with he | ⟨op, cs, rfl⟩
    · rw [base_other he]; simp
    · have := hb _ (.refl _)
      match cs, this with
      | [], this => cases op <;> simp [builtNode] at this
      | c :: cs, _ =>
        have := ih c (by simp [subs]) (hb.sub (.of_mem (by simp [subs])))
        obtain ⟨p, hp⟩ := List.exists_mem_of_ne_nil _ this
        exact List.ne_nil_of_mem (mem_base_compound.2 ⟨c, by simp, hp⟩)

theorem collapse_built (op : CompOp) (fs : List (Expr Q)) (h : ∀ f ∈ fs, Built f) (f : Expr Q)
    (hf : collapse op fs = some (some f)) : Built f := by
  match op, fs with
  | _, [] => simp [collapse] at hf
  | _, [g] => simp [collapse] at hf; subst hf; exact h g (by simp)
  | .and, a :: b :: l =>
    simp only [collapse, mkCompound, Option.map_some, Option.some.injEq] at hf; subst hf
    intro s hs
    cases hs with
    | refl => simp [builtNode]
    | step hm hs => exact h _ (by simpa [subs] using hm) _ hs
  | .or, a :: b :: l =>
    simp only [collapse, mkCompound, Option.map_some, Option.some.injEq] at hf; subst hf
    intro s hs
    cases hs with
    | refl => simp [builtNode]
    | step hm hs => exact h _ (by simpa [subs] using hm) _ hs
  | .not, a :: b :: l => simp [collapse, mkCompound] at hf

/-- A fragment is a constructible predicate. -/
theorem fragment_built (ops : QOps Q) (ts : Finset Tab) (e : Expr Q) (hb : Built e) (f : Expr Q)
    (hf : fragment ops ts e = some (some f)) : Built f := by
  induction e using Expr.ind generalizing f with
  | h e ih =>
    rcases compound_cases e with he | ⟨op, cs, rfl⟩
    · rw [fragment_other ops ts he, Option.some.injEq] at hf
      split at hf
      · cases hf; exact hb
      · cases hf
    · obtain ⟨hop, fs, h2, h3⟩ := fragment_compound ops ts op cs _ hf
      refine collapse_built op _ (fun g hg => ?_) f h3
      rw [List.reduceOption_mem_iff] at hg
      obtain ⟨c, hc, hfc⟩ := forall₂_mem_right h2 _ hg
      exact ih c (by simpa [subs] using hc) (hb.sub (.of_mem (by simpa [subs] using hc))) g hfc

/-- **C39 (partial).** If additionally no top-level disjunction is only partly within the given tables, the fragment
accepts exactly the rows that are accepted by all conjuncts which use only these tables. In particular it is implied by
the original predicate. Missing: NOT and partly covered disjunctions, see `C39_fragment_violated`. -/
theorem C39_fragment_partial (ops : QOps Q) (ts : Finset Tab) (e : Expr Q) (hn : NotFree e) (hb : Built e)
    (hc : CleanOrs ops ts e) :
    ∃ r, fragment ops ts e = some r ∧ (∀ I f, r = some f → Accepts I e → Accepts I f) ∧
      ∀ I, (∀ f, r = some f → Accepts I f) ↔
        ∀ c ∈ conjuncts e, (∀ p ∈ c.basePredicates, p.tables ops ⊆ ts) → Accepts I c := by
  obtain ⟨r, hr⟩ := fragment_total ops ts e hn
  suffices H : ∀ I, (∀ f, r = some f → Accepts I f) ↔
        ∀ c ∈ conjuncts e, (∀ p ∈ c.basePredicates, p.tables ops ⊆ ts) → Accepts I c from
    ⟨r, hr, fun I f hf he => (H I).2 (fun c hc _ => (accepts_conjuncts I e).1 he c hc) f hf, H⟩
  intro I
  induction e using Expr.ind generalizing r with
  | h e ih =>
    by_cases he : ∃ cs, e = .compound .and cs
    · obtain ⟨cs, rfl⟩ := he
      obtain ⟨hop, fs, h2, h3⟩ := fragment_compound ops ts _ cs r hr
      rw [collapse_accepts_and _ r h3]
      simp only [List.reduceOption_mem_iff, conjuncts, List.mem_flatMap]
      have key : ∀ c ∈ cs, ∀ f, fragment ops ts c = some f → ((∀ g, f = some g → Accepts I g) ↔
          ∀ d ∈ conjuncts c, (∀ p ∈ d.basePredicates, p.tables ops ⊆ ts) → Accepts I d) := fun c hcs f hf =>
        ih c (by simpa [subs] using hcs) (hn.child hcs) (hb.sub (.of_mem (by simpa [subs] using hcs)))
          (fun d hd => hc d (by simp only [conjuncts, List.mem_flatMap]; exact ⟨c, hcs, hd⟩)) f hf
      constructor
      · rintro h d ⟨c, hcs, hd⟩ hin
        obtain ⟨f, hf, hfc⟩ := forall₂_mem_left h2 _ hcs
        exact (key c hcs f hfc).1 (fun g hg => h g (hg ▸ hf)) d hd hin
      · intro h f hf
        obtain ⟨c, hcs, hfc⟩ := forall₂_mem_right h2 _ hf
        exact (key c hcs _ hfc).2 (fun d hd hin => h d ⟨c, hcs, hd⟩ hin) f rfl
    · rw [conjuncts_other (by simpa using he)]
      have hce := hc e (by rw [conjuncts_other (by simpa using he)]; simp)
      simp only [List.mem_singleton, forall_eq]
      rcases hce with hin | hout
      · rw [fragment_inside ops ts e hn hb hin, Option.some.injEq] at hr
        subst hr
        simp only [Option.some.injEq, forall_eq']; exact ⟨fun h _ => h, fun h => h hin⟩
      · have hbase : ∃ p ∈ e.basePredicates, ¬ p.tables ops ⊆ ts := by
          obtain ⟨p, hp⟩ := List.exists_mem_of_ne_nil _ (base_ne_nil e hb)
          exact ⟨p, hp, hout p hp⟩
        have hr0 : r = none := by
          obtain ⟨r', hr', hspec⟩ := C39_fragment_tables_partial ops ts e hn
          rw [hr] at hr'; cases hr'
          cases r with
          | none => rfl
          | some f =>
            exfalso
            have hfb := base_ne_nil f (fragment_built ops ts e hb f hr)
            obtain ⟨p, hp⟩ := List.exists_mem_of_ne_nil _ hfb
            obtain ⟨h1, h2⟩ := (hspec p).1 ⟨f, rfl, hp⟩
            exact hout p h1 h2
        subst hr0
        simp only [reduceCtorEq, false_implies, implies_true, true_iff]
        intro h
        obtain ⟨p, hp, hn⟩ := hbase
        exact absurd (h p hp) hn

/-- The parts of all AND, OR and NOT are predicates (enforced by Python's type annotations only). -/
def PredParts (e : Expr Q) : Prop := ∀ op cs, BoolPart (.compound op cs) e → ∀ c ∈ cs, c.isPred = true

/-- **C39.** A fragment only references the given tables. -/
theorem C39_fragment_references (ops : QOps Q) (ts : Finset Tab) (e : Expr Q) (hp : PredParts e) (f : Expr Q)
    (hf : fragment ops ts e = some (some f)) : f.tables ops ⊆ ts := by
  suffices H : f.tables ops ⊆ ts ∧ (e.isPred = true → f.isPred = true) from H.1
  induction e using Expr.ind generalizing f with
  | h e ih =>
    rcases compound_cases e with he | ⟨op, cs, rfl⟩
    · rw [fragment_other ops ts he, Option.some.injEq] at hf
      split at hf
      · rename_i h; cases hf; exact ⟨h, id⟩
      · cases hf
    · obtain ⟨hop, fs, h2, h3⟩ := fragment_compound ops ts op cs _ hf
      have hfs : ∀ g ∈ fs.reduceOption, g.tables ops ⊆ ts ∧ g.isPred = true := by
        intro g hg
        rw [List.reduceOption_mem_iff] at hg
        obtain ⟨c, hc, hfc⟩ := forall₂_mem_right h2 _ hg
        obtain ⟨h4, h5⟩ := ih c (by simpa [subs] using hc) (fun op ds h => hp op ds (.step hc h)) g hfc
        exact ⟨h4, h5 (hp op cs .refl c hc)⟩
      revert h3 hfs
      generalize fs.reduceOption = gs
      intro h3 hfs
      have hcomp : ∀ op, (∀ t ∈ (Expr.compound op gs).tables ops, t ∈ ts) := by
        intro op t ht
        rw [tables_compound ops op gs fun c hc => (hfs c hc).2] at ht
        obtain ⟨c, hc, ht⟩ := ht
        exact (hfs c hc).1 ht
      match op, gs with
      | _, [] => simp [collapse] at h3
      | _, [g] => simp [collapse] at h3; subst h3; exact ⟨(hfs g (by simp)).1, fun _ => (hfs g (by simp)).2⟩
      | .and, a :: b :: l =>
        simp only [collapse, mkCompound, Option.map_some, Option.some.injEq] at h3; subst h3
        exact ⟨hcomp _, fun _ => rfl⟩
      | .or, a :: b :: l =>
        simp only [collapse, mkCompound, Option.map_some, Option.some.injEq] at h3; subst h3
        exact ⟨hcomp _, fun _ => rfl⟩
      | .not, a :: b :: l => simp [collapse, mkCompound] at h3

/-- `t1.x = t2.y AND (t1.z = 1 OR t1.z = 2)` restricted to `t1` is `t1.z = 1 OR t1.z = 2`. -/
def frag1 : Expr Unit := .compound .and [jXY, .compound .or [fZ 1, fZ 2]]

theorem notFree_iff (e : Expr Q) : NotFree e ↔ ∀ s, BoolPart s e → ∀ cs, s ≠ .compound .not cs :=
  ⟨fun h s hs cs hc => h cs (hc ▸ hs), fun h cs hs => h _ hs cs rfl⟩

example : NotFree frag1 ∧ Built frag1 ∧ CleanOrs noOps {1} frag1 ∧
    fragment noOps {1} frag1 = some (some (.compound .or [fZ 1, fZ 2])) := by
  refine ⟨?_, (everywhere_iff _ _).1 (by decide +kernel), by unfold CleanOrs; decide +kernel, by decide +kernel⟩
  intro cs hs
  have h := (everywhere_iff (fun e => match e with | .compound .not _ => false | _ => true) frag1).1 (by decide +kernel) _ hs.sub
  simp at h

/-- **C39 is violated.** The fragment of `t1.x = t2.y OR t1.z = 1` for the table `t1` is `t1.z = 1`, which is not
implied by the original predicate, and the fragment of any predicate with a NOT cannot be computed. -/
theorem C39_fragment_violated :
    (∃ (e f : Expr Unit) (I : Expr Unit → Option Bool), Built e ∧ NotFree e ∧
      fragment noOps {1} e = some (some f) ∧ Accepts I e ∧ ¬ Accepts I f) ∧
    ∀ (ops : QOps Q) ts cs, fragment ops ts (.compound .not cs) = none := by
  constructor
  · refine ⟨.compound .or [jXY, fZ 1], fZ 1, fun e => some (decide (e = jXY)),
      (everywhere_iff _ _).1 (by decide +kernel), ?_, by decide +kernel, ?_, ?_⟩
    · intro cs hs
      have h := (everywhere_iff (fun e => match e with | .compound .not _ => false | _ => true)
        (.compound .or [jXY, fZ 1])).1 (by decide +kernel) _ hs.sub
      simp at h
    · unfold Accepts; decide +kernel
    · unfold Accepts; decide +kernel
  · intro ops ts cs; simp [fragment]

/-! ### C40: removing and replacing predicates -/

theorem removePred_other (eq : Expr Q → Bool) {e : Expr Q} (h : e.isCompound = false) :
    removePred eq e = some (if eq e then none else some e) := by
  cases e <;> simp [removePred, isCompound] at h ⊢

theorem removePreds_forall (eq : Expr Q → Bool) (cs : List (Expr Q)) (h : ∀ c ∈ cs, ∃ f, removePred eq c = some f) :
    ∃ fs, removePreds eq cs = some fs := by
  induction cs with
  | nil => exact ⟨[], by simp [removePreds]⟩
  | cons c cs ih =>
    obtain ⟨fs, h1⟩ := ih fun d hd => h d (by simp [hd])
    obtain ⟨f, hf⟩ := h c (by simp)
    exact ⟨f :: fs, by rw [removePreds, hf, h1]; rfl⟩

theorem removePreds_spec (eq : Expr Q → Bool) (cs : List (Expr Q)) (fs : List (Option (Expr Q)))
    (h : removePreds eq cs = some fs) : List.Forall₂ (fun c f => removePred eq c = some f) cs fs := by
  induction cs generalizing fs with
  | nil => simp [removePreds] at h; subst h; exact .nil
  | cons c cs ih =>
    rw [removePreds] at h
    obtain ⟨f, hf, h3⟩ := Option.bind_eq_some_iff.1 h
    obtain ⟨fs', hfs, rfl⟩ := Option.map_eq_some_iff.1 h3
    exact .cons hf (ih fs' hfs)

/-- What `remove_predicate` does for an AND, OR or NOT that is not the predicate to remove. -/
theorem removePred_compound (eq : Expr Q → Bool) (op : CompOp) (cs : List (Expr Q)) (r : Option (Expr Q))
    (h : removePred eq (.compound op cs) = some r) (heq : eq (.compound op cs) = false) :
    ∃ fs, List.Forall₂ (fun c f => removePred eq c = some f) cs fs ∧
      ((op = .not ∧ ((∃ c', fs = [some c'] ∧ r = some (.compound .not [c'])) ∨ (fs = [none] ∧ r = none))) ∨
        (op ≠ .not ∧ collapse op fs.reduceOption = some r)) := by
  rw [removePred, heq] at h
  simp only [Bool.false_eq_true, if_false] at h
  split at h
  · rename_i hop
    obtain ⟨fs, h1, h2⟩ := Option.bind_eq_some_iff.1 h
    refine ⟨fs, removePreds_spec eq cs fs h1, .inl ⟨hop, ?_⟩⟩
    match fs with
    | [] => simp at h2
    | [some c'] => simp [mkCompound] at h2; exact .inl ⟨c', rfl, h2.symm⟩
    | [none] => simp at h2; exact .inr ⟨rfl, h2.symm⟩
    | _ :: _ :: _ => simp at h2
  · rename_i hop
    obtain ⟨fs, h1, h2⟩ := Option.bind_eq_some_iff.1 h
    exact ⟨fs, removePreds_spec eq cs fs h1, .inr ⟨hop, h2⟩⟩

/-- **C40.** Removing a predicate from a constructible predicate always succeeds. -/
theorem C40_remove_total (eq : Expr Q → Bool) (e : Expr Q) (hb : Built e) : ∃ r, removePred eq e = some r := by
  induction e using Expr.ind with
  | h e ih =>
    rcases compound_cases e with he | ⟨op, cs, rfl⟩
    · exact ⟨_, removePred_other eq he⟩
    · rw [removePred]
      split
      · exact ⟨_, rfl⟩
      · obtain ⟨fs, h1⟩ := removePreds_forall eq cs fun c hc =>
          ih c (by simpa [subs] using hc) (hb.sub (.of_mem (by simpa [subs] using hc)))
        rw [h1]
        split
        · rename_i hop
          subst hop
          have hlen := (removePreds_spec eq cs fs h1).length_eq
          have hbn := hb _ (.refl _)
          simp only [builtNode, beq_iff_eq] at hbn
          rw [hbn] at hlen
          match fs, hlen with
          | [some c], _ => exact ⟨_, rfl⟩
          | [none], _ => exact ⟨_, rfl⟩
        · rename_i hop
          exact collapse_some op hop _

/-- **C40.** Removing a predicate that is not itself an AND, OR or NOT removes every occurrence of it, and nothing
else: the base predicates of the result are the remaining base predicates. -/
theorem C40_remove_every_partial (eq : Expr Q → Bool) (heq : ∀ op cs, eq (.compound op cs) = false) (e : Expr Q)
    (hb : Built e) (r : Option (Expr Q)) (h : removePred eq e = some r) (p : Expr Q) :
    (∃ f, r = some f ∧ p ∈ f.basePredicates) ↔ p ∈ e.basePredicates ∧ eq p = false := by
  induction e using Expr.ind generalizing r with
  | h e ih =>
    rcases compound_cases e with he | ⟨op, cs, rfl⟩
    · rw [removePred_other eq he, Option.some.injEq] at h
      subst h
      rw [base_other he, List.mem_singleton]
      split
      · rename_i h
        simp only [reduceCtorEq, false_and, exists_false, false_iff, not_and]
        rintro rfl; simp [h]
      · rename_i h
        simp only [Option.some.injEq, exists_eq_left', base_other he, List.mem_singleton]
        exact ⟨fun hp => ⟨hp, by rw [hp]; simpa using h⟩, And.left⟩
    · obtain ⟨fs, h2, h3⟩ := removePred_compound eq op cs r h (heq op cs)
      have key : (∃ f, r = some f ∧ p ∈ f.basePredicates) ↔ ∃ f, some f ∈ fs ∧ p ∈ f.basePredicates := by
        rcases h3 with ⟨hop, ⟨c', rfl, rfl⟩ | ⟨rfl, rfl⟩⟩ | ⟨hop, h3⟩
        · simp [basePredicates]
        · simp
        · rw [collapse_base op _ r h3]; simp only [List.reduceOption_mem_iff]
      rw [key, mem_base_compound]
      constructor
      · rintro ⟨f, hf, hp⟩
        obtain ⟨c, hc, hfc⟩ := forall₂_mem_right h2 _ hf
        obtain ⟨h4, h5⟩ := (ih c (by simpa [subs] using hc) (hb.sub (.of_mem (by simpa [subs] using hc))) _ hfc).1
          ⟨f, rfl, hp⟩
        exact ⟨⟨c, hc, h4⟩, h5⟩
      · rintro ⟨⟨c, hc, hp⟩, hts⟩
        obtain ⟨f, hf, hfc⟩ := forall₂_mem_left h2 _ hc
        obtain ⟨g, rfl, hg⟩ := (ih c (by simpa [subs] using hc) (hb.sub (.of_mem (by simpa [subs] using hc))) _ hfc).2
          ⟨hp, hts⟩
        exact ⟨g, hf, hg⟩

/-- **C40.** If the predicate does not occur, nothing changes. -/
theorem C40_remove_absent (eq : Expr Q → Bool) (e : Expr Q) (hb : Built e)
    (h : ∀ s, BoolPart s e → eq s = false) : removePred eq e = some (some e) := by
  induction e using Expr.ind with
  | h e ih =>
    rcases compound_cases e with he | ⟨op, cs, rfl⟩
    · rw [removePred_other eq he, h e .refl]; rfl
    · have hch : ∀ c ∈ cs, removePred eq c = some (some c) := fun c hc =>
        ih c (by simpa [subs] using hc) (hb.sub (.of_mem (by simpa [subs] using hc))) fun s hs => h s (.step hc hs)
      have hfs : removePreds eq cs = some (cs.map some) := by
        clear hb h ih
        induction cs with
        | nil => simp [removePreds]
        | cons c cs ih => rw [removePreds, hch c (by simp), ih fun d hd => hch d (by simp [hd])]; rfl
      have hbn := hb _ (.refl _)
      rw [removePred, h _ .refl, hfs]
      simp only [Bool.false_eq_true, if_false, Option.bind_some, reduceOption_map_some]
      match op, cs with
      | .not, [] => simp [builtNode] at hbn
      | .not, [_] => rfl
      | .not, _ :: _ :: _ => simp [builtNode] at hbn
      | .and, [] => simp [builtNode] at hbn
      | .or, [] => simp [builtNode] at hbn
      | .and, [_] => simp [builtNode] at hbn
      | .or, [_] => simp [builtNode] at hbn
      | .and, _ :: _ :: _ => rfl
      | .or, _ :: _ :: _ => rfl

/-- **C40 (partial).** If the predicate occurs as a conjunct only (not below an OR or NOT), the original predicate is
equivalent to the reduced predicate together with the removed one. Missing: occurrences below OR and NOT, see
`C40_remove_violated`. -/
theorem C40_remove_conjunct_partial [DecidableEq Q] (t e : Expr Q) (hb : Built e)
    (hc : ∀ c ∈ conjuncts e, c ≠ t → ¬ BoolPart t c) (r : Option (Expr Q))
    (h : removePred (fun p => decide (p = t)) e = some r) (I : Expr Q → Option Bool) :
    Accepts I e ↔ (∀ f, r = some f → Accepts I f) ∧ (BoolPart t e → Accepts I t) := by
  induction e using Expr.ind generalizing r with
  | h e ih =>
    by_cases het : e = t
    · subst het
      have : r = none := by
        rcases compound_cases e with he | ⟨op, cs, rfl⟩
        · rw [removePred_other _ he] at h; simpa using h.symm
        · rw [removePred] at h; simpa using h.symm
      subst this
      simp [BoolPart.refl]
    · by_cases he : ∃ cs, e = .compound .and cs
      · obtain ⟨cs, rfl⟩ := he
        obtain ⟨fs, h2, h3⟩ := removePred_compound _ _ cs r h (by simpa using het)
        rcases h3 with ⟨hop, _⟩ | ⟨_, h3⟩
        · cases hop
        have hbp : BoolPart t (.compound .and cs) ↔ ∃ c ∈ cs, BoolPart t c := by
          constructor
          · intro h
            cases h with
            | refl => exact absurd rfl het
            | step hc h => exact ⟨_, hc, h⟩
          · rintro ⟨c, hc, h⟩; exact .step hc h
        rw [collapse_accepts_and _ r h3, accepts_and, hbp]
        simp only [List.reduceOption_mem_iff]
        have key : ∀ c ∈ cs, ∀ f, removePred (fun p => decide (p = t)) c = some f →
            (Accepts I c ↔ (∀ g, f = some g → Accepts I g) ∧ (BoolPart t c → Accepts I t)) := fun c hcs f hf =>
          ih c (by simpa [subs] using hcs) (hb.sub (.of_mem (by simpa [subs] using hcs)))
            (fun d hd => hc d (by simp only [conjuncts, List.mem_flatMap]; exact ⟨c, hcs, hd⟩)) f hf
        constructor
        · intro h
          constructor
          · intro f hf
            obtain ⟨c, hcs, hfc⟩ := forall₂_mem_right h2 _ hf
            exact ((key c hcs _ hfc).1 (h c hcs)).1 f rfl
          · rintro ⟨c, hcs, hb⟩
            obtain ⟨f, hf, hfc⟩ := forall₂_mem_left h2 _ hcs
            exact ((key c hcs _ hfc).1 (h c hcs)).2 hb
        · rintro ⟨h4, h5⟩ c hcs
          obtain ⟨f, hf, hfc⟩ := forall₂_mem_left h2 _ hcs
          exact (key c hcs _ hfc).2 ⟨fun g hg => h4 g (hg ▸ hf), fun hb => h5 ⟨c, hcs, hb⟩⟩
      · have hnone := hc e (by rw [conjuncts_other (by simpa using he)]; simp) het
        rw [C40_remove_absent _ e hb (fun s hs => by
          simp only [decide_eq_false_iff_not]; rintro rfl; exact hnone hs), Option.some.injEq] at h
        subst h
        simp [hnone]

example : ∃ r, removePred (fun p => decide (p = fZ 1)) (.compound .and [fZ 1, .compound .and [fZ 2, fZ 1], jXY]) = some r ∧
    r = some (.compound .and [fZ 2, jXY]) := by decide +kernel

/-- **C40 is violated.** Removing `t1.z = 1` from `(t1.z = 1 OR t1.z = 2) AND t1.z = 1` yields `t1.z = 2`: together
with the removed predicate it rejects rows the original predicate accepts. Removing a compound predicate can leave
occurrences of it: removing `p AND q` from `(p AND q AND (p AND q)) AND r` yields `(p AND q) AND r`. -/
theorem C40_remove_violated :
    (∃ (e f t : Expr Unit) (I : Expr Unit → Option Bool), Built e ∧ t ∈ conjuncts e ∧
      removePred (fun p => decide (p = t)) e = some (some f) ∧ Accepts I e ∧ ¬ (Accepts I f ∧ Accepts I t)) ∧
    ∃ (e f t : Expr Unit), Built e ∧ removePred (fun p => decide (p = t)) e = some (some f) ∧ BoolPart t f := by
  constructor
  · refine ⟨.compound .and [.compound .or [fZ 1, fZ 2], fZ 1], fZ 2, fZ 1, fun e => some (decide (e = fZ 1)),
      (everywhere_iff _ _).1 (by decide +kernel), by decide +kernel, by decide +kernel, ?_, ?_⟩
    · unfold Accepts; decide +kernel
    · unfold Accepts; decide +kernel
  · exact ⟨.compound .and [.compound .and [fZ 1, fZ 2, .compound .and [fZ 1, fZ 2]], fZ 3],
      .compound .and [.compound .and [fZ 1, fZ 2], fZ 3], .compound .and [fZ 1, fZ 2],
      (everywhere_iff _ _).1 (by decide +kernel), by decide +kernel, .step (by simp) .refl⟩

theorem replacePred_other (eq : Expr Q → Bool) (new : Expr Q) {e : Expr Q} (h : e.isCompound = false) :
    replacePred eq new e = some (if eq e then new else e) := by
  cases e <;> simp [replacePred, isCompound] at h ⊢

theorem replacePreds_spec (eq : Expr Q → Bool) (new : Expr Q) (R : Expr Q → Expr Q → Prop) (cs : List (Expr Q))
    (h : ∀ c ∈ cs, ∃ f, replacePred eq new c = some f ∧ R c f) :
    ∃ fs, replacePreds eq new cs = some fs ∧ List.Forall₂ R cs fs := by
  induction cs with
  | nil => exact ⟨[], by simp [replacePreds], .nil⟩
  | cons c cs ih =>
    obtain ⟨fs, h1, h2⟩ := ih fun d hd => h d (by simp [hd])
    obtain ⟨f, hf, hr⟩ := h c (by simp)
    exact ⟨f :: fs, by rw [replacePreds, hf, h1]; rfl, .cons hr h2⟩

theorem mkCompound_built (op : CompOp) (cs fs : List (Expr Q)) (hl : cs.length = fs.length)
    (hb : builtNode (.compound op cs) = true) : mkCompound op fs = some (.compound op fs) := by
  match op, cs, fs, hl with
  | .not, [], _, _ => simp [builtNode] at hb
  | .and, [], _, _ => simp [builtNode] at hb
  | .or, [], _, _ => simp [builtNode] at hb
  | .not, [_], [_], _ => rfl
  | .not, _ :: _ :: _, _, _ => simp [builtNode] at hb
  | .and, [_], _, _ => simp [builtNode] at hb
  | .or, [_], _, _ => simp [builtNode] at hb
  | .and, _ :: _ :: _, _ :: _ :: _, _ => rfl
  | .or, _ :: _ :: _, _ :: _ :: _, _ => rfl

/-- **C40.** Replacing a predicate by one with the same truth value preserves the truth value on every row, also below
OR and NOT. `I` ranges over all rows, `eq` is the equality with the replaced predicate. -/
theorem C40_replace (eq : Expr Q → Bool) (new e : Expr Q) (hb : Built e) :
    ∃ f, replacePred eq new e = some f ∧
      (∀ I, (∀ s, BoolPart s e → eq s = true → truth I s = truth I new) → truth I f = truth I e) ∧
      ((∀ s, BoolPart s e → eq s = false) → f = e) := by
  induction e using Expr.ind with
  | h e ih =>
    rcases compound_cases e with he | ⟨op, cs, rfl⟩
    · refine ⟨_, replacePred_other eq new he, ?_, ?_⟩
      · intro I h
        split
        · rename_i h'; exact (h e .refl h').symm
        · rfl
      · intro h; simp [h e .refl]
    · by_cases heq : eq (.compound op cs) = true
      · refine ⟨new, by rw [replacePred, if_pos heq], fun I h => (h _ .refl heq).symm, fun h => ?_⟩
        rw [h _ .refl] at heq; cases heq
      · obtain ⟨fs, h1, h2⟩ := replacePreds_spec eq new (fun c f =>
          (∀ I, (∀ s, BoolPart s c → eq s = true → truth I s = truth I new) → truth I f = truth I c) ∧
          ((∀ s, BoolPart s c → eq s = false) → f = c)) cs fun c hc =>
            ih c (by simpa [subs] using hc) (hb.sub (.of_mem (by simpa [subs] using hc)))
        refine ⟨.compound op fs, ?_, ?_, ?_⟩
        · rw [replacePred, if_neg heq, h1]
          exact mkCompound_built op cs fs h2.length_eq (hb _ (.refl _))
        · intro I h
          have hm : fs.map (fun c => truth I c) = cs.map fun c => truth I c := by
            have h' : ∀ c ∈ cs, ∀ s, BoolPart s c → eq s = true → truth I s = truth I new :=
              fun c hc s hs => h s (.step hc hs)
            clear h h1 ih hb heq
            induction h2 with
            | nil => rfl
            | cons hd _ ih =>
              rw [List.map_cons, List.map_cons, hd.1 I (h' _ (by simp)), ih fun c hc => h' c (by simp [hc])]
          cases op <;> simp only [truth, hm]
        · intro h
          congr 1
          have h' : ∀ c ∈ cs, ∀ s, BoolPart s c → eq s = false := fun c hc s hs => h s (.step hc hs)
          clear h h1 ih hb heq
          induction h2 with
          | nil => rfl
          | cons hd _ ih => rw [hd.2 (h' _ (by simp)), ih fun c hc => h' c (by simp [hc])]

example : replacePred (fun p => decide (p = fZ 1)) (fZ 3) (.compound .not [.compound .or [fZ 1, fZ 2]]) =
    some (.compound .not [.compound .or [fZ 3, fZ 2]]) := by decide +kernel

/-! ### C37: equivalence-class predicates -/

/-- A predicate whose parts are all unknown is unknown. -/
theorem truth_null (e : Expr Q) (hb : Built e) : truth (fun _ => none) e = none := by
  induction e using Expr.ind with
  | h e ih =>
    rcases compound_cases e with he | ⟨op, cs, rfl⟩
    · rw [truth_base _ he]
    · have hbn := hb _ (.refl _)
      have hcs : cs ≠ [] := by rintro rfl; cases op <;> simp [builtNode] at hbn
      have hm : ∀ x ∈ cs.map (fun c => truth (fun _ => none) c), x = none := by
        intro x hx
        obtain ⟨c, hc, rfl⟩ := List.mem_map.1 hx
        exact ih c (by simpa [subs] using hc) (hb.sub (.of_mem (by simpa [subs] using hc)))
      have hn : none ∈ cs.map (fun c => truth (fun _ => none) c) := by
        obtain ⟨c, hc⟩ := List.exists_mem_of_ne_nil _ hcs
        have := List.mem_map_of_mem (f := fun c => truth (fun _ => none) c) hc
        rwa [hm _ this] at this
      have hf : ∀ b, some b ∉ cs.map (fun c => truth (fun _ => none) c) := fun b h => by cases hm _ h
      cases op with
      | and => rw [truth, and3, if_neg (hf _), if_pos hn]
      | or => rw [truth, or3, if_neg (hf _), if_pos hn]
      | not => rw [truth, and3, if_neg (hf _), if_pos hn]; rfl

/-- **C37 (partial).** If all joins of a query are equalities of two plain columns, and the filters and joins are
equivalent to the WHERE predicate (`C31_filters_joins_partial`), the new WHERE predicate accepts exactly the same rows.
`I` evaluates predicates on a row `ρ` with NULLs. Missing: other joins, which are dropped, see `C37_violated`. -/
theorem C37_add_ec_partial [DecidableEq Q] {V : Type} (ops : QOps Q) (qp : QueryPreds Q) (hv : qp.Valid ops) (r : Expr Q)
    (hr : qp.root = some r) (hb : Built r) (hm : ∀ c ∈ conjuncts r, mixedOr c = false)
    (hj : ∀ p ∈ qp.joins, ∃ c d, c ≠ d ∧ p = .binary .eq (.col c) (.col d))
    (ls : List (List Col)) (hls : Orders ls (equivalenceClasses ops qp.joins)) :
    ∃ w, addEcPredicates qp ls = some w ∧
      ∀ (ρ : Col → Option V) (I : Expr Q → Option Bool), EvalsEq ρ I → (Accepts I w ↔ Accepts I r) := by
  have hequi : ∀ p ∈ qp.joins, isEquiJoin ops p = true := by
    intro p hp
    obtain ⟨c, d, hcd, rfl⟩ := hj p hp
    refine (isEquiJoin_iff ops _).2 ⟨_, _, rfl, ?_, by rw [columns_pair]; exact Finset.card_pair hcd⟩
    obtain ⟨r', hr', hp'⟩ := (hv.joins _).1 hp
    exact collectJoins_isJoin r' _ hp'
  have hgen : ∀ (V : Type) (ρ : Col → Option V) (I : Expr Q → Option Bool), EvalsEq ρ I →
      ((∀ p ∈ generatePredicates ls ++ qp.filters, Accepts I p) ↔ Accepts I r) := by
    intro V ρ I hI
    rw [← C31_filters_joins_partial ops qp hv r hr hb hm I]
    have := C36_generated_partial ops qp.joins (fun p hp _ => by
      obtain ⟨c, d, _, rfl⟩ := hj p hp; exact ⟨c, d, rfl⟩) ls hls ρ I hI
    simp only [List.mem_append]
    constructor
    · intro h p hp
      rcases hp with hp | hp
      · exact h p (.inr hp)
      · exact this.1 (fun q hq => h q (.inl hq)) p hp (hequi p hp)
    · intro h p hp
      rcases hp with hp | hp
      · exact this.2 (fun q hq _ => h q (.inr hq)) p hp
      · exact h p (.inl hp)
  have hne : generatePredicates ls ++ qp.filters ≠ [] := by
    intro h0
    have hI : EvalsEq (fun _ => none : Col → Option Nat) (fun _ : Expr Q => none) := by
      intro c d; simp
    have := (hgen Nat (fun _ => none) (fun _ => none) hI).1 (by rw [h0]; simp)
    rw [Accepts, truth_null r hb] at this
    cases this
  obtain ⟨w, hw⟩ := createAnd_some.2 hne
  exact ⟨w, hw, fun ρ I hI => by rw [(C84_create_and _).2 w hw I, hgen V ρ I hI]⟩

/-- `t1.x = t2.y AND t1.z = 1`, and `t1.x = t2.y AND t1.x < t2.y`. -/
def qpEc : QueryPreds Unit :=
  ⟨some (.compound .and [jXY, fZ 1]), [fZ 1], [jXY], [1, 2], [({some 1, some 2}, jXY)]⟩
def qpLt : QueryPreds Unit :=
  ⟨some (.compound .and [jXY, jLt]), [], [jXY, jLt], [1, 2], [({some 1, some 2}, .compound .and [jXY, jLt])]⟩

theorem qpEc_valid : qpEc.Valid noOps := by
  have h1 : (Expr.compound .and [jXY, fZ 1]).collectFilters = [fZ 1] := by decide +kernel
  have h2 : (Expr.compound .and [jXY, fZ 1]).collectJoins = [jXY] := by decide +kernel
  have h3 : (Expr.compound .and [jXY, fZ 1]).tables noOps = {1, 2} := by decide +kernel
  exact ⟨by intro p; simp [qpEc, h1], by intro p; simp [qpEc, h2], by simp [qpEc], by simp [qpEc],
    by intro t; simp [qpEc, h3], by decide +kernel⟩

theorem qpLt_valid : qpLt.Valid noOps := by
  have h1 : (Expr.compound .and [jXY, jLt]).collectFilters = [] := by decide +kernel
  have h2 : (Expr.compound .and [jXY, jLt]).collectJoins = [jXY, jLt] := by decide +kernel
  have h3 : (Expr.compound .and [jXY, jLt]).tables noOps = {1, 2} := by decide +kernel
  exact ⟨by intro p; simp [qpLt, h1], by intro p; simp [qpLt, h2], by simp [qpLt], by decide +kernel,
    by intro t; simp [qpLt, h3], by decide +kernel⟩

example : qpEc.Valid noOps ∧ Built (.compound .and [jXY, fZ 1] : Expr Unit) ∧
    (∀ c ∈ conjuncts (.compound .and [jXY, fZ 1] : Expr Unit), mixedOr c = false) ∧
    (∀ p ∈ qpEc.joins, ∃ c d, c ≠ d ∧ p = .binary .eq (.col c) (.col d)) ∧
    Orders [[cx, cy]] (equivalenceClasses noOps qpEc.joins) := by
  have h : equivalenceClasses noOps qpEc.joins = {{cx, cy}} := by decide +kernel
  refine ⟨qpEc_valid, (everywhere_iff _ _).1 (by decide +kernel), by decide +kernel, ?_,
    ⟨by decide, fun k => by rw [h]; simp [eq_comm]⟩⟩
  intro p hp
  simp only [qpEc, List.mem_singleton] at hp
  exact ⟨cx, cy, by decide, hp⟩

/-- **C37 is violated.** For `WHERE t1.x = t2.y AND t1.x < t2.y` the new WHERE clause is `t1.x = t2.y`: the second join
is dropped, so rows are accepted that the original query rejects. -/
theorem C37_violated :
    ∃ (r w : Expr Unit) (ls : List (List Col)) (ρ : Col → Option Nat) (I : Expr Unit → Option Bool),
      qpLt.Valid noOps ∧ qpLt.root = some r ∧ Orders ls (equivalenceClasses noOps qpLt.joins) ∧
      addEcPredicates qpLt ls = some w ∧ EvalsEq ρ I ∧ Accepts I w ∧ ¬ Accepts I r := by
  have h : equivalenceClasses noOps qpLt.joins = {{cx, cy}} := by decide +kernel
  refine ⟨_, .binary .eq (.col cx) (.col cy), [[cx, cy]], fun _ => some 1, fun e => some (decide (e ≠ jLt)),
    qpLt_valid, rfl, ⟨by decide, fun k => by rw [h]; simp [eq_comm]⟩, by decide +kernel, ?_, ?_, ?_⟩
  · intro c d; simp [jLt]
  · unfold Accepts; decide +kernel
  · unfold Accepts; decide +kernel

end PB.TransformProps
