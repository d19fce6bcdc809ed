import Verif.Model.ReplacePred
import Verif.Props.Clauses
import Verif.Props.TransformPreds

set_option linter.unusedSimpArgs false
set_option linter.unusedVariables false
set_option linter.unusedSectionVars false
set_option linter.unnecessarySimpa false

/-! Property C244: replacing predicates in queries. -/

namespace PB.ReplacePredProps
open PB PB.Qal PB.Qal.Expr PB.ExprProps PB.PredProps PB.TransformProps PB.Transform PB.ReplacePred
open PB.Clauses (Clause Query Slot Kind)
open PB.ClausesProps (WF ClassFits Replaces sortOf C42_replace)

variable {Q : Type}

/-! ### Specification vocabulary -/

/-- `Swapped same new e f`: `f` is `e` with `new` in place of each outermost predicate that is the `same` as the one to replace, looking below AND, OR and NOT
only. -/
inductive Swapped (same : Expr Q → Bool) (new : Expr Q) : Expr Q → Expr Q → Prop
  | hit {e} : same e = true → Swapped same new e new
  | deep {op cs ds} : same (.compound op cs) = false → List.Forall₂ (Swapped same new) cs ds → Swapped same new (.compound op cs) (.compound op ds)
  | keep {e} : same e = false → e.isCompound = false → Swapped same new e e

/-- WHERE and HAVING clauses consist of a predicate. -/
def HasPreds (q : Query (Content Q)) : Prop :=
  ∀ s, s = .where_ ∨ s = .having → ∀ c, q.get s = some c → ∃ e, c.payload = .pred e ∧ Built e

/-! ### Predicates -/

theorem swapped_pred (eq : Expr Q → Bool) (new e : Expr Q) (hb : Built e) : ∃ f, replacePred eq new e = some f ∧ Swapped eq new e f := by
  induction e using Expr.ind with
  | h e ih =>
    rcases compound_cases e with he | ⟨op, cs, rfl⟩
    · refine ⟨_, replacePred_other eq new he, ?_⟩
      by_cases h : eq e = true
      · rw [if_pos h]; exact .hit h
      · rw [if_neg h]; exact .keep (by simpa using h) he
    · by_cases heq : eq (.compound op cs) = true
      · exact ⟨new, by rw [replacePred, if_pos heq], .hit heq⟩
      · obtain ⟨fs, h1, h2⟩ := replacePreds_spec eq new (Swapped eq new) cs fun c hc =>
            ih c (by simpa [subs] using hc) (hb.sub (.of_mem (by simpa [subs] using hc)))
        refine ⟨.compound op fs, ?_, .deep (by simpa using heq) h2⟩
        rw [replacePred, if_neg heq, h1]
        exact mkCompound_built op cs fs h2.length_eq (hb _ (.refl _))

theorem swapped_unique {same : Expr Q → Bool} {new : Expr Q} (e : Expr Q) : ∀ {f g : Expr Q}, Swapped same new e f → Swapped same new e g → f = g := by
  induction e using Expr.ind with
  | h e ih =>
    intro f g hf hg
    cases hf with
    | hit h =>
      cases hg with
      | hit _ => rfl
      | deep h' _ => rw [h] at h'; cases h'
      | keep h' _ => rw [h] at h'; cases h'
    | keep h hc =>
      cases hg with
      | hit h' => rw [h] at h'; cases h'
      | deep _ _ => simp [isCompound] at hc
      | keep _ _ => rfl
    | @deep op cs ds h hd =>
      cases hg with
      | hit h' => rw [h] at h'; cases h'
      | keep _ hc => simp [isCompound] at hc
      | @deep _ _ ds' _ hd' =>
        congr 1
        have ih' : ∀ c ∈ cs, ∀ {f g : Expr Q}, Swapped same new c f → Swapped same new c g → f = g := fun c hc => ih c (by simpa [subs] using hc)
        clear ih
        replace h : True := trivial
        rename_i hx; clear hx
        induction hd generalizing ds' with
        | nil => cases hd'; rfl
        | cons h1 _ ihd =>
          cases hd' with
          | cons h2 h3 => rw [ih' _ (by simp) h1 h2, ihd h3 (fun c hc => ih' c (by simp [hc]))]

/-- C244: the result is the predicate with all outermost occurrences replaced, and nothing else. -/
theorem C244_predicate (eq : Expr Q → Bool) (new e f : Expr Q) (hb : Built e) : replacePred eq new e = some f ↔ Swapped eq new e f := by
  obtain ⟨g, h1, h2⟩ := swapped_pred eq new e hb
  rw [h1]
  exact ⟨fun h => by rw [← Option.some.inj h]; exact h2, fun h => by rw [swapped_unique e h h2]⟩

theorem newClause_spec (eq : Expr Q → Bool) (new : Expr Q) (q : Query (Content Q)) (hq : WF q) (hp : HasPreds q) (s : Slot) (hs : s = .where_ ∨ s = .having) :
    ∃ w, newClause eq new (q.get s) = some w ∧ (q.get s = none → w = none) ∧ (∀ r ∈ w.toList, sortOf r.kind = s) ∧
      ∀ c e, q.get s = some c → c.payload = .pred e → ∃ f, w = some ⟨c.kind, .pred f⟩ ∧ Swapped eq new e f := by
  cases h : q.get s with
  | none => exact ⟨none, rfl, fun _ => rfl, by simp, by simp⟩
  | some c =>
    obtain ⟨k, p⟩ := c
    obtain ⟨e, he, hb⟩ := hp s hs _ h
    obtain ⟨f, h1, h2⟩ := swapped_pred eq new e hb
    simp only at he
    subst he
    refine ⟨some ⟨k, .pred f⟩, by simp [newClause, h1], by simp, ?_, ?_⟩
    · intro r hr
      simp only [Option.toList_some, List.mem_singleton] at hr
      subst hr
      have := hq.kinds s _ h
      exact this
    · intro c e' hc he'
      cases hc
      cases he'
      exact ⟨f, rfl, h2⟩

theorem sort_where {k : Kind} (h : sortOf k = .where_) : k = .where_ := by cases k <;> simp [sortOf] at h ⊢

theorem sort_having {k : Kind} (h : sortOf k = .having) : k = .having := by cases k <;> simp [sortOf] at h ⊢

theorem sort_eq {k l : Kind} {s : Slot} (hs : s = .where_ ∨ s = .having) (hk : sortOf k = s) (hl : sortOf l = s) : k = l := by
  rcases hs with rfl | rfl
  · rw [sort_where hk, sort_where hl]
  · rw [sort_having hk, sort_having hl]

theorem class_same {P : Type} (q q' : Query P) (hs : q.cls ≠ .set) (hs' : q'.cls ≠ .set) (h : ClassFits q) (h' : ClassFits q') (hf : q'.get .from_ = q.get .from_) :
    q'.cls = q.cls := by
  rcases h with h | ⟨h, a⟩ | ⟨h, c, a, b⟩ | ⟨h, c, a, b⟩
  · exact absurd h hs
  · rcases h' with h' | ⟨h', a'⟩ | ⟨h', c', a', b'⟩ | ⟨h', c', a', b'⟩
    · exact absurd h' hs'
    · rw [h, h']
    · rw [hf] at a'; rw [a _ a'] at b'; cases b'
    · rw [hf] at a'; rw [a _ a'] at b'; cases b'
  · rcases h' with h' | ⟨h', a'⟩ | ⟨h', c', a', b'⟩ | ⟨h', c', a', b'⟩
    · exact absurd h' hs'
    · rw [hf] at a'; rw [a' _ a] at b; cases b
    · rw [h, h']
    · rw [hf, a] at a'; cases a'; rw [b] at b'; cases b'
  · rcases h' with h' | ⟨h', a'⟩ | ⟨h', c', a', b'⟩ | ⟨h', c', a', b'⟩
    · exact absurd h' hs'
    · rw [hf] at a'; rw [a' _ a] at b; cases b
    · rw [hf, a] at a'; cases a'; rw [b] at b'; cases b'
    · rw [h, h']

/-- C244: all clauses other than WHERE and HAVING stay as they are, these two clauses stay present or absent, and their predicates are swapped. -/
theorem C244_query [DecidableEq Q] (eq : Expr Q → Bool) (new : Expr Q) (q : Query (Content Q)) (hq : WF q) (hp : HasPreds q) :
    ∃ q', replacePredicate eq new q = some q' ∧ WF q' ∧ (ClassFits q → q'.cls = q.cls) ∧
      (∀ s, s ≠ .where_ → s ≠ .having → q'.get s = q.get s) ∧
      ∀ s, s = .where_ ∨ s = .having → (q.get s = none → q'.get s = none) ∧
        ∀ c e, q.get s = some c → c.payload = .pred e → ∃ f, q'.get s = some ⟨c.kind, .pred f⟩ ∧ Swapped eq new e f := by
  by_cases h0 : (q.get .where_).isNone ∧ (q.get .having).isNone
  · refine ⟨q, by rw [replacePredicate, if_pos h0], hq, fun _ => rfl, fun _ _ _ => rfl, ?_⟩
    intro s hs
    have hn : q.get s = none := by
      rcases hs with rfl | rfl
      · simpa using h0.1
      · simpa using h0.2
    exact ⟨fun h => h, fun c e hc => by rw [hn] at hc; cases hc⟩
  · obtain ⟨w, w1, w2, w3, w4⟩ := newClause_spec eq new q hq hp .where_ (.inl rfl)
    obtain ⟨h, h1, h2, h3, h4⟩ := newClause_spec eq new q hq hp .having (.inr rfl)
    obtain ⟨q', e1, e2, e3, e4⟩ := C42_replace q hq (w.toList ++ h.toList)
    have hr : ∀ r ∈ w.toList ++ h.toList, sortOf r.kind = .where_ ∧ r ∈ w.toList ∨ sortOf r.kind = .having ∧ r ∈ h.toList := by
      intro r hr
      rcases List.mem_append.mp hr with hr | hr
      · exact .inl ⟨w3 r hr, hr⟩
      · exact .inr ⟨h3 r hr, hr⟩
    have hrest : ∀ s, s ≠ .where_ → s ≠ .having → q'.get s = q.get s := by
      intro s hs1 hs2
      cases hc : q.get s with
      | none => exact (e4 s).1 hc
      | some c =>
        rcases (e4 s).2 c hc with ⟨r, ha, hb, _⟩ | ⟨_, hb⟩
        · exfalso
          have := hb.slot
          rw [hq.kinds s c hc] at this
          rcases hr r ha with hx | hx
          · exact hs1 (by rw [← this, hx.1])
          · exact hs2 (by rw [← this, hx.1])
        · exact hb
    have hset : q.cls ≠ .set := by
      intro hs
      have := (hq.set hs).2
      have a := this .where_ rfl rfl
      have b := this .having rfl rfl
      exact h0 (by simp [a, b])
    have hset' : q'.cls ≠ .set := by
      intro hs
      obtain ⟨c, hc⟩ := (hq.plain hset).1
      have := (e2.set hs).2 .select rfl rfl
      rw [hrest .select (by simp) (by simp), hc] at this
      cases this
    refine ⟨q', by rw [replacePredicate, if_neg h0, w1, h1]; exact e1, e2, fun hf => ?_, hrest, ?_⟩
    · exact class_same q q' hset hset' hf e3 (hrest _ (by simp) (by simp))
    · intro s hs
      refine ⟨(e4 s).1, ?_⟩
      intro c e hc he
      have hk := hq.kinds s c hc
      have hmain : ∃ f, (⟨c.kind, .pred f⟩ : Clause (Content Q)) ∈ w.toList ++ h.toList ∧ Swapped eq new e f ∧
          ∀ r ∈ w.toList ++ h.toList, sortOf r.kind = s → r = ⟨c.kind, .pred f⟩ := by
        rcases hs with rfl | rfl
        · obtain ⟨f, hf1, hf2⟩ := w4 c e hc he
          refine ⟨f, by simp [hf1], hf2, ?_⟩
          intro r hr' hsr
          rcases hr r hr' with ⟨_, hx⟩ | ⟨hx, _⟩
          · simpa [hf1] using hx
          · rw [hx] at hsr; cases hsr
        · obtain ⟨f, hf1, hf2⟩ := h4 c e hc he
          refine ⟨f, by simp [hf1], hf2, ?_⟩
          intro r hr' hsr
          rcases hr r hr' with ⟨hx, _⟩ | ⟨_, hx⟩
          · rw [hx] at hsr; cases hsr
          · simpa [hf1] using hx
      obtain ⟨f, hf1, hf2, hf3⟩ := hmain
      rcases (e4 s).2 c hc with ⟨r, ha, hb, hg⟩ | ⟨ha, _⟩
      · refine ⟨f, ?_, hf2⟩
        rw [hg, hf3 r ha (by rw [hb.slot, hk])]
      · exact absurd (.inl rfl) (ha _ hf1)

/-- No predicate of the query is the one to replace. -/
def Absent (same : Expr Q → Bool) (q : Query (Content Q)) : Prop :=
  ∀ s, s = .where_ ∨ s = .having → ∀ c e, q.get s = some c → c.payload = .pred e → ∀ p, BoolPart p e → same p = false

/-- C244: if the predicate is not found, nothing happens. -/
theorem C244_absent [DecidableEq Q] (eq : Expr Q → Bool) (new : Expr Q) (q : Query (Content Q)) (hq : WF q) (hp : HasPreds q) (hc : ClassFits q) (ha : Absent eq q) :
    replacePredicate eq new q = some q := by
  obtain ⟨q', e1, e2, e3, e4, e5⟩ := C244_query eq new q hq hp
  rw [e1]
  congr 1
  have hget : q'.get = q.get := by
    funext s
    by_cases hs : s = .where_ ∨ s = .having
    · cases h : q.get s with
      | none => exact (e5 s hs).1 h
      | some c =>
        obtain ⟨e, he, hb⟩ := hp s hs c h
        obtain ⟨f, hf, hsw⟩ := (e5 s hs).2 c e h he
        obtain ⟨g, hg1, _, hg2⟩ := C40_replace eq new e hb
        have := (C244_predicate eq new e f hb).2 hsw
        rw [hg1, hg2 (fun p hp' => ha s hs c e h he p hp')] at this
        rw [hf, ← Option.some.inj this]
        obtain ⟨k, p⟩ := c
        simp only at he
        rw [he]
    · exact e4 s (fun h => hs (.inl h)) (fun h => hs (.inr h))
  have hcls := e3 hc
  cases q; cases q'
  simp only at hget hcls
  rw [hget, hcls]

/-- C244: replacing a predicate by an equivalent one keeps the truth value of the WHERE and HAVING conditions on each row. -/
theorem C244_truth [DecidableEq Q] (eq : Expr Q → Bool) (new : Expr Q) (q q' : Query (Content Q)) (hq : WF q) (hp : HasPreds q) (h : replacePredicate eq new q = some q')
    (I : Expr Q → Option Bool) (hI : ∀ p, eq p = true → truth I p = truth I new) (s : Slot) (hs : s = .where_ ∨ s = .having) (c : Clause (Content Q)) (e : Expr Q)
    (hc : q.get s = some c) (he : c.payload = .pred e) : ∃ f, q'.get s = some ⟨c.kind, .pred f⟩ ∧ truth I f = truth I e := by
  obtain ⟨r, e1, _, _, _, e5⟩ := C244_query eq new q hq hp
  rw [h] at e1
  cases e1
  obtain ⟨f, hf, hsw⟩ := (e5 s hs).2 c e hc he
  obtain ⟨e', he', hb⟩ := hp s hs c hc
  rw [he] at he'
  cases he'
  obtain ⟨g, hg1, hg2, _⟩ := C40_replace eq new e hb
  have := (C244_predicate eq new e f hb).2 hsw
  rw [hg1] at this
  cases this
  exact ⟨f, hf, hg2 I fun p _ hp' => hI p hp'⟩

/-! ### Example -/

/-- SELECT … FROM … WHERE NOT (t1.z = 1 OR t1.z = 2) HAVING t1.z = 1 -/
def exQuery : Query (Content Unit) :=
  ⟨.implicit, fun s => match s with
    | .select => some ⟨.select, .other 0⟩
    | .from_ => some ⟨.fromImplicit, .other 1⟩
    | .where_ => some ⟨.where_, .pred (.compound .not [.compound .or [fZ 1, fZ 2]])⟩
    | .having => some ⟨.having, .pred (fZ 1)⟩
    | _ => none⟩

/-- The example meets the hypotheses of `C244_query`, and of `C244_absent` for another predicate. -/
example : WF exQuery ∧ HasPreds exQuery ∧ ClassFits exQuery ∧ Absent (fun p => decide (p = fZ 3)) exQuery ∧
    ((replacePredicate (fun p => decide (p = fZ 1)) (fZ 3) exQuery).bind fun q => q.get .where_) = some ⟨.where_, .pred (.compound .not [.compound .or [fZ 3, fZ 2]])⟩ := by
  have hb : Built (Expr.compound .not [.compound .or [fZ 1, fZ 2]] : Expr Unit) := (everywhere_iff _ _).1 (by decide +kernel)
  have hb1 : Built (fZ 1 : Expr Unit) := (everywhere_iff _ _).1 (by decide +kernel)
  refine ⟨⟨?_, ?_, ?_⟩, ?_, ?_, ?_, by decide +kernel⟩
  · intro s c h
    cases s <;> simp [exQuery] at h <;> subst h <;> rfl
  · intro _
    exact ⟨⟨_, rfl⟩, fun s hs => by cases s <;> simp_all [ClausesProps.isSetSlot, exQuery]⟩
  · intro h; cases h
  · intro s hs c h
    rcases hs with rfl | rfl
    · simp only [exQuery, Option.some.injEq] at h; subst h; exact ⟨_, rfl, hb⟩
    · simp only [exQuery, Option.some.injEq] at h; subst h; exact ⟨_, rfl, hb1⟩
  · exact .inr (.inl ⟨rfl, fun c h => by simp only [exQuery, Option.some.injEq] at h; subst h; rfl⟩)
  · intro s hs c e h he p hp
    rcases hs with rfl | rfl
    · simp only [exQuery, Option.some.injEq] at h; subst h; cases he
      cases hp with
      | refl => decide +kernel
      | step hm hp =>
        simp only [List.mem_singleton] at hm; subst hm
        cases hp with
        | refl => decide +kernel
        | step hm hp =>
          simp only [List.mem_cons, List.not_mem_nil, or_false] at hm
          rcases hm with rfl | rfl <;> (cases hp; decide +kernel)
    · simp only [exQuery, Option.some.injEq] at h; subst h; cases he
      cases hp; decide +kernel

end PB.ReplacePredProps
