import Verif.Model.Clauses
import Mathlib.Data.List.Induction

set_option linter.unusedSimpArgs false
set_option linter.unusedVariables false
set_option linter.unusedSectionVars false
set_option linter.unnecessarySimpa false

/-! Properties C42, C90: assembling queries from clauses and editing them. -/

namespace PB.ClausesProps
open PB PB.Clauses

variable {P : Type} [DecidableEq P]

/-! ### Specification vocabulary -/

/-- The attribute of a query that holds clauses of the given type. -/
def sortOf : Kind → Slot
  | .hint => .hint
  | .explain => .explain
  | .cte => .cte
  | .select => .select
  | .fromImplicit => .from_
  | .fromExplicit => .from_
  | .fromMixed => .from_
  | .where_ => .where_
  | .groupBy => .groupBy
  | .having => .having
  | .orderBy => .orderBy
  | .limit => .limit
  | .union => .union
  | .except => .except
  | .intersect => .intersect

theorem slotOf_eq (k : Kind) : slotOf k = sortOf k := by cases k <;> rfl

/-- `c` is the last clause of its sort in the list (the FROM clauses are of the same sort). -/
def IsLast (c : Clause P) (s : Slot) (cs : List (Clause P)) : Prop :=
  ∃ pre post, cs = pre ++ c :: post ∧ sortOf c.kind = s ∧ ∀ d ∈ post, sortOf d.kind ≠ s

/-- Set operations. -/
def isSetSlot : Slot → Bool
  | .union | .except | .intersect => true
  | _ => false

/-- Clauses a set query can have in addition to its set operation. -/
def isOuterSlot : Slot → Bool
  | .hint | .explain | .cte | .orderBy | .limit => true
  | _ => false

/-- The queries that can be constructed: attributes have the right type; an ordinary query has a SELECT clause and no
set operation; a set query has exactly one set operation and no SELECT, FROM, WHERE, GROUP BY or HAVING clause. -/
structure WF (q : Query P) : Prop where
  kinds : ∀ s c, q.get s = some c → sortOf c.kind = s
  plain : q.cls ≠ .set → (∃ c, q.get .select = some c) ∧ ∀ s, isSetSlot s = true → q.get s = none
  set : q.cls = .set → (∃ s, isSetSlot s = true ∧ q.get s ≠ none ∧ ∀ s', isSetSlot s' = true → q.get s' ≠ none → s' = s) ∧
    ∀ s, isSetSlot s = false → isOuterSlot s = false → q.get s = none

/-- The class of an ordinary query fits its FROM clause. -/
def ClassFits (q : Query P) : Prop :=
  q.cls = .set ∨
  (q.cls = .implicit ∧ ∀ c, q.get .from_ = some c → c.kind = .fromImplicit) ∨
  (q.cls = .explicit ∧ ∃ c, q.get .from_ = some c ∧ c.kind = .fromExplicit) ∨
  (q.cls = .mixed ∧ ∃ c, q.get .from_ = some c ∧ c.kind = .fromMixed)

/-! ### The loop of `build_query` -/

theorem buildLoop_snoc (cs : List (Clause P)) (c : Clause P) :
    buildLoop (cs ++ [c]) = Function.update (buildLoop cs) (sortOf c.kind) (some c) := by
  simp [buildLoop, slotOf_eq]

theorem buildLoop_isLast (cs : List (Clause P)) (s : Slot) (c : Clause P) :
    buildLoop cs s = some c ↔ IsLast c s cs := by
  induction cs using List.reverseRecOn with
  | nil => simp [buildLoop, IsLast]
  | append_singleton cs d ih =>
    rw [buildLoop_snoc]
    by_cases h : s = sortOf d.kind
    · subst h
      rw [Function.update_self, Option.some.injEq]
      constructor
      · rintro rfl; exact ⟨cs, [], rfl, rfl, by simp⟩
      · rintro ⟨pre, post, he, hs, hp⟩
        rcases List.eq_nil_or_concat post with rfl | ⟨post', x, rfl⟩
        · have := List.append_inj_right' he rfl; simpa using this
        · exfalso
          rw [List.concat_eq_append] at he hp
          have : d = x := by
            have := congrArg List.getLast? he
            simpa [List.getLast?_append, List.getLast?_cons] using this
          subst this
          exact hp d (by simp) rfl
    · rw [Function.update_of_ne h, ih]
      constructor
      · rintro ⟨pre, post, rfl, hs, hp⟩
        refine ⟨pre, post ++ [d], by simp, hs, ?_⟩
        intro x hx
        rcases List.mem_append.1 hx with hx | hx
        · exact hp x hx
        · rw [List.mem_singleton.1 hx]; exact fun e => h e.symm
      · rintro ⟨pre, post, he, hs, hp⟩
        rcases List.eq_nil_or_concat post with rfl | ⟨post', x, rfl⟩
        · have := List.append_inj_right' he rfl
          rw [List.cons.injEq] at this
          exact absurd (hs.symm.trans (congrArg (fun c => sortOf c.kind) this.1.symm)) h
        · rw [List.concat_eq_append] at he hp
          have h1 : cs ++ [d] = (pre ++ c :: post') ++ [x] := by simpa using he
          exact ⟨pre, post', List.append_inj_left' h1 rfl, hs, fun y hy => hp y (by simp [hy])⟩

theorem buildLoop_none (cs : List (Clause P)) (s : Slot) :
    buildLoop cs s = none ↔ ∀ c ∈ cs, sortOf c.kind ≠ s := by
  induction cs using List.reverseRecOn with
  | nil => simp [buildLoop]
  | append_singleton cs d ih =>
    rw [buildLoop_snoc]
    by_cases h : s = sortOf d.kind
    · subst h; rw [Function.update_self]; simp
    · rw [Function.update_of_ne h, ih]
      constructor
      · intro h' c hc
        rcases List.mem_append.1 hc with hc | hc
        · exact h' c hc
        · rw [List.mem_singleton.1 hc]; exact fun e => h e.symm
      · intro h' c hc; exact h' c (by simp [hc])

theorem buildLoop_append (xs ys : List (Clause P)) (s : Slot) :
    buildLoop (xs ++ ys) s = (buildLoop ys s).or (buildLoop xs s) := by
  induction ys using List.reverseRecOn with
  | nil => simp [buildLoop]
  | append_singleton ys d ih =>
    rw [← List.append_assoc, buildLoop_snoc, buildLoop_snoc]
    by_cases h : s = sortOf d.kind
    · subst h; simp
    · rw [Function.update_of_ne h, Function.update_of_ne h, ih]

theorem buildLoop_filterMap (L : List Slot) (hL : L.Nodup) (g : Slot → Option (Clause P))
    (hg : ∀ s c, g s = some c → sortOf c.kind = s) (s : Slot) :
    buildLoop (L.filterMap g) s = if s ∈ L then g s else none := by
  induction L using List.reverseRecOn with
  | nil => simp [buildLoop]
  | append_singleton L t ih =>
    have hL' : L.Nodup ∧ t ∉ L := by
      rw [List.nodup_append] at hL
      exact ⟨hL.1, fun h => hL.2.2 t h t (by simp) rfl⟩
    have ih := ih hL'.1
    rw [List.filterMap_append]
    cases hgt : g t with
    | none =>
      rw [show List.filterMap g [t] = [] by simp [hgt], List.append_nil, ih]
      by_cases h : s = t
      · subst h; simp [hL'.2, hgt]
      · simp [h]
    | some c =>
      rw [show List.filterMap g [t] = [c] by simp [hgt], buildLoop_snoc, hg t c hgt]
      by_cases h : s = t
      · subst h; simp [hgt]
      · rw [Function.update_of_ne h, ih]; simp [h]

/-- The attributes of a query and the clauses it reports. -/
theorem loop_clauses (q : Query P) (hq : WF q) (p : Clause P → Bool) (s : Slot) :
    buildLoop (q.clauses.filter p) s = (q.get s).filter p := by
  have h1 : q.clauses.filter p =
      (if q.cls = .set then setSlots else plainSlots).filterMap fun s => (q.get s).filter p := by
    rw [Query.clauses, List.filter_filterMap]
  have hnd : (if q.cls = .set then setSlots else plainSlots).Nodup := by
    split <;> decide
  rw [h1, buildLoop_filterMap _ hnd _ (fun s c hc => hq.kinds s c (by
    cases h : q.get s with
    | none => rw [h] at hc; simp at hc
    | some d =>
      rw [h, Option.filter_some] at hc
      split at hc
      · exact hc
      · cases hc))]
  by_cases hs : s ∈ (if q.cls = .set then setSlots else plainSlots)
  · rw [if_pos hs]
  · rw [if_neg hs]
    have : q.get s = none := by
      by_cases hc : q.cls = .set
      · rw [if_pos hc] at hs
        refine (hq.set hc).2 s ?_ ?_ <;> cases s <;> simp [setSlots, isSetSlot, isOuterSlot] at hs ⊢
      · rw [if_neg hc] at hs
        refine (hq.plain hc).2 s ?_
        cases s <;> simp [plainSlots, isSetSlot] at hs ⊢
    rw [this]; rfl

/-- Assembling an ordinary query. -/
theorem build_plain (cs : List (Clause P)) (hset : ∀ s, isSetSlot s = true → buildLoop cs s = none)
    (hsel : buildLoop cs .select ≠ none) :
    ∃ q, buildQuery cs = some q ∧ q.get = buildLoop cs ∧ q.cls = classOf (buildLoop cs .from_) := by
  refine ⟨⟨classOf (buildLoop cs .from_), plainGet (buildLoop cs)⟩, ?_, ?_, rfl⟩
  · simp only [buildQuery]
    rw [hset .union rfl, hset .except rfl, hset .intersect rfl]
    cases h : buildLoop cs .select with
    | none => exact absurd h hsel
    | some c => simp
  · funext s
    cases s <;> simp only [plainGet]
    · exact (hset .union rfl).symm
    · exact (hset .except rfl).symm
    · exact (hset .intersect rfl).symm

/-- Assembling a set query. -/
theorem build_set (cs : List (Clause P))
    (hset : ∃ s, isSetSlot s = true ∧ buildLoop cs s ≠ none ∧ ∀ s', isSetSlot s' = true → buildLoop cs s' ≠ none → s' = s)
    (hother : ∀ s, isSetSlot s = false → isOuterSlot s = false → buildLoop cs s = none) :
    ∃ q, buildQuery cs = some q ∧ q.get = buildLoop cs ∧ q.cls = .set := by
  obtain ⟨s, hs, hne, huniq⟩ := hset
  have huniq' : ∀ s', isSetSlot s' = true → s' ≠ s → buildLoop cs s' = none := fun s' h1 h2 => by
    by_contra h; exact h2 (huniq s' h1 h)
  have hsome : ((buildLoop cs .union).isSome || (buildLoop cs .except).isSome || (buildLoop cs .intersect).isSome) = true := by
    cases s <;> simp [isSetSlot] at hs <;> simp [Option.isSome_iff_ne_none, hne]
  refine ⟨⟨.set, setGet (buildLoop cs)⟩, ?_, ?_, rfl⟩
  · simp only [buildQuery]
    rw [if_pos hsome, hother .select rfl rfl, hother .from_ rfl rfl, hother .where_ rfl rfl, hother .groupBy rfl rfl,
      hother .having rfl rfl]
    simp
  · funext t
    have hu : s ≠ .union → buildLoop cs .union = none := fun h => huniq' _ rfl (Ne.symm h)
    have he : s ≠ .except → buildLoop cs .except = none := fun h => huniq' _ rfl (Ne.symm h)
    have hi : s ≠ .intersect → buildLoop cs .intersect = none := fun h => huniq' _ rfl (Ne.symm h)
    cases t <;> simp only [setGet]
    · exact (hother .select rfl rfl).symm
    · exact (hother .from_ rfl rfl).symm
    · exact (hother .where_ rfl rfl).symm
    · exact (hother .groupBy rfl rfl).symm
    · exact (hother .having rfl rfl).symm
    · by_cases h : s = .except
      · rw [if_pos (hu (by rw [h]; simp))]
      · rw [he h]; simp
    · by_cases h : s = .intersect
      · rw [if_pos (hu (by rw [h]; simp)), if_pos (he (by rw [h]; simp))]
      · rw [hi h]; simp

theorem classOf_ne_set (o : Option (Clause P)) : classOf o ≠ .set := by
  cases o with
  | none => simp [classOf]
  | some c => simp only [classOf]; split <;> (try split) <;> simp

/-! ### C90: queries and their clauses -/

/-- **C90 (partial).** Rebuilding a query from its clauses yields the same query. Missing: explicit and mixed queries
without a FROM clause, see `C90_rebuild_violated`. -/
theorem C90_rebuild_partial (q : Query P) (hq : WF q) (hc : ClassFits q) : buildQuery q.clauses = some q := by
  have hl : ∀ s, buildLoop q.clauses s = q.get s := by
    intro s
    have := loop_clauses q hq (fun _ => true) s
    rw [List.filter_true] at this
    rw [this]; cases q.get s <;> simp
  have hl' : buildLoop q.clauses = q.get := funext hl
  by_cases hs : q.cls = .set
  · obtain ⟨q', h1, h2, h3⟩ := build_set q.clauses (by simpa only [hl] using (hq.set hs).1)
      (by simpa only [hl] using (hq.set hs).2)
    rw [h1, Option.some.injEq]
    rcases q with ⟨c, g⟩; rcases q' with ⟨c', g'⟩
    simp only at h2 h3 hs hl'
    rw [h2, h3, hl', hs]
  · obtain ⟨⟨c0, hc0⟩, hp⟩ := hq.plain hs
    obtain ⟨q', h1, h2, h3⟩ := build_plain q.clauses (by simpa only [hl] using hp) (by rw [hl, hc0]; simp)
    have hcls : classOf (q.get .from_) = q.cls := by
      rcases hc with h | ⟨h, hf⟩ | ⟨h, c, hf, hk⟩ | ⟨h, c, hf, hk⟩
      · exact absurd h hs
      · rw [h]
        cases hfr : q.get .from_ with
        | none => rfl
        | some c => simp [classOf, hf c hfr]
      · rw [h, hf]; simp [classOf, hk]
      · rw [h, hf]; simp [classOf, hk]
    rw [h1, Option.some.injEq]
    rcases q with ⟨c, g⟩; rcases q' with ⟨c', g'⟩
    simp only at h2 h3 hl' hcls
    rw [h2, h3, hl', hcls]

/-- **C90.** `build_query` returns queries with the clauses it was given: the last one of each sort. A query that is
built is well-formed and its class fits, so it can be rebuilt. -/
theorem C90_build (cs : List (Clause P)) (q : Query P) (h : buildQuery cs = some q) :
    WF q ∧ ClassFits q ∧ ∀ s c, q.get s = some c → IsLast c s cs := by
  have hk : ∀ s c, buildLoop cs s = some c → sortOf c.kind = s := fun s c h => by
    obtain ⟨_, _, _, h, _⟩ := (buildLoop_isLast cs s c).1 h; exact h
  simp only [buildQuery] at h
  split at h
  · rename_i hset
    split at h
    · cases h
    · rename_i hoth
      simp only [Bool.or_eq_true, Option.isSome_iff_ne_none, not_or, not_not] at hset hoth
      obtain ⟨⟨⟨⟨h1, h2⟩, h3⟩, h4⟩, h5⟩ := hoth
      rw [Option.some.injEq] at h
      subst h
      have hget : ∀ s c, setGet (buildLoop cs) s = some c → buildLoop cs s = some c := by
        intro s c
        cases s <;> simp only [setGet] <;> first | exact id | (intro h; cases h) | skip
        · split <;> first | exact id | (intro h; cases h)
        · split
          · split <;> first | exact id | (intro h; cases h)
          · intro h; cases h
      refine ⟨⟨fun s c hc => hk s c (hget s c hc), fun h => absurd rfl h, fun _ => ⟨?_, ?_⟩⟩, .inl rfl,
        fun s c hc => (buildLoop_isLast cs s c).1 (hget s c hc)⟩
      · by_cases hu : buildLoop cs .union = none
        · by_cases he : buildLoop cs .except = none
          · refine ⟨.intersect, rfl, ?_, ?_⟩
            · simp only [setGet, hu, he, if_true]; rcases hset with (h | h) | h
              · exact absurd hu h
              · exact absurd he h
              · exact h
            · intro s' hs'; cases s' <;> simp [isSetSlot] at hs' <;> simp [setGet, hu, he]
          · refine ⟨.except, rfl, ?_, ?_⟩
            · simp only [setGet, hu, if_true]; exact he
            · intro s' hs'; cases s' <;> simp [isSetSlot] at hs' <;> simp [setGet, hu, he]
        · refine ⟨.union, rfl, ?_, ?_⟩
          · simp only [setGet]; exact hu
          · intro s' hs'; cases s' <;> simp [isSetSlot] at hs' <;> simp [setGet, hu]
      · intro s hs ho; cases s <;> simp [isSetSlot, isOuterSlot] at hs ho <;> rfl
  · rename_i hset
    split at h
    · cases h
    · rename_i hsel
      simp only [Bool.or_eq_true, Option.isSome_iff_ne_none, not_or, not_not] at hset
      obtain ⟨⟨hu, he⟩, hi⟩ := hset
      rw [Option.some.injEq] at h
      subst h
      have hget : plainGet (buildLoop cs) = buildLoop cs := by
        funext s; cases s <;> simp only [plainGet] <;> simp [hu, he, hi]
      refine ⟨⟨fun s c hc => hk s c (by rwa [← hget]), fun _ => ⟨?_, ?_⟩, fun h => absurd h (classOf_ne_set _)⟩, ?_,
        fun s c hc => (buildLoop_isLast cs s c).1 (by rwa [← hget])⟩
      · simp only [Option.isNone_iff_eq_none] at hsel
        exact Option.ne_none_iff_exists'.1 hsel
      · intro s hs; cases s <;> simp [isSetSlot] at hs <;> rfl
      · right
        simp only [hget]
        cases hf : buildLoop cs .from_ with
        | none => exact .inl ⟨rfl, by simp⟩
        | some c =>
          have := hk _ _ hf
          rcases c with ⟨k, p⟩
          cases k <;> simp [sortOf] at this <;> simp [classOf]

theorem buildLoop_isSome (cs : List (Clause P)) (s : Slot) : (buildLoop cs s).isSome = true ↔ ∃ c ∈ cs, sortOf c.kind = s := by
  rw [Option.isSome_iff_exists]
  constructor
  · rintro ⟨c, h⟩
    obtain ⟨pre, post, rfl, hs, _⟩ := (buildLoop_isLast cs s c).1 h
    exact ⟨c, by simp, hs⟩
  · rintro ⟨c, hc, hs⟩
    induction cs using List.reverseRecOn with
    | nil => simp at hc
    | append_singleton cs d ih =>
      rw [buildLoop_snoc]
      by_cases h : s = sortOf d.kind
      · subst h; exact ⟨d, by simp⟩
      · rw [Function.update_of_ne h]
        rcases List.mem_append.1 hc with hc | hc
        · exact ih hc
        · simp only [List.mem_singleton] at hc; subst hc; exact absurd hs.symm h

/-- **C90**: a query can be built unless there is neither a SELECT clause nor a set operation, or a set operation together with a SELECT, FROM, WHERE, GROUP BY or
HAVING clause. -/
theorem C90_build_total (cs : List (Clause P)) : buildQuery cs = none ↔
    ((∀ c ∈ cs, isSetSlot (sortOf c.kind) = false) ∧ ∀ c ∈ cs, sortOf c.kind ≠ .select) ∨
    ((∃ c ∈ cs, isSetSlot (sortOf c.kind) = true) ∧ ∃ c ∈ cs, sortOf c.kind ∈ [Slot.select, .from_, .where_, .groupBy, .having]) := by
  have hset : ((buildLoop cs .union).isSome || (buildLoop cs .except).isSome || (buildLoop cs .intersect).isSome) = true ↔ ∃ c ∈ cs, isSetSlot (sortOf c.kind) = true := by
    simp only [Bool.or_eq_true, buildLoop_isSome]
    constructor
    · rintro ((⟨c, hc, h⟩ | ⟨c, hc, h⟩) | ⟨c, hc, h⟩) <;> exact ⟨c, hc, by rw [h]; rfl⟩
    · rintro ⟨c, hc, h⟩
      cases hk : sortOf c.kind <;> simp [hk, isSetSlot] at h
      · exact .inl (.inl ⟨c, hc, hk⟩)
      · exact .inl (.inr ⟨c, hc, hk⟩)
      · exact .inr ⟨c, hc, hk⟩
  have hoth : ((buildLoop cs .select).isSome || (buildLoop cs .from_).isSome || (buildLoop cs .where_).isSome || (buildLoop cs .groupBy).isSome ||
      (buildLoop cs .having).isSome) = true ↔ ∃ c ∈ cs, sortOf c.kind ∈ [Slot.select, .from_, .where_, .groupBy, .having] := by
    simp only [Bool.or_eq_true, buildLoop_isSome, List.mem_cons, List.not_mem_nil, or_false]
    constructor
    · rintro ((((⟨c, hc, h⟩ | ⟨c, hc, h⟩) | ⟨c, hc, h⟩) | ⟨c, hc, h⟩) | ⟨c, hc, h⟩) <;> exact ⟨c, hc, by simp [h]⟩
    · rintro ⟨c, hc, h | h | h | h | h⟩
      · exact .inl (.inl (.inl (.inl ⟨c, hc, h⟩)))
      · exact .inl (.inl (.inl (.inr ⟨c, hc, h⟩)))
      · exact .inl (.inl (.inr ⟨c, hc, h⟩))
      · exact .inl (.inr ⟨c, hc, h⟩)
      · exact .inr ⟨c, hc, h⟩
  have hno : (∀ c ∈ cs, isSetSlot (sortOf c.kind) = false) ↔ ¬ ∃ c ∈ cs, isSetSlot (sortOf c.kind) = true := by simp
  have hsel : (buildLoop cs .select).isNone = true ↔ ∀ c ∈ cs, sortOf c.kind ≠ .select := by
    rw [← Option.not_isSome, Bool.not_eq_true', Bool.eq_false_iff, Ne, buildLoop_isSome]; simp
  rw [hno, ← hset, ← hoth, ← hsel]
  simp only [buildQuery]
  split
  · rename_i h
    split
    · rename_i ho; exact iff_of_true rfl (.inr ⟨h, ho⟩)
    · rename_i ho; exact iff_of_false (by simp) (by rintro (e | e); exacts [e.1 h, ho e.2])
  · rename_i h
    split
    · rename_i ho; exact iff_of_true rfl (.inl ⟨h, ho⟩)
    · rename_i ho; exact iff_of_false (by simp) (by rintro (e | e); exacts [ho e.2, h e.1])

/-- **C90**: a query is built from all given clauses; if there are several of a sort, the last one is used. Missing: with several set operations only one of
them is used, see `C90_sets_violated`. -/
theorem C90_build_all_partial (cs : List (Clause P)) (q : Query P) (h : buildQuery cs = some q)
    (hset : ∀ c ∈ cs, ∀ d ∈ cs, isSetSlot (sortOf c.kind) = true → isSetSlot (sortOf d.kind) = true → sortOf c.kind = sortOf d.kind) (s : Slot) (c : Clause P) :
    q.get s = some c ↔ IsLast c s cs := by
  refine ⟨(C90_build cs q h).2.2 s c, fun hl => ?_⟩
  have hst := (buildLoop_isLast cs s c).2 hl
  have hsome : ∀ s', (buildLoop cs s').isSome = true → isSetSlot s' = true → ∀ s'', (buildLoop cs s'').isSome = true → isSetSlot s'' = true → s' = s'' := by
    intro s' h1 h2 s'' h3 h4
    obtain ⟨c1, hc1, e1⟩ := (buildLoop_isSome cs s').1 h1
    obtain ⟨c2, hc2, e2⟩ := (buildLoop_isSome cs s'').1 h3
    rw [← e1, ← e2]
    exact hset c1 hc1 c2 hc2 (by rw [e1]; exact h2) (by rw [e2]; exact h4)
  have hnone : ∀ s' s'', s' ≠ s'' → isSetSlot s' = true → isSetSlot s'' = true → buildLoop cs s' ≠ none → buildLoop cs s'' = none := by
    intro s' s'' hne h1 h2 h3
    by_contra h4
    exact hne (hsome s' (Option.isSome_iff_ne_none.2 h3) h1 s'' (Option.isSome_iff_ne_none.2 h4) h2)
  simp only [buildQuery] at h
  split at h
  · split at h
    · cases h
    · rename_i hoth
      simp only [Bool.or_eq_true, Option.isSome_iff_ne_none, not_or, not_not] at hoth
      obtain ⟨⟨⟨⟨h1, h2⟩, h3⟩, h4⟩, h5⟩ := hoth
      rw [Option.some.injEq] at h
      subst h
      cases s with
      | select => rw [h1] at hst; cases hst
      | from_ => rw [h2] at hst; cases hst
      | where_ => rw [h3] at hst; cases hst
      | groupBy => rw [h4] at hst; cases hst
      | having => rw [h5] at hst; cases hst
      | except =>
        have : buildLoop cs .union = none := hnone .except .union (by simp) rfl rfl (by simp [hst])
        simp [setGet, this, hst]
      | intersect =>
        have h6 : buildLoop cs .union = none := hnone .intersect .union (by simp) rfl rfl (by simp [hst])
        have h7 : buildLoop cs .except = none := hnone .intersect .except (by simp) rfl rfl (by simp [hst])
        simp [setGet, h6, h7, hst]
      | _ => simp [setGet, hst]
  · rename_i hs
    split at h
    · cases h
    · simp only [Bool.or_eq_true, Option.isSome_iff_ne_none, not_or, not_not] at hs
      obtain ⟨⟨hu, he⟩, hi⟩ := hs
      rw [Option.some.injEq] at h
      subst h
      cases s with
      | union => rw [hu] at hst; cases hst
      | except => rw [he] at hst; cases hst
      | intersect => rw [hi] at hst; cases hst
      | _ => simp [plainGet, hst]

/-- **C90** (violated): of a UNION and an EXCEPT clause only the UNION is used, without an error. -/
theorem C90_sets_violated : ∃ q : Query Nat, buildQuery [⟨.union, 1⟩, ⟨.except, 2⟩] = some q ∧ q.get .union = some ⟨.union, 1⟩ ∧ q.get .except = none :=
  ⟨_, rfl, rfl, rfl⟩

/-- A query with SELECT, FROM and WHERE, and a set query with ORDER BY. -/
def qSel : Query Nat := ⟨.implicit, fun s => match s with
  | .select => some ⟨.select, 1⟩
  | .from_ => some ⟨.fromImplicit, 2⟩
  | .where_ => some ⟨.where_, 3⟩
  | _ => none⟩
def qSet : Query Nat := ⟨.set, fun s => match s with
  | .union => some ⟨.union, 1⟩
  | .orderBy => some ⟨.orderBy, 2⟩
  | _ => none⟩

theorem qSel_wf : WF qSel ∧ ClassFits qSel := by
  refine ⟨⟨?_, fun _ => ⟨⟨_, rfl⟩, ?_⟩, fun h => by cases h⟩, .inr (.inl ⟨rfl, ?_⟩)⟩
  · intro s c h; cases s <;> simp [qSel] at h <;> subst h <;> rfl
  · intro s h; cases s <;> simp [isSetSlot] at h <;> rfl
  · intro c h; simp [qSel] at h; subst h; rfl

theorem qSet_wf : WF qSet ∧ ClassFits qSet := by
  refine ⟨⟨?_, fun h => absurd rfl h, fun _ => ⟨⟨.union, rfl, by simp [qSet], ?_⟩, ?_⟩⟩, .inl rfl⟩
  · intro s c h; cases s <;> simp [qSet] at h <;> subst h <;> rfl
  · intro s h; cases s <;> simp [isSetSlot] at h <;> simp [qSet]
  · intro s h h'; cases s <;> simp [isSetSlot, isOuterSlot] at h h' <;> rfl

example : (WF qSel ∧ ClassFits qSel) ∧ WF qSet ∧ ClassFits qSet := ⟨qSel_wf, qSet_wf⟩

/-- **C90 is violated.** An explicit query without FROM clause becomes an implicit query. -/
theorem C90_rebuild_violated : ∃ q q' : Query Nat, WF q ∧ q.cls = .explicit ∧ buildQuery q.clauses = some q' ∧
    q'.cls = .implicit := by
  refine ⟨⟨.explicit, fun s => match s with | .select => some ⟨.select, 1⟩ | _ => none⟩, _,
    ⟨?_, fun _ => ⟨⟨_, rfl⟩, ?_⟩, fun h => by cases h⟩, rfl, rfl, rfl⟩
  · intro s c h; cases s <;> simp at h; subst h; rfl
  · intro s h; cases s <;> simp [isSetSlot] at h <;> rfl

/-! ### C42: editing clauses -/

/-- The attributes after adding clauses. -/
theorem loop_add (q : Query P) (hq : WF q) (new : List (Clause P)) (s : Slot) :
    (∀ c, IsLast c s new → buildLoop ((q.clauses.filter fun c => decide (c.kind ∉ new.map (·.kind))) ++ new) s = some c) ∧
    ((∀ c ∈ new, sortOf c.kind ≠ s) →
      buildLoop ((q.clauses.filter fun c => decide (c.kind ∉ new.map (·.kind))) ++ new) s = q.get s) := by
  rw [buildLoop_append, loop_clauses q hq]
  constructor
  · intro c hc; rw [(buildLoop_isLast new s c).2 hc]; rfl
  · intro h
    rw [(buildLoop_none new s).2 h, Option.none_or]
    cases hs : q.get s with
    | none => rfl
    | some c =>
      rw [Option.filter_some, if_pos]
      simp only [decide_eq_true_eq, List.mem_map, not_exists, not_and]
      intro d hd hk
      exact h d hd (by rw [hk]; exact hq.kinds s c hs)

theorem last_exists (new : List (Clause P)) (s : Slot) : (∃ c, IsLast c s new) ∨ ∀ c ∈ new, sortOf c.kind ≠ s := by
  cases h : buildLoop new s with
  | none => exact .inr ((buildLoop_none new s).1 h)
  | some c => exact .inl ⟨c, (buildLoop_isLast new s c).1 h⟩

/-- The new clauses fit the query: no set operations for ordinary queries; for set queries only outer clauses and set
operations of the same type. -/
def Fits (q : Query P) (new : List (Clause P)) : Prop :=
  ∀ c ∈ new, (q.cls ≠ .set → isSetSlot (sortOf c.kind) = false) ∧
    (q.cls = .set → isOuterSlot (sortOf c.kind) = true ∨
      (isSetSlot (sortOf c.kind) = true ∧ q.get (sortOf c.kind) ≠ none))

/-- **C42 (partial).** Adding clauses that fit the query: each added clause (the last one of its sort) is in the new
query, all other clauses are kept, and the class of the query fits its FROM clause. Missing: set operations that differ
from that of the query, see `C42_add_violated`. -/
theorem C42_add_partial (q : Query P) (hq : WF q) (new : List (Clause P)) (hf : Fits q new) :
    ∃ q', addClause q new = some q' ∧ WF q' ∧ ClassFits q' ∧ ∀ s,
      (∀ c, IsLast c s new → q'.get s = some c) ∧ ((∀ c ∈ new, sortOf c.kind ≠ s) → q'.get s = q.get s) := by
  have hadd := loop_add q hq new
  suffices H : ∃ q', addClause q new = some q' ∧
      q'.get = buildLoop ((q.clauses.filter fun c => decide (c.kind ∉ new.map (·.kind))) ++ new) by
    obtain ⟨q', h1, h2⟩ := H
    obtain ⟨h3, h4, _⟩ := C90_build _ q' h1
    exact ⟨q', h1, h3, h4, fun s => by rw [h2]; exact hadd s⟩
  by_cases hs : q.cls = .set
  · obtain ⟨⟨s, hss, hne, huniq⟩, hoth⟩ := hq.set hs
    have h1 : buildLoop ((q.clauses.filter fun c => decide (c.kind ∉ new.map (·.kind))) ++ new) s ≠ none := by
      rcases last_exists new s with ⟨c, hc⟩ | h
      · rw [(hadd s).1 c hc]; simp
      · rw [(hadd s).2 h]; exact hne
    have h2 : ∀ s', isSetSlot s' = true →
        buildLoop ((q.clauses.filter fun c => decide (c.kind ∉ new.map (·.kind))) ++ new) s' ≠ none → s' = s := by
      intro s' hs' hne'
      rcases last_exists new s' with ⟨c, hc⟩ | h
      · obtain ⟨pre, post, he, hk, _⟩ := hc
        have := (hf c (by rw [he]; simp)).2 hs
        rw [hk] at this
        rcases this with h | ⟨_, h⟩
        · cases s' <;> simp [isSetSlot, isOuterSlot] at hs' h
        · exact huniq s' hs' h
      · rw [(hadd s').2 h] at hne'; exact huniq s' hs' hne'
    obtain ⟨q', h3, h4, _⟩ := build_set _ ⟨s, hss, h1, h2⟩ fun s' h1 h2 => by
      rcases last_exists new s' with ⟨c, pre, post, he, hk, _⟩ | h
      · have := (hf c (by rw [he]; simp)).2 hs
        rw [hk] at this
        rcases this with h | ⟨h, _⟩
        · rw [h2] at h; cases h
        · rw [h1] at h; cases h
      · rw [(hadd s').2 h]; exact hoth s' h1 h2
    exact ⟨q', h3, h4⟩
  · obtain ⟨⟨c0, hc0⟩, hp⟩ := hq.plain hs
    have h1 : ∀ s, isSetSlot s = true →
        buildLoop ((q.clauses.filter fun c => decide (c.kind ∉ new.map (·.kind))) ++ new) s = none := by
      intro s hss
      rw [(hadd s).2]
      · exact hp s hss
      · intro c hc hk
        have := (hf c hc).1 hs
        rw [hk, hss] at this; cases this
    obtain ⟨q', h3, h4, _⟩ := build_plain _ h1 (by
      rcases last_exists new .select with ⟨c, hc⟩ | h
      · rw [(hadd _).1 c hc]; simp
      · rw [(hadd _).2 h, hc0]; simp)
    exact ⟨q', h3, h4⟩

example : Fits qSel [⟨.fromExplicit, 7⟩, ⟨.limit, 8⟩] ∧ Fits qSet [⟨.union, 7⟩, ⟨.limit, 8⟩] := by
  constructor <;> intro c hc <;> simp at hc <;> rcases hc with rfl | rfl <;>
    simp [qSel, qSet, isSetSlot, isOuterSlot, sortOf]

/-- **C42 is violated.** Adding an EXCEPT clause to a UNION query has no effect. -/
theorem C42_add_violated : ∃ (q q' : Query Nat) (c : Clause Nat), WF q ∧ addClause q [c] = some q' ∧ c ∉ q'.clauses ∧
    q'.clauses = q.clauses :=
  ⟨qSet, _, ⟨.except, 9⟩, qSet_wf.1, rfl, by decide, by decide⟩

/-- **C42 (partial).** Dropping clause types removes the clauses of exactly these types (not of their subclasses) and
keeps all others; the SELECT clause (the set operation of a set query) cannot be dropped. Missing: dropping `From`
keeps implicit and explicit FROM clauses, see `C42_drop_violated`. -/
theorem C42_drop_partial (q : Query P) (hq : WF q) (types : List Kind) :
    (dropClause q types = none ↔
      ∃ s c, q.get s = some c ∧ c.kind ∈ types ∧ ((q.cls ≠ .set ∧ s = .select) ∨ (q.cls = .set ∧ isSetSlot s = true))) ∧
    ∀ q', dropClause q types = some q' → WF q' ∧ ClassFits q' ∧
      ∀ s c, q'.get s = some c ↔ q.get s = some c ∧ c.kind ∉ types := by
  have hl := loop_clauses q hq fun c => decide (c.kind ∉ types)
  have hget : ∀ s c, (q.get s).filter (fun c => decide (c.kind ∉ types)) = some c ↔ q.get s = some c ∧ c.kind ∉ types := by
    intro s c
    rw [Option.filter_eq_some_iff]; simp
  have hnone : ∀ s, (q.get s).filter (fun c => decide (c.kind ∉ types)) = none ↔
      ∀ c, q.get s = some c → c.kind ∈ types := by
    intro s; rw [Option.filter_eq_none_iff]; simp
  by_cases hs : q.cls = .set
  · obtain ⟨⟨s, hss, hne, huniq⟩, hoth⟩ := hq.set hs
    obtain ⟨c0, hc0⟩ := Option.ne_none_iff_exists'.1 hne
    by_cases hk : c0.kind ∈ types
    · have hz : ∀ s', isSetSlot s' = true → buildLoop (q.clauses.filter fun c => decide (c.kind ∉ types)) s' = none := by
        intro s' hs'
        rw [hl, hnone]
        intro c hc
        have := huniq s' hs' (by rw [hc]; simp)
        subst this
        rw [hc0] at hc; cases hc; exact hk
      have hd : dropClause q types = none := by
        rw [dropClause]
        simp only [buildQuery]
        rw [hz .union rfl, hz .except rfl, hz .intersect rfl, hl .select, hoth .select rfl rfl]
        rfl
      rw [hd]
      exact ⟨⟨fun _ => ⟨s, c0, hc0, hk, .inr ⟨hs, hss⟩⟩, fun _ => rfl⟩, fun q' h => by cases h⟩
    · obtain ⟨q1, h1, h2, _⟩ := build_set (q.clauses.filter fun c => decide (c.kind ∉ types))
        ⟨s, hss, by rw [hl, (hget s c0).2 ⟨hc0, hk⟩]; simp, fun s' hs' h => huniq s' hs' (fun h0 => h (by rw [hl, h0]; rfl))⟩
        (fun s' h1 h2 => by rw [hl, hoth s' h1 h2]; rfl)
      have hd : dropClause q types = some q1 := h1
      refine ⟨⟨fun h => absurd (hd.symm.trans h) (by simp), ?_⟩, ?_⟩
      · rintro ⟨s', c, hc, hct, h | ⟨_, h⟩⟩
        · exact absurd hs h.1
        · have := huniq s' h (by rw [hc]; simp)
          subst this
          rw [hc0] at hc; cases hc; exact absurd hct hk
      · intro q' h
        rw [hd] at h; cases h
        obtain ⟨h3, h4, _⟩ := C90_build _ q1 h1
        exact ⟨h3, h4, fun s c => by rw [h2, hl, hget]⟩
  · obtain ⟨⟨c0, hc0⟩, hp⟩ := hq.plain hs
    have hz : ∀ s', isSetSlot s' = true → buildLoop (q.clauses.filter fun c => decide (c.kind ∉ types)) s' = none := by
      intro s' hs'; rw [hl, hp s' hs']; rfl
    by_cases hk : c0.kind ∈ types
    · have hd : dropClause q types = none := by
        rw [dropClause]
        simp only [buildQuery]
        rw [hz .union rfl, hz .except rfl, hz .intersect rfl, hl .select,
          (hnone .select).2 fun c hc => by rw [hc0] at hc; cases hc; exact hk]
        rfl
      rw [hd]
      exact ⟨⟨fun _ => ⟨.select, c0, hc0, hk, .inl ⟨hs, rfl⟩⟩, fun _ => rfl⟩, fun q' h => by cases h⟩
    · obtain ⟨q1, h1, h2, _⟩ := build_plain (q.clauses.filter fun c => decide (c.kind ∉ types)) hz
        (by rw [hl, (hget _ c0).2 ⟨hc0, hk⟩]; simp)
      have hd : dropClause q types = some q1 := h1
      refine ⟨⟨fun h => absurd (hd.symm.trans h) (by simp), ?_⟩, ?_⟩
      · rintro ⟨s', c, hc, hct, ⟨_, rfl⟩ | ⟨h, _⟩⟩
        · rw [hc0] at hc; cases hc; exact absurd hct hk
        · exact absurd h hs
      · intro q' h
        rw [hd] at h; cases h
        obtain ⟨h3, h4, _⟩ := C90_build _ q1 h1
        exact ⟨h3, h4, fun s c => by rw [h2, hl, hget]⟩

/-- **C42 is violated.** Dropping the type `From` from an implicit query keeps its FROM clause. -/
theorem C42_drop_violated : ∃ q q' : Query Nat, WF q ∧ dropClause q [.fromMixed] = some q' ∧ q'.get .from_ ≠ none :=
  ⟨qSel, _, qSel_wf.1, rfl, by decide⟩

/-- `r` can replace `c`: it has the same class, or a subclass. -/
def Replaces (r c : Clause P) : Prop :=
  r.kind = c.kind ∨ (c.kind = .fromMixed ∧ (r.kind = .fromImplicit ∨ r.kind = .fromExplicit))

theorem isInstance_iff (r c : Clause P) : isInstance r c = true ↔ Replaces r c := by
  simp [isInstance, Replaces]

theorem Replaces.slot {r c : Clause P} (h : Replaces r c) : sortOf r.kind = sortOf c.kind := by
  rcases h with h | ⟨h1, h2 | h2⟩
  · rw [h]
  · rw [h1, h2]; rfl
  · rw [h1, h2]; rfl

theorem find_erase (l : List (Clause P)) (x : Clause P) (p : Clause P → Bool) (h : p x = false) :
    (l.erase x).find? p = l.find? p := by
  induction l with
  | nil => rfl
  | cons a l ih =>
    by_cases ha : a = x
    · subst ha; rw [List.erase_cons_head, List.find?_cons, h]
    · rw [List.erase_cons_tail (by simpa using ha), List.find?_cons, List.find?_cons, ih]

theorem replaceLoop_eq (cs avail : List (Clause P)) (hnd : (cs.map fun c => sortOf c.kind).Nodup) :
    replaceLoop cs avail = cs.map fun c => (avail.find? fun r => isInstance r c).getD c := by
  induction cs generalizing avail with
  | nil => rfl
  | cons c cs ih =>
    rw [List.map_cons, List.nodup_cons] at hnd
    rw [replaceLoop]
    split
    · rename_i h; subst h; rw [ih [] hnd.2]; rfl
    · show _ :: replaceLoop cs _ = _
      rw [List.map_cons, ih _ hnd.2]
      congr 1
      refine List.map_congr_left fun d hd => ?_
      congr 1
      refine find_erase _ _ _ ?_
      by_contra hc
      rw [Bool.not_eq_false, isInstance_iff] at hc
      refine hnd.1 (List.mem_map.2 ⟨d, hd, ?_⟩)
      rw [← hc.slot]
      cases hf : avail.find? fun r => isInstance r c with
      | none => rfl
      | some r =>
        have := List.find?_some hf
        rw [isInstance_iff] at this
        exact this.slot

theorem clauses_slots (q : Query P) (hq : WF q) : (q.clauses.map fun c => sortOf c.kind).Nodup := by
  have key : ∀ L : List Slot, L.Nodup → ((L.filterMap q.get).map fun c => sortOf c.kind).Nodup := by
    intro L hL
    have : ((L.filterMap q.get).map fun c => sortOf c.kind).Sublist L := by
      clear hL
      induction L with
      | nil => simp
      | cons s L ih =>
        cases h : q.get s with
        | none => rw [List.filterMap_cons_none h]; exact ih.cons s
        | some c => rw [List.filterMap_cons_some h, List.map_cons, hq.kinds s c h]; exact ih.cons_cons s
    exact this.nodup hL
  rw [Query.clauses]
  split
  · exact key _ (by decide)
  · exact key _ (by decide)

/-- **C42.** Replacing clauses: a clause for which a replacement (of the same type or a subtype) is given is replaced
by such a replacement, all other clauses are kept, and no clause is added. -/
theorem C42_replace (q : Query P) (hq : WF q) (rs : List (Clause P)) :
    ∃ q', replaceClause q rs = some q' ∧ WF q' ∧ ClassFits q' ∧ ∀ s,
      (q.get s = none → q'.get s = none) ∧
      ∀ c, q.get s = some c → (∃ r ∈ rs, Replaces r c ∧ q'.get s = some r) ∨
        ((∀ r ∈ rs, ¬ Replaces r c) ∧ q'.get s = some c) := by
  let f : Clause P → Clause P := fun c => (rs.find? fun r => isInstance r c).getD c
  have hf : ∀ c, (f c ∈ rs ∧ Replaces (f c) c) ∨ ((∀ r ∈ rs, ¬ Replaces r c) ∧ f c = c) := by
    intro c
    simp only [f]
    cases h : rs.find? fun r => isInstance r c with
    | none =>
      rw [List.find?_eq_none] at h
      exact .inr ⟨fun r hr hn => h r hr ((isInstance_iff r c).2 hn), rfl⟩
    | some r =>
      have h1 := List.mem_of_find?_eq_some h
      have h2 := List.find?_some h
      exact .inl ⟨h1, (isInstance_iff r c).1 h2⟩
  have hslot : ∀ c, sortOf (f c).kind = sortOf c.kind := by
    intro c
    rcases hf c with ⟨_, h⟩ | ⟨_, h⟩
    · exact h.slot
    · rw [h]
  have hlist : replaceLoop q.clauses rs = (if q.cls = .set then setSlots else plainSlots).filterMap fun s => (q.get s).map f := by
    rw [replaceLoop_eq _ _ (clauses_slots q hq), Query.clauses, List.map_filterMap]
  have hnd : (if q.cls = .set then setSlots else plainSlots).Nodup := by
    split <;> decide
  have hl : ∀ s, buildLoop (replaceLoop q.clauses rs) s = (q.get s).map f := by
    intro s
    rw [hlist, buildLoop_filterMap _ hnd _ (fun s c hc => by
      obtain ⟨d, hd, rfl⟩ := Option.map_eq_some_iff.1 hc
      rw [hslot]; exact hq.kinds s d hd)]
    by_cases hs : s ∈ (if q.cls = .set then setSlots else plainSlots)
    · rw [if_pos hs]
    · rw [if_neg hs]
      have : q.get s = none := by
        by_cases hc : q.cls = .set
        · rw [if_pos hc] at hs
          refine (hq.set hc).2 s ?_ ?_ <;> cases s <;> simp [setSlots, isSetSlot, isOuterSlot] at hs ⊢
        · rw [if_neg hc] at hs
          refine (hq.plain hc).2 s ?_
          cases s <;> simp [plainSlots, isSetSlot] at hs ⊢
      rw [this]; rfl
  have hb : ∃ q', replaceClause q rs = some q' ∧ q'.get = buildLoop (replaceLoop q.clauses rs) := by
    by_cases hs : q.cls = .set
    · obtain ⟨⟨s, hss, hne, huniq⟩, hoth⟩ := hq.set hs
      obtain ⟨q', h1, h2, _⟩ := build_set (replaceLoop q.clauses rs)
        ⟨s, hss, by rw [hl]; simpa using hne, fun s' hs' h => huniq s' hs' (by rw [hl] at h; simpa using h)⟩
        (fun s' h1 h2 => by rw [hl, hoth s' h1 h2]; rfl)
      exact ⟨q', h1, h2⟩
    · obtain ⟨⟨c0, hc0⟩, hp⟩ := hq.plain hs
      obtain ⟨q', h1, h2, _⟩ := build_plain (replaceLoop q.clauses rs) (fun s h => by rw [hl, hp s h]; rfl)
        (by rw [hl, hc0]; simp)
      exact ⟨q', h1, h2⟩
  obtain ⟨q', h1, h2⟩ := hb
  obtain ⟨h3, h4, _⟩ := C90_build _ q' h1
  refine ⟨q', h1, h3, h4, fun s => ⟨fun h => by rw [h2, hl, h]; rfl, fun c hc => ?_⟩⟩
  have : q'.get s = some (f c) := by rw [h2, hl, hc]; rfl
  rcases hf c with ⟨ha, hb⟩ | ⟨ha, hb⟩
  · exact .inl ⟨f c, ha, hb, this⟩
  · exact .inr ⟨ha, by rw [this, hb]⟩

example : (replaceClause qSel [⟨.where_, 8⟩, ⟨.limit, 9⟩, ⟨.fromExplicit, 7⟩]).map (·.clauses) =
    some [⟨.select, 1⟩, ⟨.fromImplicit, 2⟩, ⟨.where_, 8⟩] := by decide

/-! ### C91: changing a single clause -/

/-- **C91.** `as_star_query`, `as_count_star_query` (ordinary queries) and `as_explain` (all queries): the new query has
the new clause, and all other clauses are unchanged. -/
theorem C91_with_clause (q : Query P) (hq : WF q) (c : Clause P)
    (hc : (c.kind = .select ∧ q.cls ≠ .set) ∨ c.kind = .explain) :
    ∃ q', withClause q c = some q' ∧ WF q' ∧ ClassFits q' ∧ q'.get (sortOf c.kind) = some c ∧
      ∀ s, s ≠ sortOf c.kind → q'.get s = q.get s := by
  have hfit : Fits q [c] := by
    intro d hd
    rw [List.mem_singleton] at hd; subst hd
    rcases hc with ⟨h, hs⟩ | h
    · exact ⟨fun _ => by rw [h]; rfl, fun h' => absurd h' hs⟩
    · exact ⟨fun _ => by rw [h]; rfl, fun _ => .inl (by rw [h]; rfl)⟩
  obtain ⟨q', h1, h2, h3, h4⟩ := C42_add_partial q hq [c] hfit
  refine ⟨q', ?_, h2, h3, (h4 _).1 c ⟨[], [], rfl, rfl, by simp⟩, fun s hs => (h4 s).2 (by simpa using hs.symm)⟩
  rw [← h1, withClause, addClause]
  simp

/-- **C91.** `as_star_query` and `as_count_star_query` reject set queries. -/
theorem C91_star_set (q : Query P) (hq : WF q) (hs : q.cls = .set) (c : Clause P) (hc : c.kind = .select) :
    withClause q c = none := by
  obtain ⟨⟨s, hss, hne, huniq⟩, hoth⟩ := hq.set hs
  have hl : ∀ t, t ≠ .select →
      buildLoop ((q.clauses.filter fun d => decide (d.kind ≠ c.kind)) ++ [c]) t = q.get t := by
    intro t ht
    rw [buildLoop_append, loop_clauses q hq, (buildLoop_none [c] t).2 (by simp [hc, sortOf, ht.symm]), Option.none_or]
    cases h : q.get t with
    | none => rfl
    | some d =>
      rw [Option.filter_some, if_pos]
      simp only [decide_eq_true_eq, hc]
      intro hk
      have := hq.kinds t d h
      rw [hk] at this; exact ht this.symm
  have hsel : buildLoop ((q.clauses.filter fun d => decide (d.kind ≠ c.kind)) ++ [c]) .select = some c := by
    rw [buildLoop_snoc, hc]; exact Function.update_self ..
  simp only [withClause, buildQuery, hsel, hl .union (by simp), hl .except (by simp), hl .intersect (by simp)]
  have : ((q.get .union).isSome || (q.get .except).isSome || (q.get .intersect).isSome) = true := by
    cases s <;> simp [isSetSlot] at hss <;> simp [Option.isSome_iff_ne_none, hne]
  rw [if_pos this]; simp

/-- **C91.** `drop_hints` removes the hint clause, or keeps only its query hints, and changes nothing else. -/
theorem C91_drop_hints (q : Query P) (hq : WF q) (prep : Bool) (keep : P → P) :
    ∃ q', dropHints q prep keep = some q' ∧ WF q' ∧ ClassFits q' ∧
      q'.get .hint = (if prep then (q.get .hint).map fun h => ⟨.hint, keep h.payload⟩ else none) ∧
      ∀ s, s ≠ .hint → q'.get s = q.get s := by
  by_cases h : prep = true ∧ q.get .hint ≠ none
  · obtain ⟨rfl, h⟩ := h
    obtain ⟨h0, hh0⟩ := Option.ne_none_iff_exists'.1 h
    have hfit : Fits q [⟨.hint, keep h0.payload⟩] := by
      intro d hd
      rw [List.mem_singleton] at hd; subst hd
      exact ⟨fun _ => rfl, fun _ => .inl rfl⟩
    obtain ⟨q', h1, h2, h3, h4⟩ := C42_add_partial q hq _ hfit
    refine ⟨q', ?_, h2, h3, ?_, fun s hs => (h4 s).2 (by simpa [sortOf] using hs.symm)⟩
    · rw [← h1, dropHints, addClause, hh0]; simp
    · rw [(h4 .hint).1 _ ⟨[], [], rfl, rfl, by simp⟩, hh0]; rfl
  · have hd : dropHints q prep keep = dropClause q [.hint] := by
      rw [dropHints, dropClause]
      have : (if prep then (q.get .hint).map fun h => (⟨.hint, keep h.payload⟩ : Clause P) else none) = none := by
        cases prep with
        | false => rfl
        | true => simp only [true_and, not_not] at h; simp [h]
      rw [this]; simp
    have hnn : dropClause q [.hint] ≠ none := by
      rw [Ne, (C42_drop_partial q hq [.hint]).1]
      rintro ⟨s, c, hc, hk, hh⟩
      have := hq.kinds s c hc
      rw [List.mem_singleton.1 hk] at this
      subst this
      rcases hh with ⟨_, h⟩ | ⟨_, h⟩ <;> cases h
    obtain ⟨q', hq'⟩ := Option.ne_none_iff_exists'.1 hnn
    obtain ⟨h2, h3, h4⟩ := (C42_drop_partial q hq [.hint]).2 q' hq'
    refine ⟨q', hd.trans hq', h2, h3, ?_, ?_⟩
    · have : q'.get .hint = none := by
        cases hx : q'.get .hint with
        | none => rfl
        | some c =>
          have := h2.kinds _ _ hx
          have hk : c.kind = .hint := by
            rcases c with ⟨k, p⟩; cases k <;> simp [sortOf] at this; rfl
          exact absurd (by rw [hk]; simp) ((h4 .hint c).1 hx).2
      rw [this]
      cases prep with
      | false => rfl
      | true => simp only [true_and, not_not] at h; simp [h]
    · intro s hs
      ext c
      rw [h4]
      constructor
      · exact And.left
      · intro hc
        refine ⟨hc, fun hk => hs ?_⟩
        have := hq.kinds s c hc
        rw [List.mem_singleton.1 hk] at this; exact this.symm

example : (withClause qSel ⟨.select, 9⟩).map (·.clauses) = some [⟨.select, 9⟩, ⟨.fromImplicit, 2⟩, ⟨.where_, 3⟩] ∧
    (withClause qSet ⟨.explain, 9⟩).map (·.clauses) = some [⟨.explain, 9⟩, ⟨.union, 1⟩, ⟨.orderBy, 2⟩] := by decide

end PB.ClausesProps
