import Mathlib.Algebra.Order.Field.Rat
import Mathlib.Tactic.Linarith
import Mathlib.Tactic.Positivity
import Mathlib.Tactic.FinCases
import Mathlib.Data.Nat.Cast.Order.Ring
import Verif.Props.JoinGraph
import Verif.Model.Ues

/-! Properties of the UES join order optimizer (C104) and of its cardinality bounds (C55). -/

set_option linter.unusedSimpArgs false
set_option linter.unusedVariables false
set_option linter.unusedSectionVars false
set_option linter.unnecessarySimpa false

namespace PB.UesProps

open PB PB.JoinGraph PB.JoinGraphProps PB.Ues

/-! ### Specification -/

/-- A join tree without cross products: both sides of each join are connected by a join predicate. -/
def NoCross (joins : Cond) : UTree → Prop
  | .scan _ _ => True
  | .join l r _ => NoCross joins l ∧ NoCross joins r ∧ ∃ a ∈ l.leaves, ∃ b ∈ r.leaves, JoinedBy joins a b

/-- A left-deep join tree. -/
def Linear : UTree → Prop
  | .scan _ _ => True
  | .join l (.scan _ _) _ => Linear l
  | .join _ (.join _ _ _) _ => False

/-- All tables are connected by join predicates. -/
def Connected (tables : List Nat) (joins : Cond) : Prop :=
  ∀ a ∈ tables, ∀ b ∈ tables, Relation.ReflTransGen (JoinedBy joins) a b

/-- The join estimator never returns infinity. -/
def Finite (P : Policy) : Prop := ∀ s c, c ≠ [] → P.estimate s c ≠ none

/-- The state at the start of an optimization. -/
def start (tables : List Nat) (joins extra : Cond) (index : Col → Index) (base : Nat → Rat) (freq : Col → Rat) : St :=
  ⟨JG.build tables joins extra index, base, [], freq⟩

/-! ### The greedy choice -/

theorem lt_trans' {a b c : Bound} (h1 : ¬ Bound.lt a b = true) (h2 : Bound.lt c b = true) : ¬ Bound.lt a c = true := by
  cases a <;> cases b <;> cases c <;> simp_all [Bound.lt]
  exact le_trans h2.le h1

theorem lt_irrefl' (a : Bound) : ¬ Bound.lt a a = true := by
  cases a <;> simp [Bound.lt]

theorem selectPath_fold (P : Policy) (s : St) (ps : List Path) (a : Bound × Option Path)
    (ha : ∀ p, a.2 = some p → a.1 = P.estimate s p.cond) :
    (∀ p, (ps.foldl (candStep P s) a).2 = some p → (ps.foldl (candStep P s) a).1 = P.estimate s p.cond ∧ (p ∈ ps ∨ a.2 = some p)) ∧
    (∀ q ∈ ps, ¬ Bound.lt (P.estimate s q.cond) (ps.foldl (candStep P s) a).1 = true) ∧
    (∀ b, ¬ Bound.lt b a.1 = true → ¬ Bound.lt b (ps.foldl (candStep P s) a).1 = true) := by
  induction ps generalizing a with
  | nil => exact ⟨fun p hp => ⟨ha p hp, .inr hp⟩, by simp, fun b hb => hb⟩
  | cons q ps ih =>
    rw [List.foldl_cons]
    by_cases hlt : Bound.lt (P.estimate s q.cond) a.1 = true
    · have e : candStep P s a q = (P.estimate s q.cond, some q) := by simp [candStep, hlt]
      rw [e]
      obtain ⟨h1, h2, h3⟩ := ih (P.estimate s q.cond, some q) (by rintro p hp; simp only [Option.some.injEq] at hp; rw [← hp])
      refine ⟨?_, ?_, ?_⟩
      · intro p hp
        obtain ⟨g1, g2⟩ := h1 p hp
        refine ⟨g1, .inl ?_⟩
        rcases g2 with g2 | g2
        · simp [g2]
        · simp only [Option.some.injEq] at g2; simp [g2]
      · intro r hr
        rcases List.mem_cons.1 hr with rfl | hr
        · exact h3 _ (lt_irrefl' _)
        · exact h2 r hr
      · intro b hb
        exact h3 b (lt_trans' hb hlt)
    · have e : candStep P s a q = a := by simp [candStep, hlt]
      rw [e]
      obtain ⟨h1, h2, h3⟩ := ih a ha
      refine ⟨?_, ?_, h3⟩
      · intro p hp
        obtain ⟨g1, g2⟩ := h1 p hp
        exact ⟨g1, g2.imp (fun h => by simp [h]) id⟩
      · intro r hr
        rcases List.mem_cons.1 hr with rfl | hr
        · exact h3 _ hlt
        · exact h2 r hr

/-- **C104**: the optimizer is greedy: the selected join is one of the candidates, its bound is the estimate, and no candidate has
a lower one. -/
theorem C104_greedy (P : Policy) (s : St) (ps : List Path) (p : Path) (h : (selectPath P s ps).2 = some p) :
    p ∈ ps ∧ (selectPath P s ps).1 = P.estimate s p.cond ∧ ∀ q ∈ ps, ¬ Bound.lt (P.estimate s q.cond) (P.estimate s p.cond) = true := by
  obtain ⟨h1, h2, -⟩ := selectPath_fold P s ps (none, none) (by simp)
  obtain ⟨g1, g2⟩ := h1 p h
  refine ⟨g2.resolve_right (by simp), g1, ?_⟩
  intro q hq
  have := h2 q hq
  unfold selectPath at h
  rw [g1] at this
  exact this

theorem selectPath_some (P : Policy) (s : St) (ps : List Path) (hne : ps ≠ []) (hf : ∀ p ∈ ps, P.estimate s p.cond ≠ none) :
    ∃ p, (selectPath P s ps).2 = some p := by
  have keep : ∀ (ps : List Path) (a : Bound × Option Path), a.2 ≠ none → (ps.foldl (candStep P s) a).2 ≠ none := by
    intro ps
    induction ps with
    | nil => intro a ha; exact ha
    | cons q ps ih =>
      intro a ha
      rw [List.foldl_cons]
      refine ih _ ?_
      unfold candStep
      split
      · simp
      · exact ha
  cases ps with
  | nil => exact absurd rfl hne
  | cons q ps =>
    rw [← Option.ne_none_iff_exists']
    unfold selectPath
    rw [List.foldl_cons]
    refine keep ps _ ?_
    unfold candStep
    cases hq : P.estimate s q.cond with
    | none => exact absurd hq (hf q (by simp))
    | some b => simp [Bound.lt]

/-! ### The update of the upper bounds -/

theorem boundStep_g (P : Policy) (ps : List Path) (a : St × Bound × Option Nat) :
    (ps.foldl (boundStep P) a).1.g = a.1.g ∧ (ps.foldl (boundStep P) a).1.base = a.1.base ∧
    (ps.foldl (boundStep P) a).1.freq = a.1.freq ∧
    (∀ t, (ps.foldl (boundStep P) a).2.2 = some t → (∃ p ∈ ps, p.target = t) ∨ a.2.2 = some t) ∧
    (a.2.2 ≠ none → (ps.foldl (boundStep P) a).2.2 ≠ none) := by
  induction ps generalizing a with
  | nil => exact ⟨rfl, rfl, rfl, fun t h => .inr h, id⟩
  | cons p ps ih =>
    rw [List.foldl_cons]
    obtain ⟨h1, h2, h3, h4, h5⟩ := ih (boundStep P a p)
    have e : (boundStep P a p).1.g = a.1.g ∧ (boundStep P a p).1.base = a.1.base ∧ (boundStep P a p).1.freq = a.1.freq ∧
        ((boundStep P a p).2.2 = some p.target ∨ (boundStep P a p).2.2 = a.2.2) := by
      unfold boundStep
      simp only
      split
      · exact ⟨rfl, rfl, rfl, .inl rfl⟩
      · exact ⟨rfl, rfl, rfl, .inr rfl⟩
    refine ⟨h1.trans e.1, h2.trans e.2.1, h3.trans e.2.2.1, ?_, ?_⟩
    · intro t ht
      rcases h4 t ht with ⟨q, hq, hqt⟩ | h
      · exact .inl ⟨q, by simp [hq], hqt⟩
      · rcases e.2.2.2 with e | e
        · rw [e] at h; simp only [Option.some.injEq] at h; exact .inl ⟨p, by simp, h⟩
        · rw [e] at h; exact .inr h
    · intro ha
      refine h5 ?_
      rcases e.2.2.2 with e | e
      · rw [e]; simp
      · rw [e]; exact ha

theorem updateBounds_g (P : Policy) (s : St) : (updateBounds P s).1.g = s.g ∧ (updateBounds P s).1.base = s.base ∧
    (updateBounds P s).1.freq = s.freq := by
  obtain ⟨h1, h2, h3, -, -⟩ := boundStep_g P (s.g.availableNM true) (s, none, none)
  exact ⟨h1, h2, h3⟩

theorem updateBounds_table (P : Policy) (s : St) (t : Nat) (h : (updateBounds P s).2.2 = some t) :
    ∃ p ∈ s.g.availableNM true, p.target = t := by
  obtain ⟨-, -, -, h4, -⟩ := boundStep_g P (s.g.availableNM true) (s, none, none)
  exact (h4 t h).resolve_right (by simp)

theorem updateBounds_some (P : Policy) (s : St) (h : s.g.availableNM true ≠ []) : ∃ t, (updateBounds P s).2.2 = some t := by
  rw [← Option.ne_none_iff_exists']
  unfold updateBounds
  cases hl : s.g.availableNM true with
  | nil => exact absurd hl h
  | cons p ps =>
    rw [List.foldl_cons]
    refine (boundStep_g P ps _).2.2.2.2 ?_
    simp [boundStep, Bound.lt]

/-! ### The invariant -/

section
variable (tables : List Nat) (joins extra : Cond) (index : Col → Index) (P : Policy)

/-- The state is reached by marking the tables `L`. -/
def Ok (L : List Nat) (s : St) : Prop :=
  ∃ calls, Reached tables joins extra index P.ord calls s.g ∧ ∀ t, t ∈ L ↔ t ∈ calls.map (·.1)

variable {tables joins extra index P}

theorem ok_congr {L : List Nat} {s s' : St} (h : Ok tables joins extra index P L s) (hg : s'.g = s.g) :
    Ok tables joins extra index P L s' := by
  obtain ⟨calls, h1, h2⟩ := h
  exact ⟨calls, by rw [hg]; exact h1, h2⟩

theorem ok_mem {L L' : List Nat} {s : St} (h : Ok tables joins extra index P L s) (hL : ∀ t, t ∈ L' ↔ t ∈ L) :
    Ok tables joins extra index P L' s := by
  obtain ⟨calls, h1, h2⟩ := h
  exact ⟨calls, h1, fun t => (hL t).trans (h2 t)⟩

theorem reached_snoc {calls : List (Nat × Option Cond)} {g g' : JG} {t : Nat} {e : Option Cond} {ord : List Nat → List Nat}
    (h : Reached tables joins extra index ord calls g) (hm : g.markJoined ord t e = some g') :
    Reached tables joins extra index ord (calls ++ [(t, e)]) g' := by
  unfold Reached JG.run at *
  rw [List.foldlM_append, h]
  simp [hm]

theorem mark_ok {L : List Nat} {s s' : St} {t : Nat} {e : Option Cond} (h : Ok tables joins extra index P L s)
    (hm : s.mark P t e = some s') : Ok tables joins extra index P (L ++ [t]) s' ∧ s'.base = s.base ∧ s'.freq = s.freq ∧ s'.ub = s.ub := by
  unfold St.mark at hm
  obtain ⟨g, hg, rfl⟩ := Option.map_eq_some_iff.1 hm
  obtain ⟨calls, h1, h2⟩ := h
  exact ⟨⟨calls ++ [(t, e)], reached_snoc h1 hg, fun x => by simp [h2 x]⟩, rfl, rfl, rfl⟩

theorem ok_sub (hn : tables.Nodup) {L : List Nat} {s : St} (h : Ok tables joins extra index P L s) : ∀ t ∈ L, t ∈ tables := by
  obtain ⟨calls, h1, h2⟩ := h
  intro t ht
  have := ((C30_history tables joins extra index P.ord calls hn).1.1 ⟨_, h1⟩)
  obtain ⟨e, he, rfl⟩ := List.mem_map.1 ((h2 t).1 ht)
  exact this e he

theorem mark_some (hn : tables.Nodup) {L : List Nat} {s : St} {t : Nat} (e : Option Cond) (h : Ok tables joins extra index P L s)
    (ht : t ∈ tables) : ∃ s', s.mark P t e = some s' := by
  have hsub := h
  obtain ⟨calls, h1, h2⟩ := h
  have hcalls := ((C30_history tables joins extra index P.ord calls hn).1.1 ⟨_, h1⟩)
  obtain ⟨g', hg'⟩ := (C30_history tables joins extra index P.ord (calls ++ [(t, e)]) hn).1.2 (by
    intro x hx
    rcases List.mem_append.1 hx with hx | hx
    · exact hcalls x hx
    · simp only [List.mem_singleton] at hx; rw [hx]; exact ht)
  unfold Reached JG.run at hg' h1
  rw [List.foldlM_append, h1] at hg'
  simp only [List.foldlM_cons, List.foldlM_nil, Option.bind_eq_bind, Option.bind_some, Option.pure_def, Option.bind_fun_some] at hg'
  exact ⟨{ s with g := g' }, by simp [St.mark, hg']⟩

theorem ok_facts (hn : tables.Nodup) {L : List Nat} {s : St} (h : Ok tables joins extra index P L s) :
    (∀ t ∈ tables, s.g.isFree t = decide (t ∉ L)) ∧ (s.g.initial = true ↔ L = []) ∧
    (s.g.containsFree = true ↔ ∃ t ∈ tables, t ∉ L) ∧ s.g.edges = (JG.build tables joins extra index).edges := by
  obtain ⟨calls, h1, h2⟩ := h
  obtain ⟨hm, hed, hs⟩ := run_marked _ _ _ _ _ _ (marked_build tables joins extra index) h1
  rw [List.nil_append] at hm
  obtain ⟨-, -, h3, h4, -⟩ := (C30_history tables joins extra index P.ord calls hn).2 s.g h1
  refine ⟨?_, ?_, ?_, hed⟩
  · intro t ht
    rw [isFree_marked hm t ht, decide_eq_decide, h2]
  · rw [h3]
    constructor
    · rintro rfl
      exact List.eq_nil_iff_forall_not_mem.2 fun t ht => by simpa using (h2 t).1 ht
    · rintro rfl
      rw [List.eq_nil_iff_forall_not_mem]
      intro e he
      have := (h2 e.1).2 (List.mem_map.2 ⟨e, he, rfl⟩)
      simp at this
  · rw [h4]
    simp only [h2]

theorem joinedBy_symm {J : Cond} {a b : Nat} (h : JoinedBy J a b) : JoinedBy J b a := by
  obtain ⟨j, hj, hc⟩ := h
  exact ⟨j, hj, (connects_symm _ _ _).1 hc⟩

theorem joinedBy_tables (hv : ValidJoins tables (joins ++ extra)) {a b : Nat} (h : JoinedBy (joins ++ extra) a b) :
    a ∈ tables ∧ b ∈ tables ∧ a ≠ b := by
  obtain ⟨j, hj, ⟨rfl, rfl⟩ | ⟨rfl, rfl⟩⟩ := h
  · exact ⟨(hv.known j hj).1, (hv.known j hj).2, hv.differ j hj⟩
  · exact ⟨(hv.known j hj).2, (hv.known j hj).1, (hv.differ j hj).symm⟩

/-- Available paths of a graph with consumed tables. -/
theorem ok_path (hv : ValidJoins tables (joins ++ extra)) {L : List Nat} {s : St} (h : Ok tables joins extra index P L s) (hne : L ≠ [])
    (both : Bool) (p : Path) : p ∈ s.g.availablePaths both ↔
      p.start ∈ L ∧ p.target ∈ tables ∧ p.target ∉ L ∧ p.cond = condBetween (joins ++ extra) p.start p.target ∧ p.cond ≠ [] := by
  obtain ⟨calls, h1, h2⟩ := h
  have hc : calls ≠ [] := by
    rintro rfl
    exact hne (List.eq_nil_iff_forall_not_mem.2 fun t ht => by simpa using (h2 t).1 ht)
  rw [C30_paths tables joins extra index P.ord calls hv hc s.g h1 both p, h2, h2]

/-- Available paths of any graph. -/
theorem ok_path_any (hv : ValidJoins tables (joins ++ extra)) {L : List Nat} {s : St} (h : Ok tables joins extra index P L s)
    (both : Bool) (p : Path) (hp : p ∈ s.g.availablePaths both) :
      JoinedBy (joins ++ extra) p.start p.target ∧ p.target ∉ L ∧ p.cond ≠ [] := by
  by_cases hne : L = []
  · subst hne
    have hini := (ok_facts hv.nodup h).2.1.2 rfl
    have hed := (ok_facts hv.nodup h).2.2.2
    unfold JG.availablePaths at hp
    rw [hini, if_pos rfl, List.mem_flatMap] at hp
    obtain ⟨⟨a, b, c⟩, he, hp⟩ := hp
    rw [hed] at he
    have hj : JoinedBy (joins ++ extra) a b := (joinedBy_iff _ _ _).2 ((edge_iff tables joins extra index a b).1 ⟨c, .inl he⟩)
    have hc := edge_unique he
    have hcn : c ≠ [] := by rw [hc]; exact (joinedBy_iff _ _ _).1 hj
    unfold initialPaths at hp
    simp only at hp
    split at hp
    · simp only [List.mem_cons, List.not_mem_nil, or_false] at hp
      rcases hp with rfl | rfl
      · exact ⟨hj, by simp, hcn⟩
      · exact ⟨joinedBy_symm hj, by simp, hcn⟩
    · simp only [List.mem_singleton] at hp
      subst hp
      exact ⟨hj, by simp, hcn⟩
  · rw [ok_path hv h hne] at hp
    obtain ⟨-, -, h3, h4, h5⟩ := hp
    exact ⟨(joinedBy_iff _ _ _).2 (by rw [← h4]; exact h5), h3, h5⟩

theorem ok_nm_path (hv : ValidJoins tables (joins ++ extra)) {L : List Nat} {s : St} (h : Ok tables joins extra index P L s)
    (both : Bool) (p : Path) (hp : p ∈ s.g.availableNM both) :
      JoinedBy (joins ++ extra) p.start p.target ∧ p.target ∉ L ∧ (L ≠ [] → p.start ∈ L) ∧ p.cond ≠ [] := by
  rw [C30_n_m_paths] at hp
  obtain ⟨-, -, hp | ⟨rfl, hini, hp⟩⟩ := hp
  · obtain ⟨h1, h2, h3⟩ := ok_path_any hv h false p hp
    exact ⟨h1, h2, fun hne => ((ok_path hv h hne _ _).1 hp).1, h3⟩
  · have hL := (ok_facts hv.nodup h).2.1.1 hini
    obtain ⟨h1, -, h3⟩ := ok_path_any hv h false _ hp
    exact ⟨joinedBy_symm h1, by rw [hL]; simp, fun hne => absurd hL hne, h3⟩

/-- The deep primary key joins follow the join predicates. -/
theorem ok_deep (hv : ValidJoins tables (joins ++ extra)) {L : List Nat} {s : St} (h : Ok tables joins extra index P L s) (fk : Nat)
    (pre : List Path) (p : Path) (post : List Path) (hp : s.g.deepPk P.k fk = pre ++ p :: post) :
    JoinedBy (joins ++ extra) p.start p.target ∧ (p.start = fk ∨ ∃ q ∈ pre, q.target = p.start) := by
  obtain ⟨h1, h2⟩ := C30_deep_pk s.g P.k fk pre p post hp
  obtain ⟨calls, g1, -⟩ := h
  obtain ⟨j, hj, hc, -⟩ := (C30_pk_fk tables joins extra index P.ord calls s.g g1 p.start p.target).1 h1
  exact ⟨⟨j, hj, hc⟩, h2⟩

theorem ok_pkFkFor (hv : ValidJoins tables (joins ++ extra)) {L : List Nat} {s : St} (h : Ok tables joins extra index P L s) (fk : Nat)
    (p : Path) (hp : p ∈ s.g.pkFkFor fk) : p.start = fk ∧ JoinedBy (joins ++ extra) fk p.target ∧ s.g.isPkFk fk p.target = true := by
  have hed := (ok_facts hv.nodup h).2.2.2
  unfold JG.pkFkFor at hp
  obtain ⟨⟨u, c⟩, he, hp⟩ := List.mem_filterMap.1 hp
  simp only at hp
  split at hp
  · rename_i hc
    simp only [Option.some.injEq] at hp
    subst hp
    rw [adj_iff hv hed] at he
    simp only [Bool.and_eq_true] at hc
    exact ⟨rfl, he.2, hc.1⟩
  · simp at hp

/-! ### Soundness of the default optimizer -/

/-- Join paths that can be added one after the other to a tree with the tables `L`, where `K` are already consumed tables. -/
def Chain (J : Cond) (L : List Nat) (ps : List Path) : Prop :=
  ∀ pre p post, ps = pre ++ p :: post → JoinedBy J p.start p.target ∧ (p.start ∈ L ∨ ∃ q ∈ pre, q.target = p.start)

theorem Chain.tail {J : Cond} {L : List Nat} {p : Path} {ps : List Path} (h : Chain J L (p :: ps)) : Chain J (L ++ [p.target]) ps := by
  intro pre q post he
  obtain ⟨h1, h2⟩ := h (p :: pre) q post (by rw [he]; rfl)
  refine ⟨h1, ?_⟩
  rcases h2 with h2 | ⟨r, hr, h2⟩
  · exact .inl (List.mem_append_left _ h2)
  · rcases List.mem_cons.1 hr with rfl | hr
    · exact .inl (by simp [h2])
    · exact .inr ⟨r, hr, h2⟩

theorem Chain.mono {J : Cond} {L L' : List Nat} {ps : List Path} (h : Chain J L ps) (hs : ∀ t ∈ L, t ∈ L') : Chain J L' ps :=
  fun pre p post he => ⟨(h pre p post he).1, (h pre p post he).2.imp_left (hs _)⟩

theorem initialPk_sound (hv : ValidJoins tables (joins ++ extra)) (ps : List Path) (tree tree' : UTree) (s s' : St)
    (hok : Ok tables joins extra index P tree.leaves s) (hnc : NoCross (joins ++ extra) tree) (hch : Chain (joins ++ extra) tree.leaves ps)
    (h : initialPk P ps tree s = some (tree', s')) :
    Ok tables joins extra index P tree'.leaves s' ∧ NoCross (joins ++ extra) tree' ∧ tree'.leaves = tree.leaves ++ ps.map (·.target) ∧
    s'.base = s.base := by
  induction ps generalizing tree s with
  | nil =>
    simp only [initialPk, Option.some.injEq, Prod.mk.injEq] at h
    obtain ⟨rfl, rfl⟩ := h
    exact ⟨hok, hnc, by simp, rfl⟩
  | cons p ps ih =>
    simp only [initialPk] at h
    obtain ⟨s1, h1, h2⟩ := Option.bind_eq_some_iff.1 h
    obtain ⟨hok1, hb, -, -⟩ := mark_ok hok h1
    obtain ⟨hj, hst⟩ := hch [] p ps rfl
    have hst' : p.start ∈ tree.leaves := hst.resolve_right (by simp)
    have hnc1 : NoCross (joins ++ extra) (UTree.join tree (.scan p.target (some (s.base p.target))) (P.estimate s p.cond)) :=
      ⟨hnc, trivial, p.start, hst', p.target, by simp [UTree.leaves], hj⟩
    obtain ⟨g1, g2, g3, g4⟩ := ih (UTree.join tree (.scan p.target (some (s.base p.target))) (P.estimate s p.cond)) s1 hok1 hnc1
      hch.tail h2
    exact ⟨g1, g2, by rw [g3]; simp [UTree.leaves], g4.trans hb⟩

/-- Where a table may be inserted: `pool` are tables of the other tree. -/
theorem insertPk_sound (hv : ValidJoins tables (joins ++ extra)) (pool : List Nat) (ps : List Path) (tree tree' : UTree) (s s' : St)
    (hok : Ok tables joins extra index P (pool ++ tree.leaves) s)
    (h : insertPk P ps tree s = some (tree', s')) :
    Ok tables joins extra index P (pool ++ tree'.leaves) s' ∧ (∀ t ∈ tree.leaves, t ∈ tree'.leaves) ∧
    ((pool ++ tree.leaves).Nodup → (pool ++ tree'.leaves).Nodup) ∧
    (NoCross (joins ++ extra) tree → (pool = [] ∧ Chain (joins ++ extra) tree.leaves ps) ∨
        (∀ p ∈ ps, p.start ∈ tree.leaves ∧ JoinedBy (joins ++ extra) p.start p.target) → NoCross (joins ++ extra) tree') := by
  induction ps generalizing tree s with
  | nil =>
    simp only [insertPk, Option.some.injEq, Prod.mk.injEq] at h
    obtain ⟨rfl, rfl⟩ := h
    exact ⟨hok, fun t h => h, id, fun h _ => h⟩
  | cons p ps ih =>
    simp only [insertPk] at h
    split at h
    · rename_i hfree
      obtain ⟨s1, h1, h2⟩ := Option.bind_eq_some_iff.1 h
      obtain ⟨hok1, -, -, -⟩ := mark_ok hok h1
      have hok1' : Ok tables joins extra index P
          (pool ++ (UTree.join tree (.scan p.target (some (s.base p.target))) (P.estimate s p.cond)).leaves) s1 :=
        ok_mem hok1 (by intro t; simp [UTree.leaves])
      obtain ⟨g1, g2, g3, g4⟩ := ih _ s1 hok1' h2
      have hpt : p.target ∈ tables := ok_sub hv.nodup hok1 p.target (by simp)
      have hnot : p.target ∉ pool ++ tree.leaves := by
        have := (ok_facts hv.nodup hok).1 p.target hpt
        rw [hfree] at this
        simpa using this.symm
      refine ⟨g1, fun t ht => g2 t (by simp [UTree.leaves, ht]), ?_, ?_⟩
      · intro hnd
        refine g3 ?_
        simp only [UTree.leaves, ← List.append_assoc]
        rw [List.nodup_append]
        refine ⟨hnd, by simp, ?_⟩
        intro a ha b hb hab
        simp only [List.mem_singleton] at hb
        rw [hab, hb] at ha
        exact hnot ha
      · intro hnc hcase
        refine g4 ?_ ?_
        · refine ⟨hnc, trivial, ?_⟩
          rcases hcase with ⟨-, hch⟩ | hall
          · obtain ⟨hj, hst⟩ := hch [] p ps rfl
            exact ⟨p.start, hst.resolve_right (by simp), p.target, by simp [UTree.leaves], hj⟩
          · obtain ⟨h3, h4⟩ := hall p (by simp)
            exact ⟨p.start, h3, p.target, by simp [UTree.leaves], h4⟩
        · rcases hcase with ⟨hp, hch⟩ | hall
          · exact .inl ⟨hp, hch.tail⟩
          · right
            intro q hq
            obtain ⟨h3, h4⟩ := hall q (by simp [hq])
            exact ⟨by simp [UTree.leaves, h3], h4⟩
    · rename_i hfree
      obtain ⟨g1, g2, g3, g4⟩ := ih tree s hok h
      refine ⟨g1, g2, g3, fun hnc hcase => g4 hnc ?_⟩
      rcases hcase with ⟨rfl, hch⟩ | hall
      · left
        refine ⟨rfl, hch.tail.mono ?_⟩
        intro t ht
        rcases List.mem_append.1 ht with ht | ht
        · exact ht
        · simp only [List.mem_singleton] at ht
          subst ht
          have hpt : p.target ∈ tables := (joinedBy_tables hv (hch [] p ps rfl).1).2.1
          have := (ok_facts hv.nodup hok).1 p.target hpt
          by_contra hn
          exact hfree (by rw [this]; simpa using hn)
      · exact .inr fun q hq => hall q (by simp [hq])

/-- The subqueries of the tree are connected: either primary key tables are not pulled eagerly, or there are no subqueries. -/
def NoEagerSubquery (P : Policy) : Prop := P.eager = false ∨ ∀ s c, P.subquery s c = some false

theorem anySubquery_false (h : ∀ s c, P.subquery s c = some false) (s : St) (ps : List Path) : anySubquery P s ps = some false := by
  induction ps with
  | nil => rfl
  | cons p ps ih => simp [anySubquery, h, ih]

theorem nmStep_sound (hv : ValidJoins tables (joins ++ extra)) (tree tree' : UTree) (s s' : St) (low : Bound) (cand : Path)
    (hok : Ok tables joins extra index P tree.leaves s) (hne : tree.leaves ≠ []) (hc : cand ∈ s.g.availableNM false)
    (h : nmStep P s tree low cand = some (tree', s')) :
    Ok tables joins extra index P tree'.leaves s' ∧ (∀ t ∈ tree.leaves, t ∈ tree'.leaves) ∧ cand.target ∈ tree'.leaves ∧
    cand.target ∉ tree.leaves ∧ (tree.leaves.Nodup → tree'.leaves.Nodup) ∧
    (NoCross (joins ++ extra) tree → NoEagerSubquery P → NoCross (joins ++ extra) tree') := by
  obtain ⟨hj, hnot, hstart, -⟩ := ok_nm_path hv hok false cand hc
  have hstart := hstart hne
  have hct : cand.target ∈ tables := (joinedBy_tables hv hj).2.1
  simp only [nmStep] at h
  obtain ⟨sub, hsub, h⟩ := Option.bind_eq_some_iff.1 h
  obtain ⟨⟨t1, s1⟩, h', hr⟩ := Option.map_eq_some_iff.1 h
  clear h
  rename' h' => h
  simp only [Prod.mk.injEq] at hr
  obtain ⟨rfl, rfl⟩ := hr
  -- the primary key joins
  have hpks : ∀ L, cand.target ∈ L → Chain (joins ++ extra) L (if P.eager then s.g.deepPk P.k cand.target else s.g.pkFkFor cand.target) := by
    intro L hL pre p post hp
    split at hp
    · obtain ⟨h1, h2⟩ := ok_deep hv hok cand.target pre p post hp
      exact ⟨h1, h2.imp_left fun (e : p.start = cand.target) => by rw [e]; exact hL⟩
    · obtain ⟨h1, h2, -⟩ := ok_pkFkFor hv hok cand.target p (by rw [hp]; simp)
      exact ⟨by rw [h1]; exact h2, .inl (by rw [h1]; exact hL)⟩
  cases sub with
  | true =>
    simp only [if_true] at h
    obtain ⟨s2, h1, h2⟩ := Option.bind_eq_some_iff.1 h
    obtain ⟨⟨t3, s3⟩, h3, hr⟩ := Option.map_eq_some_iff.1 h2
    simp only [Prod.mk.injEq] at hr
    obtain ⟨rfl, rfl⟩ := hr
    obtain ⟨hok1, -, -, -⟩ := mark_ok hok h1
    obtain ⟨g1, g2, g3, g4⟩ := insertPk_sound hv tree.leaves _ (UTree.scan cand.target (some (s.base cand.target))) t3 s2 s3 hok1 h3
    have hmem : cand.target ∈ t3.leaves := g2 _ (by simp [UTree.leaves])
    refine ⟨ok_congr g1 rfl, fun t ht => by simp [UTree.leaves, ht], by simp [UTree.leaves, hmem], hnot, ?_, ?_⟩
    · intro hnd
      refine g3 ?_
      simp only [UTree.leaves]
      rw [List.nodup_append]
      refine ⟨hnd, by simp, ?_⟩
      intro a ha b hb hab
      simp only [List.mem_singleton] at hb
      rw [hab, hb] at ha
      exact hnot ha
    · intro hnc hes
      refine ⟨hnc, ?_, cand.start, hstart, cand.target, hmem, hj⟩
      have heag : P.eager = false := by
        rcases hes with h | h
        · exact h
        · rw [anySubquery_false h] at hsub; simp at hsub
      refine g4 trivial (.inr ?_)
      intro p hp
      rw [heag] at hp
      simp only [Bool.false_eq_true, if_false] at hp
      obtain ⟨h1, h2, -⟩ := ok_pkFkFor hv hok cand.target p hp
      exact ⟨by rw [h1]; simp [UTree.leaves], by rw [h1]; exact h2⟩
  | false =>
    simp only [Bool.false_eq_true, if_false] at h
    obtain ⟨s2, h1, h2⟩ := Option.bind_eq_some_iff.1 h
    obtain ⟨hok1, -, -, -⟩ := mark_ok hok h1
    obtain ⟨g1, g2, g3, g4⟩ := insertPk_sound hv [] _ (UTree.join tree (.scan cand.target (some (s.base cand.target))) low) t1 s2 s1
      (by simpa [UTree.leaves] using hok1) h2
    refine ⟨ok_congr (s := s1) (by simpa using g1) rfl, fun t ht => g2 t (by simp [UTree.leaves, ht]), g2 _ (by simp [UTree.leaves]), hnot, ?_, ?_⟩
    · intro hnd
      have := g3 (by
        simp only [UTree.leaves, List.nil_append]
        rw [List.nodup_append]
        refine ⟨hnd, by simp, ?_⟩
        intro a ha b hb hab
        simp only [List.mem_singleton] at hb
        rw [hab, hb] at ha
        exact hnot ha)
      simpa using this
    · intro hnc hes
      refine g4 ⟨hnc, trivial, cand.start, hstart, cand.target, by simp [UTree.leaves], hj⟩ (.inl ⟨rfl, ?_⟩)
      exact hpks _ (by simp [UTree.leaves])

/-- The leaves of an optional tree. -/
def leavesOf : Option UTree → List Nat
  | none => []
  | some t => t.leaves

theorem leaves_ne (t : UTree) : t.leaves ≠ [] := by
  induction t with
  | scan t a => simp [UTree.leaves]
  | join l r a ih1 ih2 => simp [UTree.leaves, ih1]

theorem bfs_congr {g g' : JG} (he : g.edges = g'.edges) (hi : g.idx = g'.idx) (k : Nat) (q : List Path) (v : List Nat) :
    g.bfs k q v = g'.bfs k q v := by
  have hp : ∀ a b, g.isPkFk a b = g'.isPkFk a b := by
    intro a b; unfold JG.isPkFk JG.edgeCond; rw [he, hi]
  have ha : ∀ t, g.adj t = g'.adj t := by intro t; unfold JG.adj; rw [he]
  induction k generalizing q v with
  | zero => rfl
  | succ k ih =>
    cases q with
    | nil => rfl
    | cons p q =>
      simp only [JG.bfs, hp, ha, ih]

theorem deepPk_congr {g g' : JG} (he : g.edges = g'.edges) (hi : g.idx = g'.idx) (k : Nat) (t : Nat) : g.deepPk k t = g'.deepPk k t := by
  unfold JG.deepPk
  have ha : g.adj t = g'.adj t := by unfold JG.adj; rw [he]
  rw [ha]
  exact bfs_congr he hi _ _ _

/-- Marking the first table does not change the indexes. -/
theorem mark_first {s s' : St} {t : Nat} (hn : tables.Nodup) (h : Ok tables joins extra index P [] s) (hm : s.mark P t none = some s') :
    s'.g.idx = s.g.idx ∧ s'.g.edges = s.g.edges := by
  obtain ⟨hok, -, -, -⟩ := mark_ok h hm
  unfold St.mark at hm
  obtain ⟨g, hg, rfl⟩ := Option.map_eq_some_iff.1 hm
  obtain ⟨htk, hnodes, hed, -⟩ := markJoined_fixed _ _ _ _ _ hg
  refine ⟨?_, hed⟩
  have hj : g.joined.length = 1 := by
    have hf := (ok_facts hn hok).1
    have htt := ok_sub hn hok t (by simp)
    obtain ⟨calls, h1, -⟩ := hok
    obtain ⟨hm, -, -⟩ := run_marked _ _ _ _ _ _ (marked_build tables joins extra index) h1
    have hkeys : Dict.keys g.nodes = tables := hm.keys
    have : g.joined = [t] := by
      unfold JG.joined
      rw [hkeys]
      have hfil : tables.filter (fun x => !g.isFree x) = tables.filter (fun x => decide (x = t)) := by
        refine List.filter_congr fun x hx => ?_
        have := hf x hx
        simp only at this
        rw [this]
        simp
      rw [hfil]
      have hnd := hn.filter (fun x => decide (x = t))
      have hmem : ∀ x, x ∈ tables.filter (fun x => decide (x = t)) ↔ x = t := by
        intro x
        rw [List.mem_filter]
        constructor
        · rintro ⟨-, h⟩; simpa using h
        · rintro rfl; exact ⟨htt, by simp⟩
      match hl : tables.filter (fun x => decide (x = t)) with
      | [] => have := (hmem t).2 rfl; rw [hl] at this; simp at this
      | [q] => have := (hmem q).1 (by rw [hl]; simp); rw [this]
      | q :: r :: l =>
        have e1 := (hmem q).1 (by rw [hl]; simp)
        have e2 := (hmem r).1 (by rw [hl]; simp)
        rw [hl, e1, e2] at hnd
        simp at hnd
    rw [this]; rfl
  unfold JG.markJoined at hg
  rw [if_neg (by simpa [Dict.has_iff] using htk)] at hg
  simp only at hg
  have hjj : JG.joined { s.g with nodes := Dict.set s.g.nodes t false } = g.joined := by
    unfold JG.joined JG.isFree
    rw [hnodes]
  rw [hjj, hj, if_pos rfl] at hg
  simp only [Option.some.injEq] at hg
  rw [← hg]

/-- No table appears twice in a sequence of deep primary key joins of the query. -/
def DeepOnce (tables : List Nat) (joins extra : Cond) (index : Col → Index) (k : Nat) : Prop :=
  ∀ t ∈ tables, (t :: ((JG.build tables joins extra index).deepPk k t).map (·.target)).Nodup

theorem iteration_sound (hv : ValidJoins tables (joins ++ extra)) (tree : Option UTree) (tree' : UTree) (s s' : St)
    (hok : Ok tables joins extra index P (leavesOf tree) s) (hidx : tree = none → s.g.idx = index)
    (h : iteration P tree s = some (tree', s')) :
    Ok tables joins extra index P tree'.leaves s' ∧ (∀ t ∈ leavesOf tree, t ∈ tree'.leaves) ∧
    (∃ t ∈ tree'.leaves, t ∉ leavesOf tree) ∧
    (DeepOnce tables joins extra index P.k → (leavesOf tree).Nodup → tree'.leaves.Nodup) ∧
    ((∀ t, tree = some t → NoCross (joins ++ extra) t) → NoEagerSubquery P → NoCross (joins ++ extra) tree') := by
  obtain ⟨hg, hbase, hfreq⟩ := updateBounds_g P s
  have hok1 : Ok tables joins extra index P (leavesOf tree) (updateBounds P s).1 := ok_congr hok hg
  cases tree with
  | none =>
    simp only [iteration] at h
    obtain ⟨t, ht, h⟩ := Option.bind_eq_some_iff.1 h
    simp only [firstStep] at h
    obtain ⟨s1, h1, h2⟩ := Option.bind_eq_some_iff.1 h
    obtain ⟨hok2, -, -, -⟩ := mark_ok hok1 h1
    have hch : Chain (joins ++ extra) (UTree.scan t (updateBounds P s).2.1).leaves (s1.g.deepPk P.k t) := by
      intro pre p post hp
      obtain ⟨h3, h4⟩ := ok_deep hv hok2 t pre p post hp
      exact ⟨h3, h4.imp_left fun h => by simp [UTree.leaves, h]⟩
    obtain ⟨g1, g2, g3, -⟩ := initialPk_sound hv _ (UTree.scan t (updateBounds P s).2.1) tree' s1 s' hok2 trivial hch h2
    have htt : t ∈ tables := ok_sub hv.nodup hok2 t (by simp [leavesOf])
    refine ⟨g1, by simp [leavesOf], ⟨t, by rw [g3]; simp [UTree.leaves], by simp [leavesOf]⟩, ?_, fun _ _ => g2⟩
    intro hd _
    obtain ⟨hi, he⟩ := mark_first hv.nodup hok1 h1
    have e1 : s1.g.idx = (JG.build tables joins extra index).idx := by rw [hi, hg, hidx rfl]; rfl
    have e2 : s1.g.edges = (JG.build tables joins extra index).edges := by rw [he]; exact (ok_facts hv.nodup hok1).2.2.2
    rw [g3, deepPk_congr e2 e1]
    exact hd t htt
  | some tree =>
    simp only [iteration] at h
    obtain ⟨cand, hc, h⟩ := Option.bind_eq_some_iff.1 h
    obtain ⟨hcm, -, -⟩ := C104_greedy P _ _ cand hc
    obtain ⟨g1, g2, g3, g4, g5, g6⟩ := nmStep_sound hv tree tree' (updateBounds P s).1 s' _ cand hok1 (leaves_ne tree) hcm h
    exact ⟨g1, g2, ⟨cand.target, g3, g4⟩, fun _ => g5, fun hnc => g6 (hnc tree rfl)⟩

theorem mainLoop_sound (hv : ValidJoins tables (joins ++ extra)) (n : Nat) (tree tree' : Option UTree) (s s' : St)
    (hok : Ok tables joins extra index P (leavesOf tree) s) (hidx : tree = none → s.g.idx = index)
    (h : mainLoop P n tree s = some (tree', s')) :
    Ok tables joins extra index P (leavesOf tree') s' ∧
    (DeepOnce tables joins extra index P.k → (leavesOf tree).Nodup → (leavesOf tree').Nodup) ∧
    ((∀ t, tree = some t → NoCross (joins ++ extra) t) → NoEagerSubquery P → ∀ t, tree' = some t → NoCross (joins ++ extra) t) := by
  induction n generalizing tree s with
  | zero =>
    simp only [mainLoop] at h
    split at h
    · simp at h
    · simp only [Option.some.injEq, Prod.mk.injEq] at h
      obtain ⟨rfl, rfl⟩ := h
      exact ⟨hok, fun _ h => h, fun h _ => h⟩
  | succ n ih =>
    simp only [mainLoop] at h
    split at h
    · obtain ⟨⟨t1, s1⟩, h1, h2⟩ := Option.bind_eq_some_iff.1 h
      obtain ⟨g1, -, -, g4, g5⟩ := iteration_sound hv tree t1 s s1 hok hidx h1
      obtain ⟨k1, k2, k3⟩ := ih (some t1) s1 g1 (by simp) h2
      refine ⟨k1, fun hd hn => k2 hd (g4 hd hn), fun hnc hes => k3 ?_ hes⟩
      intro t ht
      simp only [Option.some.injEq] at ht
      subst ht
      exact g5 hnc hes
    · simp only [Option.some.injEq, Prod.mk.injEq] at h
      obtain ⟨rfl, rfl⟩ := h
      exact ⟨hok, fun _ h => h, fun h _ => h⟩

theorem ok_start (base : Nat → Rat) (freq : Col → Rat) :
    Ok tables joins extra index P [] (start tables joins extra index base freq) := ⟨[], rfl, by simp⟩

end

/-- **C104**: if the default optimizer returns a join tree, it contains all tables and no other ones. -/
theorem C104_default_tables (tables : List Nat) (joins extra : Cond) (index : Col → Index) (base : Nat → Rat) (freq : Col → Rat)
    (P : Policy) (n : Nat) (hv : ValidJoins tables (joins ++ extra)) (tree : UTree)
    (h : defaultOptimizer P n (start tables joins extra index base freq) = some tree) (t : Nat) : t ∈ tree.leaves ↔ t ∈ tables := by
  unfold defaultOptimizer at h
  obtain ⟨⟨tr, s'⟩, h1, h2⟩ := Option.bind_eq_some_iff.1 h
  simp only at h2
  split at h2
  · simp at h2
  · rename_i hfree
    subst h2
    obtain ⟨g1, -, -⟩ := mainLoop_sound (index := index) hv n none (some tree) _ s' (ok_start base freq) (fun _ => rfl) h1
    constructor
    · exact ok_sub hv.nodup g1 t
    · intro ht
      by_contra hn
      exact hfree ((ok_facts hv.nodup g1).2.2.1.2 ⟨t, ht, hn⟩)

/-- **C104** (partial: primary key tables are not pulled eagerly or no subqueries are created): if the default optimizer returns
a join tree, it has no cross products. -/
theorem C104_default_no_cross_partial (tables : List Nat) (joins extra : Cond) (index : Col → Index) (base : Nat → Rat)
    (freq : Col → Rat) (P : Policy) (n : Nat) (hv : ValidJoins tables (joins ++ extra)) (hes : NoEagerSubquery P) (tree : UTree)
    (h : defaultOptimizer P n (start tables joins extra index base freq) = some tree) : NoCross (joins ++ extra) tree := by
  unfold defaultOptimizer at h
  obtain ⟨⟨tr, s'⟩, h1, h2⟩ := Option.bind_eq_some_iff.1 h
  simp only at h2
  split at h2
  · simp at h2
  · subst h2
    exact (mainLoop_sound (index := index) hv n none (some tree) _ s' (ok_start base freq) (fun _ => rfl) h1).2.2 (by simp) hes tree rfl

/-- **C104** (partial: only if no sequence of deep primary key joins of the query contains a table twice): if the default
optimizer returns a join tree, each table appears once. -/
theorem C104_default_once_partial (tables : List Nat) (joins extra : Cond) (index : Col → Index) (base : Nat → Rat)
    (freq : Col → Rat) (P : Policy) (n : Nat) (hv : ValidJoins tables (joins ++ extra))
    (hd : DeepOnce tables joins extra index P.k) (tree : UTree)
    (h : defaultOptimizer P n (start tables joins extra index base freq) = some tree) : tree.leaves.Nodup := by
  unfold defaultOptimizer at h
  obtain ⟨⟨tr, s'⟩, h1, h2⟩ := Option.bind_eq_some_iff.1 h
  simp only at h2
  split at h2
  · simp at h2
  · subst h2
    exact (mainLoop_sound (index := index) hv n none (some tree) _ s' (ok_start base freq) (fun _ => rfl) h1).2.1 hd (by simp [leavesOf])

/-! ### Termination of the default optimizer -/

section
variable {tables : List Nat} {joins extra : Cond} {index : Col → Index} {P : Policy}

theorem nm_free (hv : ValidJoins tables (joins ++ extra)) {L : List Nat} {s : St} (h : Ok tables joins extra index P L s)
    (hf : s.g.containsFreeNM = true) : ∃ t ∈ tables, t ∉ L := by
  unfold JG.containsFreeNM at hf
  obtain ⟨⟨a, b, c⟩, he, hfree⟩ := List.any_eq_true.1 hf
  rw [(ok_facts hv.nodup h).2.2.2] at he
  obtain ⟨ha, hb, -⟩ := edges_known hv he
  unfold JG.freeNM at hfree
  simp only [Bool.and_eq_true, Bool.or_eq_true] at hfree
  by_cases hL : L = []
  · exact ⟨a, ha, by rw [hL]; simp⟩
  · have hini : ¬ s.g.initial = true := fun hi => hL ((ok_facts hv.nodup h).2.1.1 hi)
    obtain ⟨calls, h1, h2⟩ := h
    have := (C30_is_available tables joins extra index P.ord calls hv s.g h1 a b ha hb).1 (hfree.1.resolve_right hini)
    rcases this.2 with hc | ⟨-, hb'⟩ | ⟨ha', -⟩
    · subst hc
      exact ⟨a, ha, by rw [h2]; simp⟩
    · exact ⟨b, hb, by rw [h2]; exact hb'⟩
    · exact ⟨a, ha, by rw [h2]; exact ha'⟩

/-- The number of free tables. -/
def nFree (tables L : List Nat) : Nat := (tables.filter fun t => decide (t ∉ L)).length

theorem nFree_lt {L L' : List Nat} (hsub : ∀ t ∈ L, t ∈ L') {t : Nat} (ht : t ∈ tables) (h1 : t ∈ L') (h2 : t ∉ L) :
    nFree tables L' < nFree tables L := by
  unfold nFree
  have e : tables.filter (fun t => decide (t ∉ L')) = (tables.filter fun t => decide (t ∉ L)).filter fun t => decide (t ∉ L') := by
    rw [List.filter_filter]
    refine List.filter_congr fun x _ => ?_
    by_cases hx : x ∈ L'
    · simp [hx]
    · have : x ∉ L := fun h => hx (hsub x h)
      simp [hx, this]
  rw [e]
  refine lt_of_le_of_ne (List.length_filter_le _ _) fun hl => ?_
  rw [List.length_filter_eq_length_iff] at hl
  have := hl t (List.mem_filter.2 ⟨ht, by simpa using h2⟩)
  simp [h1] at this

theorem nFree_le {L : List Nat} : nFree tables L ≤ tables.length := List.length_filter_le _ _

theorem nFree_pos {L : List Nat} : 0 < nFree tables L ↔ ∃ t ∈ tables, t ∉ L := by
  unfold nFree
  rw [List.length_pos_iff_exists_mem]
  simp

theorem mainLoop_fuel (hv : ValidJoins tables (joins ++ extra)) (n m : Nat) (tree : Option UTree) (s : St)
    (hok : Ok tables joins extra index P (leavesOf tree) s) (hidx : tree = none → s.g.idx = index)
    (hn : nFree tables (leavesOf tree) ≤ n) (hm : nFree tables (leavesOf tree) ≤ m) : mainLoop P n tree s = mainLoop P m tree s := by
  induction n generalizing tree s m with
  | zero =>
    have hf : s.g.containsFreeNM = false := by
      rw [Bool.eq_false_iff]
      intro h
      have := nFree_pos.2 (nm_free hv hok h)
      omega
    cases m with
    | zero => rfl
    | succ m => simp [mainLoop, hf]
  | succ n ih =>
    cases m with
    | zero =>
      have hf : s.g.containsFreeNM = false := by
        rw [Bool.eq_false_iff]
        intro h
        have := nFree_pos.2 (nm_free hv hok h)
        omega
      simp [mainLoop, hf]
    | succ m =>
      simp only [mainLoop]
      split
      · cases hit : iteration P tree s with
        | none => rfl
        | some r =>
          obtain ⟨t1, s1⟩ := r
          obtain ⟨g1, g2, ⟨t, g3, g4⟩, -, -⟩ := iteration_sound hv tree t1 s s1 hok hidx hit
          have := nFree_lt g2 (ok_sub hv.nodup g1 t g3) g3 g4
          simp only [Option.bind_some]
          exact ih m (some t1) s1 g1 (by simp) (by simp only [leavesOf]; omega) (by simp only [leavesOf]; omega)
      · rfl

end

/-- **C104**: the main loop needs no more iterations than there are tables. -/
theorem C104_default_terminates (tables : List Nat) (joins extra : Cond) (index : Col → Index) (base : Nat → Rat) (freq : Col → Rat)
    (P : Policy) (n : Nat) (hv : ValidJoins tables (joins ++ extra)) (hn : tables.length ≤ n) :
    defaultOptimizer P n (start tables joins extra index base freq) =
      defaultOptimizer P tables.length (start tables joins extra index base freq) := by
  unfold defaultOptimizer
  rw [mainLoop_fuel (index := index) hv n tables.length none _ (ok_start base freq) (fun _ => rfl) (nFree_le.trans hn) nFree_le]

/-! ### Queries without primary key joins -/

section
variable {tables : List Nat} {joins extra : Cond} {index : Col → Index} {P : Policy}

theorem connected_edge (hv : ValidJoins tables (joins ++ extra)) (hc : Connected tables (joins ++ extra)) (h2 : 2 ≤ tables.length) :
    ∃ a b, JoinedBy (joins ++ extra) a b := by
  match htb : tables, h2 with
  | x :: y :: rest, _ =>
    have hxy : x ≠ y := by
      have := hv.nodup
      simp at this
      exact this.1.1
    rcases (Relation.ReflTransGen.cases_head (hc x (by simp) y (by simp))) with h | ⟨z, hz, -⟩
    · exact absurd h hxy
    · exact ⟨x, z, hz⟩

theorem paths_ne (hv : ValidJoins tables (joins ++ extra)) (hc : Connected tables (joins ++ extra)) (h2 : 2 ≤ tables.length)
    {L : List Nat} {s : St} (h : Ok tables joins extra index P L s) (hf : ∃ t ∈ tables, t ∉ L) : s.g.availablePaths false ≠ [] := by
  by_cases hL : L = []
  · subst hL
    have hini := (ok_facts hv.nodup h).2.1.2 rfl
    have hed := (ok_facts hv.nodup h).2.2.2
    obtain ⟨a, b, hj⟩ := connected_edge hv hc h2
    obtain ⟨c, hab⟩ := (edge_iff tables joins extra index a b).2 ((joinedBy_iff _ _ _).1 hj)
    unfold JG.availablePaths
    rw [hini, if_pos rfl]
    intro hnil
    have : ∀ e ∈ s.g.edges, initialPaths false e = [] := fun e he => (List.flatMap_eq_nil_iff.1 hnil) e he
    rw [hed] at this
    rcases hab with hab | hab
    · have := this _ hab; simp [initialPaths] at this
    · have := this _ hab; simp [initialPaths] at this
  · have hfree := (ok_facts hv.nodup h).2.2.1.2 hf
    obtain ⟨calls, h1, h3⟩ := h
    refine C30_progress tables joins extra index P.ord calls hv hc ?_ s.g h1 hfree false
    rintro rfl
    exact hL (List.eq_nil_iff_forall_not_mem.2 fun t ht => by simpa using (h3 t).1 ht)

/-- No primary key index on the tables of the query. -/
def NoPk (index : Col → Index) : Prop := ∀ c, ¬ UsablePK (index c)

theorem noPk_reached (hp : NoPk index) {L : List Nat} {s : St} (h : Ok tables joins extra index P L s) : NoPk s.g.idx := by
  obtain ⟨calls, h1, -⟩ := h
  intro c hu
  exact hp c ((C103_monotone P.ord calls _ s.g h1 c).2 hu)

theorem noPk_isPkFk (hp : NoPk index) {L : List Nat} {s : St} (h : Ok tables joins extra index P L s) (a b : Nat) :
    s.g.isPkFk a b = false := by
  rw [Bool.eq_false_iff]
  intro hpk
  have hp' := noPk_reached hp h
  obtain ⟨calls, h1, -⟩ := h
  obtain ⟨j, -, -, -, hu⟩ := (C30_pk_fk tables joins extra index P.ord calls s.g h1 a b).1 hpk
  exact hp' _ hu

theorem noPk_can (hp : NoPk index) {L : List Nat} {s : St} (h : Ok tables joins extra index P L s) (a b : Col) :
    (s.g.idx a).canPkFk (s.g.idx b) = false := by
  have h1 := noPk_reached hp h a
  have h2 := noPk_reached hp h b
  generalize s.g.idx a = i at *
  generalize s.g.idx b = j at *
  obtain ⟨k, v⟩ := i
  obtain ⟨k', v'⟩ := j
  cases k <;> cases v <;> cases k' <;> cases v' <;>
    simp_all [Index.canPkFk, Index.isIndexed, Index.isPrimary, Index.isSecondary, UsablePK]

theorem noPk_nm (hp : NoPk index) (hv : ValidJoins tables (joins ++ extra)) (hc : Connected tables (joins ++ extra))
    (h2 : 2 ≤ tables.length) {L : List Nat} {s : St} (h : Ok tables joins extra index P L s) (hf : ∃ t ∈ tables, t ∉ L) :
    s.g.containsFreeNM = true ∧ ∀ both, s.g.availableNM both ≠ [] := by
  have hne := paths_ne hv hc h2 h hf
  obtain ⟨p, hpp⟩ := List.exists_mem_of_ne_nil _ hne
  refine ⟨?_, ?_⟩
  · obtain ⟨hj, hnot, -⟩ := ok_path_any hv h false p hpp
    obtain ⟨ha, hb, -⟩ := joinedBy_tables hv hj
    obtain ⟨c, hab⟩ := (edge_iff tables joins extra index p.start p.target).2 ((joinedBy_iff _ _ _).1 hj)
    unfold JG.containsFreeNM
    rw [List.any_eq_true, (ok_facts hv.nodup h).2.2.2]
    have hnm : ∀ a b, (a, b, c) ∈ (JG.build tables joins extra index).edges → a ∈ tables → b ∈ tables → JoinedBy (joins ++ extra) a b →
        ((a ∈ L ∧ b ∉ L) ∨ (a ∉ L ∧ b ∈ L) ∨ L = []) → s.g.freeNM (a, b, c) = true := by
      intro a b he ha hb hjj hL
      have hcn : c ≠ [] := by rw [edge_unique he]; exact (joinedBy_iff _ _ _).1 hjj
      obtain ⟨j, hjc⟩ := List.exists_mem_of_ne_nil _ hcn
      have hcan := noPk_can hp h
      unfold JG.freeNM
      simp only [Bool.and_eq_true, Bool.or_eq_true, List.any_eq_true]
      refine ⟨?_, j, hjc, by rw [hcan]; rfl⟩
      by_cases hLe : L = []
      · exact .inr ((ok_facts hv.nodup h).2.1.2 hLe)
      · left
        obtain ⟨calls, h1, h3⟩ := h
        refine (C30_is_available tables joins extra index P.ord calls hv s.g h1 a b ha hb).2 ⟨hjj, .inr ?_⟩
        rcases hL with hL | hL | hL
        · exact .inl ⟨(h3 a).1 hL.1, fun hx => hL.2 ((h3 b).2 hx)⟩
        · exact .inr ⟨fun hx => hL.1 ((h3 a).2 hx), (h3 b).1 hL.2⟩
        · exact absurd hL hLe
    have hstart : p.start ∈ L ∨ L = [] := by
      by_cases hLe : L = []
      · exact .inr hLe
      · exact .inl ((ok_path hv h hLe _ _).1 hpp).1
    rcases hab with hab | hab
    · exact ⟨_, hab, hnm _ _ hab ha hb hj (hstart.elim (fun hs => .inl ⟨hs, hnot⟩) (fun hl => .inr (.inr hl)))⟩
    · exact ⟨_, hab, hnm _ _ hab hb ha (joinedBy_symm hj) (hstart.elim (fun hs => .inr (.inl ⟨hnot, hs⟩)) (fun hl => .inr (.inr hl)))⟩
  · intro both hnil
    have : p ∈ s.g.availableNM both :=
      (C30_n_m_paths s.g both p).2 ⟨noPk_isPkFk hp h _ _, noPk_isPkFk hp h _ _, .inl hpp⟩
    rw [hnil] at this
    simp at this

theorem noPk_deep (hp : NoPk index) {L : List Nat} {s : St} (h : Ok tables joins extra index P L s) (t : Nat) : s.g.deepPk P.k t = [] := by
  match hd : s.g.deepPk P.k t with
  | [] => rfl
  | p :: post =>
    have := (C30_deep_pk s.g P.k t [] p post hd).1
    rw [noPk_isPkFk hp h] at this
    simp at this

theorem noPk_for (hp : NoPk index) (hv : ValidJoins tables (joins ++ extra)) {L : List Nat} {s : St}
    (h : Ok tables joins extra index P L s) (t : Nat) : s.g.pkFkFor t = [] := by
  match hd : s.g.pkFkFor t with
  | [] => rfl
  | p :: post =>
    have := (ok_pkFkFor hv h t p (by rw [hd]; simp)).2.2
    rw [noPk_isPkFk hp h] at this
    simp at this

theorem noPk_iteration (hp : NoPk index) (hv : ValidJoins tables (joins ++ extra)) (hc : Connected tables (joins ++ extra))
    (h2 : 2 ≤ tables.length) (hfin : Finite P) (tree : Option UTree) (s : St)
    (hok : Ok tables joins extra index P (leavesOf tree) s) (hf : ∃ t ∈ tables, t ∉ leavesOf tree) :
    ∃ r, iteration P tree s = some r := by
  obtain ⟨hg, -, -⟩ := updateBounds_g P s
  have hok1 : Ok tables joins extra index P (leavesOf tree) (updateBounds P s).1 := ok_congr hok hg
  obtain ⟨-, hnm⟩ := noPk_nm hp hv hc h2 hok1 hf
  cases tree with
  | none =>
    obtain ⟨t, ht⟩ := updateBounds_some P s (by rw [← hg]; exact hnm true)
    obtain ⟨p, hpp, rfl⟩ := updateBounds_table P s t ht
    have hpt : p.target ∈ tables := (joinedBy_tables hv (ok_nm_path hv hok true p hpp).1).2.1
    obtain ⟨s1, h1⟩ := mark_some hv.nodup none hok1 hpt
    have hd := noPk_deep hp (mark_ok hok1 h1).1 p.target
    refine ⟨(UTree.scan p.target (updateBounds P s).2.1, s1), ?_⟩
    simp only [iteration, ht, Option.bind_some, firstStep, h1, hd, initialPk]
  | some tree =>
    obtain ⟨p, hsel⟩ := selectPath_some P (updateBounds P s).1 _ (hnm false)
      (fun q hq => hfin _ _ (ok_nm_path hv hok1 false q hq).2.2.2)
    have hpm := (C104_greedy P _ _ p hsel).1
    have hpt : p.target ∈ tables := (joinedBy_tables hv (ok_nm_path hv hok1 false p hpm).1).2.1
    obtain ⟨s1, h1⟩ := mark_some hv.nodup (some p.cond) hok1 hpt
    have hd := noPk_deep hp hok1 p.target
    have hd' := noPk_for hp hv hok1 p.target
    rw [← Option.isSome_iff_exists]
    simp [iteration, hsel, nmStep, hd, hd', anySubquery, h1, insertPk]

theorem noPk_loop (hp : NoPk index) (hv : ValidJoins tables (joins ++ extra)) (hc : Connected tables (joins ++ extra))
    (h2 : 2 ≤ tables.length) (hfin : Finite P) (n : Nat) (tree : Option UTree) (s : St)
    (hok : Ok tables joins extra index P (leavesOf tree) s) (hidx : tree = none → s.g.idx = index)
    (hn : nFree tables (leavesOf tree) ≤ n) :
    ∃ t s', mainLoop P n tree s = some (some t, s') ∧ s'.g.containsFree = false := by
  induction n generalizing tree s with
  | zero =>
    have hnf : ¬ ∃ t ∈ tables, t ∉ leavesOf tree := by rw [← nFree_pos]; omega
    have hf : s.g.containsFreeNM = false := by
      rw [Bool.eq_false_iff]; exact fun h => hnf (nm_free hv hok h)
    have hcf : s.g.containsFree = false := by
      rw [Bool.eq_false_iff]; exact fun h => hnf ((ok_facts hv.nodup hok).2.2.1.1 h)
    cases tree with
    | none =>
      obtain ⟨x, hx⟩ : ∃ x, x ∈ tables := by
        cases tables with
        | nil => simp at h2
        | cons x l => exact ⟨x, by simp⟩
      exact absurd ⟨x, hx, by simp [leavesOf]⟩ hnf
    | some t => exact ⟨t, s, by simp [mainLoop, hf], hcf⟩
  | succ n ih =>
    by_cases hf : ∃ t ∈ tables, t ∉ leavesOf tree
    · obtain ⟨hnm, -⟩ := noPk_nm hp hv hc h2 hok hf
      obtain ⟨⟨t1, s1⟩, hr⟩ := noPk_iteration hp hv hc h2 hfin tree s hok hf
      obtain ⟨g1, g2, ⟨t, g3, g4⟩, -, -⟩ := iteration_sound hv tree t1 s s1 hok hidx hr
      have := nFree_lt g2 (ok_sub hv.nodup g1 t g3) g3 g4
      obtain ⟨t2, s2, h3, h4⟩ := ih (some t1) s1 g1 (by simp) (by simp only [leavesOf]; omega)
      exact ⟨t2, s2, by simp [mainLoop, hnm, hr, h3], h4⟩
    · have hcf : s.g.containsFree = false := by
        rw [Bool.eq_false_iff]; exact fun h => hf ((ok_facts hv.nodup hok).2.2.1.1 h)
      have hnm : s.g.containsFreeNM = false := by
        rw [Bool.eq_false_iff]; exact fun h => hf (nm_free hv hok h)
      cases tree with
      | none =>
        obtain ⟨x, hx⟩ : ∃ x, x ∈ tables := by
          cases tables with
          | nil => simp at h2
          | cons x l => exact ⟨x, by simp⟩
        exact absurd ⟨x, hx, by simp [leavesOf]⟩ hf
      | some t => exact ⟨t, s, by simp [mainLoop, hnm], hcf⟩

end

/-- **C104** (partial: only for queries without usable primary key indexes): for connected queries, the default optimizer returns
a join tree that contains each table once and has no cross products. -/
theorem C104_default_succeeds_partial (tables : List Nat) (joins extra : Cond) (index : Col → Index) (base : Nat → Rat)
    (freq : Col → Rat) (P : Policy) (n : Nat) (hv : ValidJoins tables (joins ++ extra)) (hc : Connected tables (joins ++ extra))
    (h2 : 2 ≤ tables.length) (hn : tables.length ≤ n) (hp : NoPk index) (hfin : Finite P) :
    ∃ tree, defaultOptimizer P n (start tables joins extra index base freq) = some tree ∧
      (∀ t, t ∈ tree.leaves ↔ t ∈ tables) ∧ tree.leaves.Nodup := by
  obtain ⟨tree, s', h1, h3⟩ := noPk_loop hp hv hc h2 hfin n none (start tables joins extra index base freq) (ok_start base freq)
    (fun _ => rfl) (nFree_le.trans hn)
  have h : defaultOptimizer P n (start tables joins extra index base freq) = some tree := by simp [defaultOptimizer, h1, h3]
  refine ⟨tree, h, C104_default_tables tables joins extra index base freq P n hv tree h, ?_⟩
  refine C104_default_once_partial tables joins extra index base freq P n hv ?_ tree h
  intro t ht
  have : (JG.build tables joins extra index).deepPk P.k t = [] :=
    noPk_deep (P := P) (L := []) (s := start tables joins extra index base freq) hp (ok_start base freq) t
  rw [this]
  simp

/-! ### The star query optimizer -/

section
variable {tables : List Nat} {joins extra : Cond} {index : Col → Index} {P : Policy}

theorem star_loop (hv : ValidJoins tables (joins ++ extra)) (hc : Connected tables (joins ++ extra))
    (h2 : 2 ≤ tables.length) (hfin : Finite P) (n : Nat) (tree : UTree) (s : St)
    (hok : Ok tables joins extra index P tree.leaves s) (hn : nFree tables tree.leaves ≤ n) (hnc : NoCross (joins ++ extra) tree)
    (hl : Linear tree) (hnd : tree.leaves.Nodup) :
    ∃ tree', starLoop P n tree s = some tree' ∧ (∀ t, t ∈ tree'.leaves ↔ t ∈ tables) ∧ tree'.leaves.Nodup ∧
      NoCross (joins ++ extra) tree' ∧ Linear tree' := by
  have done : (¬ ∃ t ∈ tables, t ∉ tree.leaves) → s.g.containsFree = false ∧ ∀ t, t ∈ tree.leaves ↔ t ∈ tables := by
    intro hf
    refine ⟨?_, fun t => ⟨ok_sub hv.nodup hok t, fun ht => ?_⟩⟩
    · rw [Bool.eq_false_iff]; exact fun h => hf ((ok_facts hv.nodup hok).2.2.1.1 h)
    · by_contra hx
      exact hf ⟨t, ht, hx⟩
  induction n generalizing tree s with
  | zero =>
    have hnf : ¬ ∃ t ∈ tables, t ∉ tree.leaves := by rw [← nFree_pos]; omega
    obtain ⟨h3, h4⟩ := done hnf
    exact ⟨tree, by simp [starLoop, h3], h4, hnd, hnc, hl⟩
  | succ n ih =>
    by_cases hf : ∃ t ∈ tables, t ∉ tree.leaves
    · have hcf := (ok_facts hv.nodup hok).2.2.1.2 hf
      obtain ⟨p, hsel⟩ := selectPath_some P s _ (paths_ne hv hc h2 hok hf)
        (fun q hq => hfin _ _ (ok_path_any hv hok false q hq).2.2)
      have hpm := (C104_greedy P _ _ p hsel).1
      obtain ⟨hps, hpt, hpn, -, -⟩ := (ok_path hv hok (leaves_ne tree) false p).1 hpm
      have hj := (ok_path_any hv hok false p hpm).1
      obtain ⟨s1, h1⟩ := mark_some hv.nodup (some p.cond) hok hpt
      obtain ⟨tr', hr1, hr2⟩ : ∃ tr', tr' = UTree.join tree (.scan p.target (some (s.base p.target)))
          (selectPath P s (s.g.availablePaths false)).1 ∧ tr'.leaves = tree.leaves ++ [p.target] := ⟨_, rfl, rfl⟩
      have hok1 : Ok tables joins extra index P tr'.leaves s1 := by rw [hr2]; exact (mark_ok hok h1).1
      have hlt : nFree tables tr'.leaves < nFree tables tree.leaves :=
        nFree_lt (by intro t ht; rw [hr2]; simp [ht]) hpt (by rw [hr2]; simp) hpn
      have hnd1 : tr'.leaves.Nodup := by
        rw [hr2, List.nodup_append]
        refine ⟨hnd, by simp, ?_⟩
        intro a ha b hb hab
        simp only [List.mem_singleton] at hb
        rw [hab, hb] at ha
        exact hpn ha
      obtain ⟨tree', h3, h4⟩ := ih tr' s1 hok1 (by omega)
        (by rw [hr1]; exact ⟨hnc, trivial, p.start, hps, p.target, by simp [UTree.leaves], hj⟩)
        (by rw [hr1]; exact hl) hnd1
        (by
          intro hf
          refine ⟨?_, fun t => ⟨ok_sub hv.nodup hok1 t, fun ht => ?_⟩⟩
          · rw [Bool.eq_false_iff]; exact fun h => hf ((ok_facts hv.nodup hok1).2.2.1.1 h)
          · by_contra hx
            exact hf ⟨t, ht, hx⟩)
      refine ⟨tree', ?_, h4⟩
      rw [← h3, hr1]
      simp [starLoop, hcf, hsel, applyJoin, h1]
    · obtain ⟨h3, h4⟩ := done hf
      exact ⟨tree, by simp [starLoop, h3], h4, hnd, hnc, hl⟩

end

/-- **C104**: for connected queries, the star query optimizer returns a left-deep join tree that contains each table once and has
no cross products. -/
theorem C104_star (tables : List Nat) (joins extra : Cond) (index : Col → Index) (base : Nat → Rat) (freq : Col → Rat)
    (P : Policy) (n : Nat) (hv : ValidJoins tables (joins ++ extra)) (hc : Connected tables (joins ++ extra))
    (h2 : 2 ≤ tables.length) (hn : tables.length ≤ n) (hfin : Finite P) :
    ∃ tree, starOptimizer P n (start tables joins extra index base freq) = some tree ∧
      (∀ t, t ∈ tree.leaves ↔ t ∈ tables) ∧ tree.leaves.Nodup ∧ NoCross (joins ++ extra) tree ∧ Linear tree := by
  have hok := ok_start (tables := tables) (joins := joins) (extra := extra) (index := index) (P := P) base freq
  have hf : ∃ t ∈ tables, t ∉ ([] : List Nat) := by
    cases tables with
    | nil => simp at h2
    | cons x l => exact ⟨x, by simp⟩
  obtain ⟨p, hsel⟩ := selectPath_some P (start tables joins extra index base freq) _ (paths_ne hv hc h2 hok hf)
    (fun q hq => hfin _ _ (ok_path_any hv hok false q hq).2.2)
  have hpm := (C104_greedy P _ _ p hsel).1
  have hj := (ok_path_any hv hok false p hpm).1
  obtain ⟨hps, hpt, hne⟩ := joinedBy_tables hv hj
  obtain ⟨s1, h1⟩ := mark_some hv.nodup none hok hps
  have hok1 := (mark_ok hok h1).1
  obtain ⟨s2, h3⟩ := mark_some hv.nodup (some p.cond) hok1 hpt
  have hok2 := (mark_ok hok1 h3).1
  obtain ⟨tree, h4, h5⟩ := star_loop hv hc h2 hfin n
    (UTree.join (.scan p.start (some ((start tables joins extra index base freq).base p.start)))
      (.scan p.target (some (s1.base p.target)))
      (selectPath P (start tables joins extra index base freq) ((start tables joins extra index base freq).g.availablePaths false)).1)
    s2 hok2 (nFree_le.trans hn) ⟨trivial, trivial, p.start, by simp [UTree.leaves], p.target, by simp [UTree.leaves], hj⟩ trivial
    (by simp [UTree.leaves, hne])
  refine ⟨tree, ?_, h5⟩
  rw [← h4]
  simp [starOptimizer, hsel, h1, applyJoin, h3]


theorem uesEstimate_fold (s : St) (c : Cond) (m : Bound) :
    (c.foldl (fun m j => if Bound.lt (some (predBound s j)) m then some (predBound s j) else m) m) = none ↔ m = none ∧ c = [] := by
  induction c generalizing m with
  | nil => simp
  | cons j c ih =>
    rw [List.foldl_cons, ih]
    cases m with
    | none => simp [Bound.lt]
    | some m =>
      simp only [reduceCtorEq, false_and, iff_false, not_and]
      intro h
      split at h <;> simp at h

/-- The default strategies never return infinite bounds. -/
theorem C104_ues_finite (eager : Bool) (ord : List Nat → List Nat) (k : Nat) : Finite (uesPolicy eager ord k) := by
  intro s c hc h
  exact hc ((uesEstimate_fold s c none).1 h).2

/-- **C104**: a query of two tables with a join predicate is joined, with the larger table first. -/
theorem C104_binary (tables : List Nat) (joins extra : Cond) (index : Col → Index) (base : Nat → Rat) (freq : Col → Rat)
    (P : Policy) (t1 t2 : Nat) (hne : t1 ≠ t2) (hj : JoinedBy joins t1 t2) :
    ∃ l r a, binaryOptimizer P (start tables joins extra index base freq) t1 t2 =
        some (.join (.scan l (some (base l))) (.scan r (some (base r))) a) ∧
      ((l = t1 ∧ r = t2) ∨ (l = t2 ∧ r = t1)) ∧ base r ≤ base l := by
  have key : ∀ a b, a ≠ b → JoinedBy joins a b → ∃ c, joinsBetween joins a [b] = some c := by
    rintro a b hab ⟨j, hj, hcon⟩
    cases h : joinsBetween joins a [b] with
    | some c => exact ⟨c, rfl⟩
    | none =>
      exfalso
      unfold joinsBetween at h
      simp only [ite_eq_left_iff, reduceCtorEq, imp_false, not_not] at h
      refine List.eq_nil_iff_forall_not_mem.1 h j (List.mem_filter.2 ⟨hj, ?_⟩)
      rcases hcon with ⟨h1, h2⟩ | ⟨h1, h2⟩
      · simp [h1, h2]
      · simp [h1, h2]
  unfold binaryOptimizer
  simp only [start]
  by_cases hlt : base t1 < base t2
  · obtain ⟨c, hc⟩ := key t2 t1 hne.symm (joinedBy_symm hj)
    refine ⟨t2, t1, P.estimate (start tables joins extra index base freq) c, ?_, .inr ⟨rfl, rfl⟩, hlt.le⟩
    simp only [hlt, if_true]
    rw [show (JG.build tables joins extra index).qjoins = joins from rfl, hc]
    rfl
  · obtain ⟨c, hc⟩ := key t1 t2 hne hj
    refine ⟨t1, t2, P.estimate (start tables joins extra index base freq) c, ?_, .inl ⟨rfl, rfl⟩, not_lt.1 hlt⟩
    simp only [hlt, if_false]
    rw [show (JG.build tables joins extra index).qjoins = joins from rfl, hc]
    rfl

theorem crossJoin_leaves (ts : List UTree) (t : UTree) (h : crossJoin ts = some t) : t.leaves = ts.flatMap UTree.leaves := by
  cases ts with
  | nil => simp [crossJoin] at h
  | cons x ts =>
    simp only [crossJoin, Option.some.injEq] at h
    subst h
    have : ∀ (ts : List UTree) (x : UTree) (f : UTree → UTree → Bound),
        (ts.foldl (fun a b => UTree.join a b (f a b)) x).leaves = x.leaves ++ ts.flatMap UTree.leaves := by
      intro ts
      induction ts with
      | nil => intro x f; simp
      | cons y ts ih => intro x f; rw [List.foldl_cons, ih]; simp [UTree.leaves]
    rw [List.flatMap_cons]
    exact this ts x _

/-! ### Violations -/

theorem conn_of_root {J : Cond} {ts : List Nat} (r : Nat) (h : ∀ a ∈ ts, Relation.ReflTransGen (JoinedBy J) r a) : Connected ts J := by
  have hsym : ∀ a b, Relation.ReflTransGen (JoinedBy J) a b → Relation.ReflTransGen (JoinedBy J) b a := by
    intro a b hab
    induction hab with
    | refl => exact .refl
    | tail _ hbc ih => exact .head (joinedBy_symm hbc) ih
  exact fun a ha b hb => (hsym _ _ (h a ha)).trans (h b hb)

/-- Base table estimates: `1` for one table and `10` for the others. -/
def ex_base (small : Nat) : Nat → Rat := fun t => if t = small then 1 else 10

/-- **C104** (violated): for `t1.x = t2.y AND t3.a = t1.id`, the default optimizer gives up: after the n:m join of the first two
tables, only a primary key/foreign key join is left, but the loop only considers n:m joins. -/
theorem C104_default_gives_up_violated (eager : Bool) :
    ValidJoins [1, 2, 3] (ex_joins ++ []) ∧ Connected [1, 2, 3] (ex_joins ++ []) ∧
    (JG.build [1, 2, 3] ex_joins [] ex_index).containsFreeNM = true ∧
    optimizeConnected (uesPolicy eager id 20) (start [1, 2, 3] ex_joins [] ex_index (ex_base 1) fun _ => 2) = none := by
  refine ⟨ex_valid, ex_connected, by decide +kernel, ?_⟩
  cases eager <;> decide +kernel

/-- `t1.a = t2.id AND t1.b = t3.id AND t2.c = t4.id AND t3.d = t4.id AND t1.x = t5.y`. -/
def ex_diamond : Cond := [(col 1 5, col 2 0), (col 1 6, col 3 0), (col 2 5, col 4 0), (col 3 5, col 4 0), (col 1 1, col 5 1)]

/-- **C104** (violated): a table that is referenced on two paths of foreign keys is scanned twice. -/
theorem C104_default_twice_violated : ValidJoins [1, 2, 3, 4, 5] (ex_diamond ++ []) ∧
    (optimizeConnected (uesPolicy false id 20) (start [1, 2, 3, 4, 5] ex_diamond [] ex_index (ex_base 1) fun _ => 2)).map
      (Option.map UTree.leaves) = some (some [1, 2, 3, 4, 4, 5]) :=
  ⟨⟨by decide, by decide, by decide⟩, by decide +kernel⟩

/-- `t1.a = t2.id AND t1.x = t2.y AND t2.b = t3.id`. -/
def ex_composite : Cond := [(col 1 5, col 2 0), (col 1 1, col 2 1), (col 2 5, col 3 0)]

/-- **C104** (violated): the default optimizer also gives up if a foreign key join has another join condition. -/
theorem C104_composite_violated (eager : Bool) : ValidJoins [1, 2, 3] (ex_composite ++ []) ∧
    optimizeConnected (uesPolicy eager id 20) (start [1, 2, 3] ex_composite [] ex_index (ex_base 1) fun _ => 2) = none := by
  refine ⟨⟨by decide, by decide, by decide⟩, ?_⟩
  cases eager <;> decide +kernel

/-- `t1.x = t4.y AND t1.id = t3.id AND t3.a = t4.id AND t2.b = t3.id AND t1.z = t2.z`. -/
def ex_eager : Cond := [(col 1 1, col 4 1), (col 1 0, col 3 0), (col 3 5, col 4 0), (col 2 5, col 3 0), (col 1 2, col 2 2)]

/-- **C104** (violated): with eager primary key joins, a subquery can contain a cross product: `t2` and `t4` are only connected
through `t3`, which is not part of the subquery. -/
theorem C104_eager_cross_violated : ValidJoins [1, 2, 3, 4] (ex_eager ++ []) ∧
    ∃ l a1 a2 a3 a, optimizeConnected (uesPolicy true id 20) (start [1, 2, 3, 4] ex_eager [] ex_index
        (fun t => if t = 1 then 1 else if t = 3 then 2 else if t = 2 then 50 else 100) fun c => if c.tab = 4 then 10 else 2) =
      some (some (.join l (.join (.scan 2 a1) (.scan 4 a2) a3) a)) ∧ ¬ JoinedBy (ex_eager ++ []) 2 4 := by
  refine ⟨⟨by decide, by decide, by decide⟩, UTree.join (.scan 1 (some 1)) (.scan 3 (some 2)) (some 4), some 50, some 100, some 20,
    some 2, by decide +kernel, ?_⟩
  rintro ⟨j, hj, hc⟩
  simp only [ex_eager, List.append_nil, List.mem_cons, List.not_mem_nil, or_false] at hj
  rcases hj with rfl | rfl | rfl | rfl | rfl <;> simp [Connects, col] at hc

/-- **C104** (violated): a query with a cross product is only optimized if each component has at least two tables. -/
theorem C104_cross_product_violated (P : Policy) (s c1 c2 : St) (h3 : 2 < (Dict.keys s.g.nodes).length)
    (hc : (Dict.keys c2.g.nodes).length = 1) : optimize P s [c1, c2] = none := by
  have h2 : optimizeConnected P c2 = some none := by
    unfold optimizeConnected
    match hk : Dict.keys c2.g.nodes, hc with
    | [_], _ => rfl
  unfold optimize
  rw [if_neg (by omega), if_neg (by simp; omega)]
  simp [h2]

example : (optimize (uesPolicy true id 20) (start [1, 2, 3] [(col 1 1, col 2 1)] [] ex_index (ex_base 1) fun _ => 2)
    [start [1, 2] [(col 1 1, col 2 1)] [] ex_index (ex_base 1) fun _ => 2, start [3] [] [] ex_index (ex_base 1) fun _ => 2]) = none :=
  C104_cross_product_violated _ _ _ _ (by decide) (by decide)

/-! ### Examples -/

/-- `t1.x = t2.y AND t2.z = t3.w`. -/
def ex_chain : Cond := [(col 1 1, col 2 1), (col 2 2, col 3 1)]

theorem ex_chain_valid : ValidJoins [1, 2, 3] (ex_chain ++ []) := ⟨by decide, by decide, by decide⟩

theorem ex_chain_connected : Connected [1, 2, 3] (ex_chain ++ []) := by
  have h1 : JoinedBy (ex_chain ++ []) 2 1 := ⟨(col 1 1, col 2 1), by decide, by decide⟩
  have h3 : JoinedBy (ex_chain ++ []) 2 3 := ⟨(col 2 2, col 3 1), by decide, by decide⟩
  refine conn_of_root 2 fun a ha => ?_
  simp only [List.mem_cons, List.not_mem_nil, or_false] at ha
  rcases ha with rfl | rfl | rfl
  · exact .single h1
  · exact .refl
  · exact .single h3

theorem noIx_noPk : NoPk (fun _ => noIx) := by
  intro c h
  exact absurd (show noIx.kind = .primary from h.2) (by decide)

example : ∃ tree, defaultOptimizer (uesPolicy true id 20) 3 (start [1, 2, 3] ex_chain [] (fun _ => noIx) (ex_base 1) fun _ => 2) = some tree ∧
    (∀ t, t ∈ tree.leaves ↔ t ∈ [1, 2, 3]) ∧ tree.leaves.Nodup :=
  C104_default_succeeds_partial _ _ _ _ _ _ _ _ ex_chain_valid ex_chain_connected (by decide) (by decide) noIx_noPk
    (C104_ues_finite _ _ _)

example : ∃ tree, defaultOptimizer (uesPolicy false id 20) 3 (start [1, 2, 3] ex_chain [] (fun _ => noIx) (ex_base 1) fun _ => 2) = some tree ∧
    NoCross (ex_chain ++ []) tree := by
  obtain ⟨tree, h, -⟩ := C104_default_succeeds_partial [1, 2, 3] ex_chain [] (fun _ => noIx) (ex_base 1) (fun _ => 2)
    (uesPolicy false id 20) 3 ex_chain_valid ex_chain_connected (by decide) (by decide) noIx_noPk (C104_ues_finite _ _ _)
  exact ⟨tree, h, C104_default_no_cross_partial _ _ _ _ _ _ _ _ ex_chain_valid (.inl rfl) tree h⟩

/-- `t1.x = t2.y AND t1.a = t3.id`: the primary key table is joined once. -/
example : DeepOnce [1, 2, 3] [(col 1 1, col 2 1), (col 1 5, col 3 0)] [] ex_index 20 ∧
    (defaultOptimizer (uesPolicy true id 20) 3
      (start [1, 2, 3] [(col 1 1, col 2 1), (col 1 5, col 3 0)] [] ex_index (ex_base 2) fun _ => 2)).map UTree.leaves =
      some [2, 1, 3] := by
  refine ⟨?_, by decide +kernel⟩
  intro t ht
  fin_cases ht <;> decide +kernel

/-- `t1.a = t2.id AND t1.b = t3.id`. -/
def ex_star : Cond := [(col 1 5, col 2 0), (col 1 6, col 3 0)]

example : ∃ tree, starOptimizer (uesPolicy true id 20) 3 (start [1, 2, 3] ex_star [] ex_index (ex_base 1) fun _ => 2) = some tree ∧
    (∀ t, t ∈ tree.leaves ↔ t ∈ [1, 2, 3]) ∧ tree.leaves.Nodup ∧ NoCross (ex_star ++ []) tree ∧ Linear tree := by
  have h1 : JoinedBy (ex_star ++ []) 1 2 := ⟨(col 1 5, col 2 0), by decide, by decide⟩
  have h3 : JoinedBy (ex_star ++ []) 1 3 := ⟨(col 1 6, col 3 0), by decide, by decide⟩
  refine C104_star _ _ _ _ _ _ _ _ ⟨by decide, by decide, by decide⟩ (conn_of_root 1 fun a ha => ?_) (by decide) (by decide)
    (C104_ues_finite _ _ _)
  simp only [List.mem_cons, List.not_mem_nil, or_false] at ha
  rcases ha with rfl | rfl | rfl
  · exact .refl
  · exact .single h1
  · exact .single h3

example : JoinedBy ex_joins 1 2 := ⟨(col 1 1, col 2 1), by decide, by decide⟩

end PB.UesProps
