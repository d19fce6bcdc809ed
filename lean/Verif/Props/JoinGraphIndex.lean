import Verif.Props.JoinGraph

/-! C103: indexes that remain valid in the join graph are still keys of the intermediate result. -/

set_option linter.unusedSimpArgs false
set_option linter.unusedVariables false
set_option linter.unusedSectionVars false
set_option linter.unnecessarySimpa false

namespace PB.JoinGraphIndexProps

open PB PB.JoinGraph PB.JoinGraphProps

/-! ### Specification -/

/-- The contents of a database: the rows of each table and the value of each column in each row. -/
structure Data where
  rows : Nat → Nat → Prop
  val : Col → Nat → Nat

/-- A row of the join of the tables `S`: one row of each table, such that all join predicates between these tables hold. -/
def InResult (D : Data) (joins : Cond) (S : List Nat) (f : Nat → Nat) : Prop :=
  (∀ t ∈ S, D.rows t (f t)) ∧
  ∀ j ∈ joins, j.1.tab ∈ S → j.2.tab ∈ S → D.val j.1 (f j.1.tab) = D.val j.2 (f j.2.tab)

/-- Each value of the column appears at most once in the join of the tables `S`. -/
def UniqueIn (D : Data) (joins : Cond) (S : List Nat) (c : Col) : Prop :=
  ∀ f g, InResult D joins S f → InResult D joins S g → D.val c (f c.tab) = D.val c (g c.tab) → ∀ t ∈ S, f t = g t

/-- Primary keys identify the rows of their table. -/
def KeysHold (D : Data) (index : Col → Index) : Prop :=
  ∀ c, (index c).kind = .primary → ∀ r r', D.rows c.tab r → D.rows c.tab r' → D.val c r = D.val c r' → r = r'

/-- Each table has at most one primary key column. -/
def OneKey (index : Col → Index) : Prop :=
  ∀ c c', (index c).kind = .primary → (index c').kind = .primary → c.tab = c'.tab → c = c'

/-- The new table is joined to the consumed tables by primary key/foreign key joins: there is a predicate, and for each joined table
exactly one side is the primary key. -/
def PkFkStep (joins : Cond) (S : List Nat) (g : JG) (t : Nat) : Prop :=
  t ∉ S ∧ (∃ p ∈ S, JoinedBy joins t p) ∧ ∀ p ∈ S, JoinedBy joins t p → (g.isPkFk t p = true ↔ ¬ g.isPkFk p t = true)

/-- All steps of a history are primary key/foreign key joins, except for the choice of the first table. -/
def PkFkHistory (joins : Cond) (ord : List Nat → List Nat) : List Nat → JG → List Nat → Prop
  | _, _, [] => True
  | S, g, t :: calls => (S = [] ∨ PkFkStep joins S g t) ∧
      ∀ g', g.markJoined ord t none = some g' → PkFkHistory joins ord (S ++ [t]) g' calls

/-! ### Proof -/

theorem foldPair_invalid (t : Nat) (fkPk : Bool) (c : Cond) (idx : Col → Index) (j : Col × Col) (hj : j ∈ c) :
    (c.foldl (invalidatePair t true fkPk) idx (if j.1.tab = t then j.2 else j.1)).invalid = true := by
  induction c generalizing idx with
  | nil => simp at hj
  | cons k c ih =>
    rcases List.mem_cons.1 hj with rfl | hj
    · rw [List.foldl_cons]
      refine (foldPair_weaker t true fkPk c _ _).2 ?_
      unfold invalidatePair
      simp only [if_true]
      unfold invalidateCol
      split <;> simp [Index.invalidate]
    · rw [List.foldl_cons]
      exact ih _ hj

theorem foldTable_invalid (l : List (Nat × Bool)) (idx : Col → Index) (x : Col) (h : x.tab ∈ l.map (·.1)) :
    (l.foldl (fun i e => invalidateTable i e.1) idx x).invalid = true := by
  induction l generalizing idx with
  | nil => simp at h
  | cons e l ih =>
    rw [List.foldl_cons]
    by_cases he : x.tab = e.1
    · refine (foldTable_weaker l _ x).2 ?_
      simp [invalidateTable, he, Index.invalidate]
    · refine ih _ ?_
      rw [List.map_cons] at h
      exact (List.mem_cons.1 h).resolve_left he

/-- The invariant of the histories. -/
structure Inv (tables : List Nat) (joins : Cond) (index : Col → Index) (D : Data) (S : List Nat) (g : JG) : Prop where
  marked : Marked tables S g
  edges : g.edges = (JG.build tables joins [] index).edges
  qjoins : g.qjoins = joins
  weaker : ∀ x, Weaker (index x) (g.idx x)
  sub : ∀ t ∈ S, t ∈ tables
  sound : ∀ c, c.tab ∈ S → UsablePK (g.idx c) → UniqueIn D joins S c
  single : ∀ c c', c.tab ∈ S → c'.tab ∈ S → UsablePK (g.idx c) → UsablePK (g.idx c') → c.tab = c'.tab

theorem usable_of_weaker {i i' : Index} (h : Weaker i i') (hu : UsablePK i') : UsablePK i := by
  refine ⟨?_, by rw [← h.1]; exact hu.2⟩
  cases hc : i.invalid with
  | false => rfl
  | true => have := h.2 hc; rw [hu.1] at this; simp at this

theorem isPkFk_spec {tables : List Nat} {joins : Cond} {index : Col → Index} {g : JG}
    (hed : g.edges = (JG.build tables joins [] index).edges) (fk pk : Nat) :
    g.isPkFk fk pk = true ↔ ∃ j ∈ joins, Connects fk pk j ∧ Usable (g.idx (side fk j)) ∧ UsablePK (g.idx (side pk j)) := by
  unfold JG.isPkFk
  by_cases h : JoinedBy (joins ++ []) fk pk
  · rw [edgeCond_eq hed fk pk h]
    simp only [List.any_eq_true, Bool.and_eq_true, isIndexed_iff, isPrimary_iff, condBetween, List.mem_filter, decide_eq_true_eq,
      List.append_nil]
    constructor
    · rintro ⟨j, ⟨h1, h2⟩, h3⟩; exact ⟨j, h1, h2, h3⟩
    · rintro ⟨j, h1, h2, h3⟩; exact ⟨j, ⟨h1, h2⟩, h3⟩
  · rw [edgeCond_none hed fk pk h]
    simp only [Bool.false_eq_true, false_iff]
    rintro ⟨j, h1, h2, -⟩
    exact h ⟨j, by simpa using h1, h2⟩

theorem mem_joined {tables S : List Nat} {g : JG} (hm : Marked tables S g) (hs : ∀ t ∈ S, t ∈ tables) (t : Nat) :
    t ∈ g.joined ↔ t ∈ S := by
  unfold JG.joined
  rw [List.mem_filter, hm.keys]
  constructor
  · rintro ⟨ht, h⟩
    rw [isFree_marked hm t ht] at h
    simpa using h
  · intro ht
    exact ⟨hs t ht, by rw [isFree_marked hm t (hs t ht)]; simpa using ht⟩

theorem inResult_mono {D : Data} {joins : Cond} {S T : List Nat} {f : Nat → Nat} (hst : ∀ t ∈ S, t ∈ T) (h : InResult D joins T f) :
    InResult D joins S f := ⟨fun t ht => h.1 t (hst t ht), fun j hj h1 h2 => h.2 j hj (hst _ h1) (hst _ h2)⟩

theorem inv_first (tables : List Nat) (joins : Cond) (index : Col → Index) (D : Data) (ord : List Nat → List Nat)
    (hk : KeysHold D index) (g g' : JG) (t : Nat) (hi : Inv tables joins index D [] g) (hn : tables.Nodup)
    (h : g.markJoined ord t none = some g') : Inv tables joins index D [t] g' := by
  have hr : g.run ord [(t, none)] = some g' := by simp [JG.run, h]
  obtain ⟨hm', hed, hcall⟩ := run_marked tables ord [(t, none)] [] g g' hi.marked hr
  obtain ⟨htk, -, -, hq⟩ := markJoined_fixed _ _ _ _ _ h
  refine ⟨hm', hed.trans hi.edges, hq.trans hi.qjoins, fun x => (hi.weaker x).trans (markJoined_weaker _ _ _ _ _ h x),
    by simpa using hcall, ?_, ?_⟩
  · intro c hc hu f f' hf hf' he s hs
    rw [List.mem_singleton] at hc hs
    subst hs
    have hp : (index c).kind = .primary := by rw [← ((hi.weaker c).trans (markJoined_weaker _ _ _ _ _ h c)).1]; exact hu.2
    rw [← hc]
    exact hk c hp _ _ (hf.1 _ (by simp [hc])) (hf'.1 _ (by simp [hc])) he
  · intro c c' h1 h2 _ _
    rw [List.mem_singleton] at h1 h2
    rw [h1, h2]

theorem mem_joinsBetween {qjoins : Cond} {t : Nat} {ts : List Nat} {c : Cond} (h : joinsBetween qjoins t ts = some c) (j : Col × Col) :
    j ∈ c ↔ j ∈ qjoins ∧ ((j.1.tab = t ∧ j.2.tab ∈ ts) ∨ (j.2.tab = t ∧ j.1.tab ∈ ts)) := by
  unfold joinsBetween at h
  simp only at h
  split at h
  · simp at h
  · simp only [Option.some.injEq] at h
    rw [← h, List.mem_filter]
    simp

theorem inv_step (tables : List Nat) (joins : Cond) (index : Col → Index) (D : Data) (ord : List Nat → List Nat)
    (hord : ∀ l, (ord l).Perm l) (hv : ValidJoins tables joins)
    (hk : KeysHold D index) (ho : OneKey index) (S : List Nat) (g g' : JG) (t : Nat) (hi : Inv tables joins index D S g)
    (hstep : PkFkStep joins S g t) (h : g.markJoined ord t none = some g') : Inv tables joins index D (S ++ [t]) g' := by
  have hr : g.run ord [(t, none)] = some g' := by simp [JG.run, h]
  obtain ⟨hm', hed, hcall⟩ := run_marked tables ord [(t, none)] S g g' hi.marked hr
  simp only [List.map_cons, List.map_nil] at hm'
  obtain ⟨htk, hnodes, -, hq⟩ := markJoined_fixed _ _ _ _ _ h
  have hw := fun x => markJoined_weaker _ _ _ _ _ h x
  have htt : t ∈ tables := by simpa using hcall
  have hsub : ∀ s ∈ S ++ [t], s ∈ tables := by
    intro s hs
    rcases List.mem_append.1 hs with hs | hs
    · exact hi.sub s hs
    · rw [List.mem_singleton] at hs; rw [hs]; exact htt
  obtain ⟨htS, ⟨q, hqS, hqj⟩, hall⟩ := hstep
  -- the graph in which the new table is marked
  let g1 : JG := { g with nodes := Dict.set g.nodes t false }
  have hm1 : Marked tables (S ++ [t]) g1 := by
    refine ⟨?_, ?_⟩
    · rw [← hm'.keys, hnodes]
    · intro x hx; rw [← hm'.flag x hx, hnodes]
  have hjoined1 : ∀ x, x ∈ g1.joined ↔ x ∈ S ++ [t] := mem_joined hm1 hsub
  -- the decisive first partner
  have hkey : ∃ p ∈ S, ∃ x : Col → Index, (∀ y, Weaker (x y) (g'.idx y)) ∧ (∀ y, Weaker (g.idx y) (x y)) ∧
      ((g.isPkFk t p = true ∧ ∀ y, y.tab ∈ S → ¬ UsablePK (x y)) ∨
       (g.isPkFk p t = true ∧ ∀ y, y.tab ∈ S ++ [t] → UsablePK (x y) → y.tab = p)) := by
    unfold JG.markJoined at h
    rw [if_neg (by simpa [Dict.has_iff] using htk)] at h
    simp only at h
    change (if g1.joined.length = 1 then some g1 else _) = some g' at h
    rw [if_neg] at h
    swap
    · intro hlen
      obtain ⟨z, hz⟩ := List.length_eq_one_iff.1 hlen
      have h1 := (hjoined1 q).2 (List.mem_append_left _ hqS)
      have h2 := (hjoined1 t).2 (by simp)
      rw [hz, List.mem_singleton] at h1 h2
      exact htS (by rw [h2, ← h1]; exact hqS)
    have hjb : ∃ c, joinsBetween g1.qjoins t g1.joined = some c := by
      unfold joinsBetween
      simp only
      split
      · rename_i hnil
        rw [List.filter_eq_nil_iff] at hnil
        obtain ⟨j, hj, hcon⟩ := hqj
        have := hnil j (by change j ∈ g.qjoins; rw [hi.qjoins]; exact hj)
        simp only [Bool.or_eq_true, Bool.and_eq_true, decide_eq_true_eq, hjoined1, not_or, not_and] at this
        rcases hcon with ⟨h1, h2⟩ | ⟨h1, h2⟩
        · exact absurd (by rw [h2]; exact List.mem_append_left _ hqS) (this.1 h1)
        · exact absurd (by rw [h1]; exact List.mem_append_left _ hqS) (this.2 h2)
      · exact ⟨_, rfl⟩
    obtain ⟨c, hc⟩ := hjb
    rw [Option.none_or] at h
    change (match joinsBetween g1.qjoins t g1.joined with
      | none => some g1
      | some c => some ((ord (partnerTables t c)).foldl (partnerStep c) (g1, t)).1) = some g' at h
    rw [hc] at h
    simp only [Option.some.injEq] at h
    have hmemc := mem_joinsBetween hc
    change ∀ j, j ∈ c ↔ j ∈ g.qjoins ∧ _ at hmemc
    rw [hi.qjoins] at hmemc
    simp only [hjoined1] at hmemc
    have hpart : ∀ p, p ∈ partnerTables t c ↔ p ∈ S ∧ JoinedBy joins t p := by
      intro p
      unfold partnerTables
      rw [List.mem_dedup, List.mem_filterMap]
      constructor
      · rintro ⟨j, hj, hp⟩
        obtain ⟨hjj, hjt⟩ := (hmemc j).1 hj
        have hd := hv.differ j hjj
        have hns : ∀ x, x ∈ S ++ [t] → x ≠ t → x ∈ S := fun x hx hne =>
          (List.mem_append.1 hx).resolve_right (by simpa using hne)
        split at hp
        · rename_i h1
          simp only [Option.some.injEq] at hp
          subst hp
          have hne : j.2.tab ≠ t := fun h => hd (h1.trans h.symm)
          refine ⟨hns _ ?_ hne, j, hjj, .inl ⟨h1, rfl⟩⟩
          rcases hjt with hjt | hjt
          · exact hjt.2
          · exact absurd hjt.1 hne
        · split at hp
          · rename_i h1 h2
            simp only [Option.some.injEq] at hp
            subst hp
            refine ⟨hns _ ?_ h1, j, hjj, .inr ⟨rfl, h2⟩⟩
            rcases hjt with hjt | hjt
            · exact absurd hjt.1 h1
            · exact hjt.2
          · simp at hp
      · rintro ⟨hpS, j, hjj, hcon⟩
        have hd := hv.differ j hjj
        rcases hcon with ⟨h1, h2⟩ | ⟨h1, h2⟩
        · exact ⟨j, (hmemc j).2 ⟨hjj, .inl ⟨h1, by rw [h2]; exact List.mem_append_left _ hpS⟩⟩, by rw [if_pos h1, h2]⟩
        · refine ⟨j, (hmemc j).2 ⟨hjj, .inr ⟨h2, by rw [h1]; exact List.mem_append_left _ hpS⟩⟩, ?_⟩
          have : j.1.tab ≠ t := fun h => hd (h.trans h2.symm)
          rw [if_neg this, if_pos h2, h1]
    have hpart' : ∀ p, p ∈ ord (partnerTables t c) ↔ p ∈ S ∧ JoinedBy joins t p := fun p => by
      rw [(hord _).mem_iff]; exact hpart p
    cases hl : ord (partnerTables t c) with
    | nil =>
      have := (hpart' q).2 ⟨hqS, hqj⟩
      rw [hl] at this; simp at this
    | cons p l =>
      obtain ⟨hpS, hpj⟩ := (hpart' p).1 (by rw [hl]; simp)
      rw [hl, List.foldl_cons] at h
      have hpt : p ≠ t := fun h => htS (h ▸ hpS)
      refine ⟨p, hpS, (partnerStep c (g1, t) p).1.idx, ?_, ?_, ?_⟩
      · intro y; rw [← h]; exact foldPartner_weaker _ _ _ y
      · intro y; exact partnerStep_weaker c (g1, t) p y
      · have hx := hall p hpS hpj
        have e1 : g1.isPkFk t p = g.isPkFk t p := rfl
        have e2 : g1.isPkFk p t = g.isPkFk p t := rfl
        cases hA : g.isPkFk t p with
        | true =>
          left
          refine ⟨rfl, ?_⟩
          have hB : g.isPkFk p t = false := by
            rw [Bool.eq_false_iff]; exact hx.1 hA
          intro y hy hu
          have hstep : (partnerStep c (g1, t) p).1.idx = c.foldl (invalidatePair t true false) g1.idx := by
            unfold partnerStep
            simp only [e1, e2, hA, hB, Bool.and_false, Bool.false_eq_true, if_false, if_true]
          rw [hstep] at hu
          have hub : UsablePK (g.idx y) := usable_of_weaker (foldPair_weaker t true false c g1.idx y) hu
          obtain ⟨j, hjj, hcon, -, hpk⟩ := (isPkFk_spec hi.edges t p).1 hA
          have hd := hv.differ j hjj
          have hside : side p j = if j.1.tab = t then j.2 else j.1 := by
            unfold side
            rcases hcon with ⟨h1, h2⟩ | ⟨h1, h2⟩
            · rw [if_pos h1, if_neg (by rw [h1]; exact fun h => hpt h.symm)]
            · rw [if_pos h1, if_neg (by rw [h1]; exact hpt)]
          have hst : (side p j).tab = p := by
            unfold side
            rcases hcon with ⟨h1, h2⟩ | ⟨h1, h2⟩
            · rw [if_neg (by rw [h1]; exact fun h => hpt h.symm), h2]
            · rw [if_pos h1, h1]
          have htab : y.tab = (side p j).tab := hi.single y (side p j) hy (by rw [hst]; exact hpS) hub hpk
          have heq : y = side p j := ho y (side p j) (by rw [← (hi.weaker y).1]; exact hub.2)
            (by rw [← (hi.weaker _).1]; exact hpk.2) htab
          have hjc : j ∈ c := by
            rw [hmemc]
            refine ⟨hjj, ?_⟩
            rcases hcon with ⟨h1, h2⟩ | ⟨h1, h2⟩
            · exact .inl ⟨h1, by rw [h2]; exact List.mem_append_left _ hpS⟩
            · exact .inr ⟨h2, by rw [h1]; exact List.mem_append_left _ hpS⟩
          have hinv := foldPair_invalid t false c g1.idx j hjc
          rw [← hside, ← heq] at hinv
          rw [hu.1] at hinv
          simp at hinv
        | false =>
          right
          have hB : g.isPkFk p t = true := by
            by_contra hB
            have := hx.2 hB
            rw [hA] at this; simp at this
          refine ⟨hB, ?_⟩
          intro y hy hu
          by_contra hne
          unfold partnerStep at hu
          simp only [e1, e2, hA, hB, Bool.false_and, Bool.false_eq_true, if_false] at hu
          have hmem : y.tab ∈ (g1.nodes.filter fun e => !e.2 && decide (e.1 ≠ p)).map (·.1) := by
            rw [List.mem_map]
            refine ⟨(y.tab, false), ?_, rfl⟩
            rw [List.mem_filter]
            refine ⟨(mem_nodes_marked hm1 hv.nodup y.tab false).2 ⟨hsub _ hy, by rw [decide_eq_false (not_not.2 hy)]⟩, by simpa using hne⟩
          have := foldTable_invalid _ (c.foldl (invalidatePair t false true) g1.idx) y hmem
          rw [hu.1] at this
          simp at this
  obtain ⟨p, hpS, x, hx1, hx2, hcase⟩ := hkey
  have hpt : p ≠ t := fun h => htS (h ▸ hpS)
  have hSsub : ∀ s ∈ S, s ∈ S ++ [t] := fun s hs => List.mem_append_left _ hs
  refine ⟨hm', hed.trans hi.edges, hq.trans hi.qjoins, fun x => (hi.weaker x).trans (hw x), hsub, ?_, ?_⟩
  · intro c hc hu f f' hf hf' he
    have hux : UsablePK (x c) := usable_of_weaker (hx1 c) hu
    have hub : UsablePK (g.idx c) := usable_of_weaker (hx2 c) hux
    have hprim : (index c).kind = .primary := by rw [← (hi.weaker c).1]; exact hub.2
    have hfS := inResult_mono hSsub hf
    have hfS' := inResult_mono hSsub hf'
    -- the two sides of a predicate between `t` and `p`
    have hsides : ∀ j ∈ joins, Connects t p j → ∀ f, InResult D joins (S ++ [t]) f → D.val (side t j) (f t) = D.val (side p j) (f p) := by
      intro j hj hcon f hf
      rcases hcon with ⟨h1, h2⟩ | ⟨h1, h2⟩
      · have := hf.2 j hj (by rw [h1]; simp) (by rw [h2]; exact hSsub p hpS)
        rw [h1, h2] at this
        rw [side, if_pos h1, side, if_neg (by rw [h1]; exact fun h => hpt h.symm)]
        exact this
      · have := hf.2 j hj (by rw [h1]; exact hSsub p hpS) (by rw [h2]; simp)
        rw [h1, h2] at this
        rw [side, if_neg (by rw [h1]; exact hpt), side, if_pos h1]
        exact this.symm
    rcases hcase with ⟨hA, hnone⟩ | ⟨hB, honly⟩
    · -- the new table has the foreign key
      have hct : c.tab = t := by
        rcases List.mem_append.1 hc with h | h
        · exact absurd hux (hnone c h)
        · simpa using h
      rw [hct] at he
      have ht : f t = f' t := by
        have h1 := hf.1 t (by simp)
        have h2 := hf'.1 t (by simp)
        refine hk c hprim _ _ ?_ ?_ he
        · rw [hct]; exact h1
        · rw [hct]; exact h2
      obtain ⟨j, hj, hcon, -, hpk⟩ := (isPkFk_spec hi.edges t p).1 hA
      have hst : (side p j).tab = p := by
        unfold side
        rcases hcon with ⟨h1, h2⟩ | ⟨h1, h2⟩
        · rw [if_neg (by rw [h1]; exact fun h => hpt h.symm), h2]
        · rw [if_pos h1, h1]
      have hpv : D.val (side p j) (f (side p j).tab) = D.val (side p j) (f' (side p j).tab) := by
        rw [hst, ← hsides j hj hcon f hf, ← hsides j hj hcon f' hf', ht]
      have hS := hi.sound (side p j) (by rw [hst]; exact hpS) hpk f f' hfS hfS' hpv
      intro s hs
      rcases List.mem_append.1 hs with hs | hs
      · exact hS s hs
      · rw [List.mem_singleton] at hs; rw [hs]; exact ht
    · -- the new table has the primary key
      have hcp : c.tab = p := honly c hc hux
      have hS := hi.sound c (by rw [hcp]; exact hpS) hub f f' hfS hfS' he
      obtain ⟨j, hj, hcon, -, hpk⟩ := (isPkFk_spec hi.edges p t).1 hB
      have hcon' : Connects t p j := (connects_symm _ _ _).1 hcon
      have hst : (side t j).tab = t := by
        unfold side
        rcases hcon' with ⟨h1, h2⟩ | ⟨h1, h2⟩
        · rw [if_pos h1, h1]
        · rw [if_neg (by rw [h1]; exact hpt), h2]
      have htv : D.val (side t j) (f t) = D.val (side t j) (f' t) := by
        rw [hsides j hj hcon' f hf, hsides j hj hcon' f' hf', hS p hpS]
      have ht : f t = f' t := by
        refine hk (side t j) (by rw [← (hi.weaker _).1]; exact hpk.2) _ _ ?_ ?_ htv
        · rw [hst]; exact hf.1 t (by simp)
        · rw [hst]; exact hf'.1 t (by simp)
      intro s hs
      rcases List.mem_append.1 hs with hs | hs
      · exact hS s hs
      · rw [List.mem_singleton] at hs; rw [hs]; exact ht
  · intro c c' hc hc' hu hu'
    have hux : UsablePK (x c) := usable_of_weaker (hx1 c) hu
    have hux' : UsablePK (x c') := usable_of_weaker (hx1 c') hu'
    rcases hcase with ⟨-, hnone⟩ | ⟨-, honly⟩
    · have : ∀ c : Col, c.tab ∈ S ++ [t] → UsablePK (x c) → c.tab = t := by
        intro c hc hu
        rcases List.mem_append.1 hc with h | h
        · exact absurd hu (hnone c h)
        · simpa using h
      rw [this c hc hux, this c' hc' hux']
    · rw [honly c hc hux, honly c' hc' hux']

theorem inv_run (tables : List Nat) (joins : Cond) (index : Col → Index) (D : Data) (ord : List Nat → List Nat)
    (hord : ∀ l, (ord l).Perm l) (hv : ValidJoins tables joins) (hk : KeysHold D index) (ho : OneKey index)
    (calls S : List Nat) (g g' : JG) (hi : Inv tables joins index D S g) (hh : PkFkHistory joins ord S g calls)
    (h : g.run ord (calls.map fun t => (t, none)) = some g') : Inv tables joins index D (S ++ calls) g' := by
  induction calls generalizing S g with
  | nil =>
    simp only [JG.run, List.map_nil, List.foldlM_nil, Option.pure_def, Option.some.injEq] at h
    subst h
    simpa using hi
  | cons t calls ih =>
    rw [List.map_cons, run_cons] at h
    obtain ⟨g1, h1, h2⟩ := Option.bind_eq_some_iff.1 h
    have hi1 : Inv tables joins index D (S ++ [t]) g1 := by
      rcases hh.1 with rfl | hs
      · exact inv_first tables joins index D ord hk g g1 t hi hv.nodup h1
      · exact inv_step tables joins index D ord hord hv hk ho S g g1 t hi hs h1
    have := ih (S ++ [t]) g1 hi1 (hh.2 g1 h1) h2
    simpa using this

/-- **C103** (partial: only for primary key/foreign key joins, one primary key column per table, no predicates from
equivalence classes): a primary key index of a consumed table that the join graph still considers valid is a key of the
intermediate result: each of its values appears at most once. -/
theorem C103_sound_partial (tables : List Nat) (joins : Cond) (index : Col → Index) (D : Data) (ord : List Nat → List Nat)
    (hord : ∀ l, (ord l).Perm l) (hv : ValidJoins tables joins) (hk : KeysHold D index) (ho : OneKey index)
    (calls : List Nat) (hh : PkFkHistory joins ord [] (JG.build tables joins [] index) calls) (g : JG)
    (hg : Reached tables joins [] index ord (calls.map fun t => (t, none)) g) (c : Col) (hc : c.tab ∈ calls)
    (hu : UsablePK (g.idx c)) : UniqueIn D joins calls c := by
  have hi : Inv tables joins index D [] (JG.build tables joins [] index) :=
    ⟨marked_build tables joins [] index, rfl, rfl, fun x => .rfl' _, by simp, by simp, by simp⟩
  have := inv_run tables joins index D ord hord hv hk ho calls [] _ g hi hh hg
  exact this.sound c (by simpa using hc) hu

/-! ### Free tables -/

theorem invalidatePair_other (t : Nat) (a b : Bool) (idx : Col → Index) (j : Col × Col) (x : Col) (h1 : x ≠ j.1) (h2 : x ≠ j.2) :
    invalidatePair t a b idx j x = idx x := by
  unfold invalidatePair invalidateCol
  by_cases h : j.1.tab = t <;> cases a <;> cases b <;> simp [h, h1, h2]

theorem foldPair_other (t : Nat) (a b : Bool) (c : Cond) (idx : Col → Index) (x : Col) (h : ∀ j ∈ c, x ≠ j.1 ∧ x ≠ j.2) :
    c.foldl (invalidatePair t a b) idx x = idx x := by
  induction c generalizing idx with
  | nil => rfl
  | cons j c ih =>
    rw [List.foldl_cons, ih _ fun k hk => h k (by simp [hk])]
    exact invalidatePair_other t a b idx j x (h j (by simp)).1 (h j (by simp)).2

theorem foldTable_other (l : List (Nat × Bool)) (idx : Col → Index) (x : Col) (h : ∀ e ∈ l, e.1 ≠ x.tab) :
    l.foldl (fun i e => invalidateTable i e.1) idx x = idx x := by
  induction l generalizing idx with
  | nil => rfl
  | cons e l ih =>
    rw [List.foldl_cons, ih _ fun k hk => h k (by simp [hk])]
    have := h e (by simp)
    simp [invalidateTable, Ne.symm this]

theorem foldPartner_other (c : Cond) (l : List Nat) (s : JG × Nat) (x : Col) (h : ∀ j ∈ c, x ≠ j.1 ∧ x ≠ j.2)
    (hn : ∀ e ∈ s.1.nodes, e.1 = x.tab → e.2 = true) : (l.foldl (partnerStep c) s).1.idx x = s.1.idx x := by
  induction l generalizing s with
  | nil => rfl
  | cons p l ih =>
    rw [List.foldl_cons, ih]
    · unfold partnerStep
      simp only
      split
      · rfl
      · split
        · exact foldPair_other _ _ _ _ _ _ h
        · simp only
          rw [foldTable_other]
          · exact foldPair_other _ _ _ _ _ _ h
          · intro e he hx
            have he' := List.mem_filter.1 he
            have := hn e he'.1 hx
            simp [this] at he'
    · rw [(partnerStep_fixed c s p).1]; exact hn

/-- **C103**: the indexes of free tables are the ones of the schema, as long as the predicates given to `mark_joined` only
mention consumed tables. -/
theorem C103_free (tables : List Nat) (joins extra : Cond) (index : Col → Index) (ord : List Nat → List Nat)
    (calls : List (Nat × Option Cond)) (hn : tables.Nodup) (g : JG) (hg : Reached tables joins extra index ord calls g) (x : Col)
    (hx : x.tab ∉ calls.map (·.1))
    (hc : ∀ e ∈ calls, ∀ c, e.2 = some c → ∀ j ∈ c, j.1.tab ∈ calls.map (·.1) ∧ j.2.tab ∈ calls.map (·.1)) :
    g.idx x = index x := by
  have key : ∀ (l : List (Nat × Option Cond)) (S : List Nat) (g0 : JG), Marked tables S g0 → (∀ t ∈ S, t ∈ tables) → x.tab ∉ S →
      (∀ e ∈ l, e ∈ calls) → g0.run ord l = some g → g.idx x = g0.idx x := by
    intro l
    induction l with
    | nil =>
      intro S g0 _ _ _ _ h
      simp only [JG.run, List.foldlM_nil, Option.pure_def, Option.some.injEq] at h
      rw [h]
    | cons e l ih =>
      intro S g0 hm hs hxS hl h
      rw [run_cons] at h
      obtain ⟨g1, h1, h2⟩ := Option.bind_eq_some_iff.1 h
      have hr : g0.run ord [e] = some g1 := by simp [JG.run, h1]
      obtain ⟨hm1, -, hcall⟩ := run_marked tables ord [e] S g0 g1 hm hr
      simp only [List.map_cons, List.map_nil] at hm1
      have hxe : x.tab ≠ e.1 := fun h => hx (h ▸ List.mem_map.2 ⟨e, hl e (by simp), rfl⟩)
      have hs1 : ∀ t ∈ S ++ [e.1], t ∈ tables := by
        intro t ht
        rcases List.mem_append.1 ht with ht | ht
        · exact hs t ht
        · rw [List.mem_singleton] at ht; rw [ht]; exact hcall e (by simp)
      have hx1 : x.tab ∉ S ++ [e.1] := by simp [hxS, hxe]
      rw [ih (S ++ [e.1]) g1 hm1 hs1 hx1 (fun k hk => hl k (by simp [hk])) h2]
      obtain ⟨-, hnodes, -, -⟩ := markJoined_fixed _ _ _ _ _ h1
      have hfree : ∀ d ∈ g1.nodes, d.1 = x.tab → d.2 = true := by
        intro d hd hdx
        have := (mem_nodes_marked hm1 hn d.1 d.2).1 hd
        rw [this.2, hdx]
        simpa using hx1
      unfold JG.markJoined at h1
      split at h1
      · simp at h1
      · simp only at h1
        split at h1
        · simp only [Option.some.injEq] at h1; subst h1; rfl
        · split at h1
          · simp only [Option.some.injEq] at h1; subst h1; rfl
          · rename_i c hcond
            simp only [Option.some.injEq] at h1
            subst h1
            refine foldPartner_other _ _ _ x ?_ (by rw [hnodes] at hfree; exact hfree)
            intro j hj
            have hin : j.1.tab ∈ S ++ [e.1] ∧ j.2.tab ∈ S ++ [e.1] ∨
                (j.1.tab ∈ calls.map (·.1) ∧ j.2.tab ∈ calls.map (·.1)) := by
              cases he : e.2 with
              | some c' =>
                rw [he] at hcond
                simp only [Option.some_or, Option.some.injEq] at hcond
                exact .inr (hc e (hl e (by simp)) c' he j (by rw [hcond]; exact hj))
              | none =>
                rw [he, Option.none_or] at hcond
                have hmem := (mem_joinsBetween hcond j).1 hj
                have hjo : ∀ t, t ∈ JG.joined { g0 with nodes := Dict.set g0.nodes e.1 false } ↔ t ∈ S ++ [e.1] :=
                  mem_joined (tables := tables) (S := S ++ [e.1]) ⟨by rw [← hm1.keys, hnodes], fun y hy => by
                    rw [← hm1.flag y hy, hnodes]⟩ hs1
                rw [hjo, hjo] at hmem
                rcases hmem.2 with ⟨h3, h4⟩ | ⟨h3, h4⟩
                · exact .inl ⟨by rw [h3]; simp, h4⟩
                · exact .inl ⟨h4, by rw [h3]; simp⟩
            constructor
            · rintro rfl
              rcases hin with ⟨h, -⟩ | ⟨h, -⟩
              · exact hx1 h
              · exact hx h
            · rintro rfl
              rcases hin with ⟨-, h⟩ | ⟨-, h⟩
              · exact hx1 h
              · exact hx h
  exact key calls [] _ (marked_build tables joins extra index) (by simp) (by simp) (fun e he => he) hg

/-! ### n:m joins -/

theorem foldPair_invalid_both (t : Nat) (c : Cond) (idx : Col → Index) (j : Col × Col) (hj : j ∈ c) :
    (c.foldl (invalidatePair t false false) idx j.1).invalid = true ∧ (c.foldl (invalidatePair t false false) idx j.2).invalid = true := by
  induction c generalizing idx with
  | nil => simp at hj
  | cons k c ih =>
    rcases List.mem_cons.1 hj with rfl | hj
    · rw [List.foldl_cons]
      constructor
      · refine (foldPair_weaker t false false c _ _).2 ?_
        unfold invalidatePair invalidateCol
        by_cases h : j.1.tab = t <;> simp [h, Index.invalidate]
      · refine (foldPair_weaker t false false c _ _).2 ?_
        unfold invalidatePair invalidateCol
        by_cases h : j.1.tab = t <;> simp [h, Index.invalidate]
    · rw [List.foldl_cons]
      exact ih _ hj

/-- **C103** (partial: the explicit predicates are all between the new table and one consumed table, and other indexes of that
table remain valid, see `C103_n_m_violated`): after an n:m join, the join columns of both tables and all indexes of all
consumed tables but the join partner are invalid. -/
theorem C103_n_m_partial (tables : List Nat) (joins extra : Cond) (index : Col → Index) (ord : List Nat → List Nat)
    (hord : ∀ l, (ord l).Perm l) (calls : List (Nat × Option Cond)) (hn : tables.Nodup) (g g' : JG)
    (hg : Reached tables joins extra index ord calls g) (t p : Nat) (c : Cond) (hne : c ≠ []) (hc : ∀ j ∈ c, Connects t p j)
    (ht : t ∉ calls.map (·.1)) (hp : p ∈ calls.map (·.1)) (h1 : g.isPkFk t p = false) (h2 : g.isPkFk p t = false)
    (h : g.markJoined ord t (some c) = some g') :
    (∀ j ∈ c, (g'.idx j.1).invalid = true ∧ (g'.idx j.2).invalid = true) ∧
    ∀ x : Col, (x.tab = t ∨ x.tab ∈ calls.map (·.1)) → x.tab ≠ p → (g'.idx x).invalid = true := by
  obtain ⟨hm, hed, hs⟩ := run_marked _ _ _ _ _ _ (marked_build tables joins extra index) hg
  rw [List.nil_append] at hm
  have hr : g.run ord [(t, some c)] = some g' := by simp [JG.run, h]
  obtain ⟨hm', -, hcall⟩ := run_marked tables ord [(t, some c)] _ g g' hm hr
  simp only [List.map_cons, List.map_nil] at hm'
  obtain ⟨htk, hnodes, -, -⟩ := markJoined_fixed _ _ _ _ _ h
  have hpt : p ≠ t := fun h => ht (h ▸ hp)
  have hsub : ∀ s ∈ calls.map (·.1) ++ [t], s ∈ tables := by
    intro s hs'
    rcases List.mem_append.1 hs' with hs' | hs'
    · obtain ⟨e, he, rfl⟩ := List.mem_map.1 hs'; exact hs e he
    · rw [List.mem_singleton] at hs'; rw [hs']; simpa using hcall
  let g1 : JG := { g with nodes := Dict.set g.nodes t false }
  have hm1 : Marked tables (calls.map (·.1) ++ [t]) g1 := by
    refine ⟨by rw [← hm'.keys, hnodes], fun x hx => by rw [← hm'.flag x hx, hnodes]⟩
  have hjoined1 : ∀ x, x ∈ g1.joined ↔ x ∈ calls.map (·.1) ++ [t] := mem_joined hm1 hsub
  have hpart : partnerTables t c = [p] := by
    have hmem : ∀ q, q ∈ partnerTables t c ↔ q = p := by
      intro q
      unfold partnerTables
      rw [List.mem_dedup, List.mem_filterMap]
      constructor
      · rintro ⟨j, hj, hq⟩
        rcases hc j hj with ⟨h3, h4⟩ | ⟨h3, h4⟩
        · rw [if_pos h3] at hq; simp only [Option.some.injEq] at hq; rw [← hq, h4]
        · rw [if_neg (by rw [h3]; exact hpt), if_pos h4] at hq; simp only [Option.some.injEq] at hq; rw [← hq, h3]
      · rintro rfl
        obtain ⟨j, hj⟩ := List.exists_mem_of_ne_nil _ hne
        refine ⟨j, hj, ?_⟩
        rcases hc j hj with ⟨h3, h4⟩ | ⟨h3, h4⟩
        · rw [if_pos h3, h4]
        · rw [if_neg (by rw [h3]; exact hpt), if_pos h4, h3]
    have hnd : (partnerTables t c).Nodup := List.nodup_dedup _
    match hl : partnerTables t c with
    | [] => have := (hmem p).2 rfl; rw [hl] at this; simp at this
    | [q] => have := (hmem q).1 (by rw [hl]; simp); rw [this]
    | q :: r :: l =>
      have e1 := (hmem q).1 (by rw [hl]; simp)
      have e2 := (hmem r).1 (by rw [hl]; simp)
      rw [hl, e1, e2] at hnd
      simp at hnd
  have hordp : ord [p] = [p] := List.perm_singleton.1 (hord [p])
  unfold JG.markJoined at h
  rw [if_neg (by simpa [Dict.has_iff] using htk)] at h
  simp only [Option.some_or] at h
  change (if g1.joined.length = 1 then some g1 else some ((ord (partnerTables t c)).foldl (partnerStep c) (g1, t)).1) = some g' at h
  rw [if_neg, hpart, hordp] at h
  swap
  · intro hlen
    obtain ⟨z, hz⟩ := List.length_eq_one_iff.1 hlen
    have h3 := (hjoined1 p).2 (List.mem_append_left _ hp)
    have h4 := (hjoined1 t).2 (by simp)
    rw [hz, List.mem_singleton] at h3 h4
    exact hpt (h3.trans h4.symm)
  simp only [List.foldl_cons, List.foldl_nil, Option.some.injEq] at h
  have e1 : g1.isPkFk t p = false := h1
  have e2 : g1.isPkFk p t = false := h2
  have hidx : g'.idx = (g1.nodes.filter fun e => !e.2 && decide (e.1 ≠ p)).foldl (fun i e => invalidateTable i e.1)
      (c.foldl (invalidatePair t false false) g1.idx) := by
    rw [← h]
    unfold partnerStep
    simp only [e1, e2, Bool.and_false, Bool.false_eq_true, if_false]
  rw [hidx]
  constructor
  · intro j hj
    have := foldPair_invalid_both t c g1.idx j hj
    exact ⟨(foldTable_weaker _ _ _).2 this.1, (foldTable_weaker _ _ _).2 this.2⟩
  · intro x hx hxp
    refine foldTable_invalid _ _ x ?_
    have hx' : x.tab ∈ calls.map (·.1) ++ [t] := by
      rcases hx with hx | hx
      · rw [hx]; simp
      · exact List.mem_append_left _ hx
    rw [List.mem_map]
    refine ⟨(x.tab, false), ?_, rfl⟩
    rw [List.mem_filter]
    exact ⟨(mem_nodes_marked hm1 hn x.tab false).2 ⟨hsub _ hx', by rw [decide_eq_false (not_not.2 hx')]⟩, by simpa using hxp⟩

/-! ### Examples -/

example : ((JG.build [1, 2, 3] ex_joins [] ex_index).run idOrd [(1, none)]).map (fun g => (g.isPkFk 2 1, g.isPkFk 1 2,
    (g.markJoined idOrd 2 (some [(col 1 1, col 2 1)])).isSome)) = some (false, false, true) := by decide +kernel

example : ∃ g, Reached [1, 2, 3] ex_joins [] ex_index idOrd [(1, none), (2, some [(col 1 1, col 2 1)])] g ∧ g.idx (col 3 0) = pk := by
  obtain ⟨g, hg⟩ := (C30_history [1, 2, 3] ex_joins [] ex_index idOrd [(1, none), (2, some [(col 1 1, col 2 1)])] (by decide)).1.2
    (by decide)
  refine ⟨g, hg, C103_free [1, 2, 3] ex_joins [] ex_index idOrd _ (by decide) g hg (col 3 0) (by decide) ?_⟩
  intro e he c hc j hj
  simp only [List.mem_cons, List.not_mem_nil, or_false] at he
  rcases he with rfl | rfl
  · simp at hc
  · simp only [Option.some.injEq] at hc
    subst hc
    simp only [List.mem_singleton] at hj
    subst hj
    decide

/-- `t1.a = t2.id AND t3.b = t1.id`: table 1 refers to table 2, table 3 refers to table 1. -/
def ex_pkfk : Cond := [(col 1 5, col 2 0), (col 3 5, col 1 0)]

/-- Keys are the row numbers, all other columns are 0. -/
def ex_data : Data := ⟨fun t r => t = 3 ∨ r = 0, fun c r => if c.name = 0 then r else 0⟩

theorem ex_keys : KeysHold ex_data ex_index := by
  intro c hc r r' _ _ h
  have : c.name = 0 := by
    by_contra hn
    simp only [ex_index, hn, if_false] at hc
    split at hc <;> simp [sec, noIx] at hc
  simpa [ex_data, this] using h

theorem ex_one : OneKey ex_index := by
  have : ∀ c, (ex_index c).kind = .primary → c.name = 0 := by
    intro c hc
    by_contra hn
    simp only [ex_index, hn, if_false] at hc
    split at hc <;> simp [sec, noIx] at hc
  intro c c' h h' ht
  obtain ⟨t, n⟩ := c
  obtain ⟨t', n'⟩ := c'
  have h1 := this _ h
  have h2 := this _ h'
  simp only at h1 h2 ht
  simp [h1, h2, ht]

theorem history_cons {joins : Cond} {ord : List Nat → List Nat} {S : List Nat} {g : JG} {t : Nat} {calls : List Nat} (g1 : JG)
    (h1 : g.markJoined ord t none = some g1) (hs : S = [] ∨ PkFkStep joins S g t) (hr : PkFkHistory joins ord (S ++ [t]) g1 calls) :
    PkFkHistory joins ord S g (t :: calls) :=
  ⟨hs, fun g' hg => by rw [h1] at hg; simp only [Option.some.injEq] at hg; rw [← hg]; exact hr⟩

/-- Decides whether the tables `S` are joined with `t` by primary key/foreign key joins. -/
theorem step_of {joins : Cond} {S : List Nat} {g : JG} {t : Nat} (h1 : t ∉ S) (h2 : ∃ p ∈ S, JoinedBy joins t p)
    (h3 : ∀ p ∈ S, g.isPkFk t p = !g.isPkFk p t) : PkFkStep joins S g t :=
  ⟨h1, h2, fun p hp _ => by rw [h3 p hp]; cases g.isPkFk p t <;> simp⟩

theorem step_of' {joins : Cond} {S : List Nat} {g : JG} {t : Nat} (h1 : t ∉ S) (h2 : ∃ p ∈ S, JoinedBy joins t p)
    (h3 : ∀ p ∈ S, (∃ j ∈ joins, Connects t p j) → g.isPkFk t p = !g.isPkFk p t) : PkFkStep joins S g t :=
  ⟨h1, h2, fun p hp hj => by rw [h3 p hp hj]; cases g.isPkFk p t <;> simp⟩

/-- A history of primary key/foreign key joins: table 2 is joined to its foreign key table 1, then table 3 refers to table 1. -/
theorem ex_history : PkFkHistory ex_pkfk idOrd [] (JG.build [1, 2, 3] ex_pkfk [] ex_index) [1, 2, 3] := by
  have get : ∀ (g : JG) (t : Nat), (g.markJoined idOrd t none).isSome = true → ∃ g1, g.markJoined idOrd t none = some g1 :=
    fun g t h => Option.isSome_iff_exists.1 h
  refine ⟨.inl rfl, fun g1 h1 => ?_⟩
  have p1 : ((JG.build [1, 2, 3] ex_pkfk [] ex_index).markJoined idOrd 1 none).map (fun g => (g.isPkFk 2 1, g.isPkFk 1 2)) =
      some (false, true) := by decide +kernel
  rw [h1] at p1
  simp only [Option.map_some, Option.some.injEq, Prod.mk.injEq] at p1
  refine ⟨.inr (step_of (by decide) ⟨1, by decide, (col 1 5, col 2 0), by decide, by decide⟩ ?_), fun g2 h2 => ?_⟩
  · intro p hp
    have : p = 1 := by simpa using hp
    rw [this, p1.1, p1.2]; rfl
  have p2 : (((JG.build [1, 2, 3] ex_pkfk [] ex_index).markJoined idOrd 1 none).bind fun g => (g.markJoined idOrd 2 none)).map
      (fun g => (g.isPkFk 3 1, g.isPkFk 1 3)) = some (true, false) := by decide +kernel
  rw [h1] at p2
  simp only [Option.bind_some, h2, Option.map_some, Option.some.injEq, Prod.mk.injEq] at p2
  refine ⟨.inr (step_of' (by decide) ⟨1, by decide, (col 3 5, col 1 0), by decide, by decide⟩ ?_), fun g3 h3 => trivial⟩
  rintro p hp ⟨j, hj, hc⟩
  have hp' : p = 1 ∨ p = 2 := by simpa using hp
  rcases hp' with rfl | rfl
  · rw [p2.1, p2.2]; rfl
  · exfalso
    revert hc
    revert j
    decide

example : ∃ g, Reached [1, 2, 3] ex_pkfk [] ex_index idOrd ([1, 2, 3].map fun t => (t, none)) g ∧ UsablePK (g.idx (col 3 0)) ∧
    UniqueIn ex_data ex_pkfk [1, 2, 3] (col 3 0) := by
  have h : ((JG.build [1, 2, 3] ex_pkfk [] ex_index).run idOrd ([1, 2, 3].map fun t => (t, none))).map (fun g => g.idx (col 3 0)) =
      some pk := by decide +kernel
  obtain ⟨g, hg, hx⟩ := Option.map_eq_some_iff.1 h
  have hu : UsablePK (g.idx (col 3 0)) := by rw [hx]; exact ⟨rfl, rfl⟩
  exact ⟨g, hg, hu, C103_sound_partial [1, 2, 3] ex_pkfk ex_index ex_data idOrd (fun l => .refl _)
    ⟨by decide, by decide, by decide⟩ ex_keys ex_one _ ex_history g hg (col 3 0) (by decide) hu⟩

/-! ### Violations -/

/-- Part of a violation: the index is still considered to be a valid primary key, but is no key of the intermediate result. -/
theorem violation (tables : List Nat) (joins : Cond) (calls : List Nat) (c : Col) (f f' : Nat → Nat) (t : Nat)
    (h : ((JG.build tables joins [] ex_index).run idOrd (calls.map fun t => (t, none))).map (fun g => g.idx c) = some pk)
    (hf : InResult ex_data joins calls f) (hf' : InResult ex_data joins calls f')
    (he : ex_data.val c (f c.tab) = ex_data.val c (f' c.tab)) (ht : t ∈ calls) (hne : f t ≠ f' t) :
    ∃ g, Reached tables joins [] ex_index idOrd (calls.map fun t => (t, none)) g ∧ UsablePK (g.idx c) ∧
      ¬ UniqueIn ex_data joins calls c := by
  obtain ⟨g, hg, hx⟩ := Option.map_eq_some_iff.1 h
  exact ⟨g, hg, by rw [hx]; exact ⟨rfl, rfl⟩, fun hu => hne (hu f f' hf hf' he t ht)⟩

/-- **C103** (violated by n:m joins): the primary key index of a table remains valid after an n:m join with a second table,
although the join repeats the rows of the first table. -/
theorem C103_n_m_violated : ∃ (tables : List Nat) (joins : Cond) (D : Data) (calls : List Nat) (c : Col),
    ValidJoins tables joins ∧ KeysHold D ex_index ∧ c.tab ∈ calls ∧
    ∃ g, Reached tables joins [] ex_index idOrd (calls.map fun t => (t, none)) g ∧ UsablePK (g.idx c) ∧ ¬ UniqueIn D joins calls c :=
  ⟨[1, 3], [(col 1 1, col 3 1)], ex_data, [1, 3], col 1 0, ⟨by decide, by decide, by decide⟩, ex_keys, by decide,
    violation _ _ _ _ (fun _ => 0) (fun t => if t = 3 then 1 else 0) 3 (by decide +kernel)
      ⟨by simp [ex_data], by simp [ex_data, col]⟩ ⟨by simp [ex_data], by simp [ex_data, col]⟩ (by simp [ex_data, col]) (by decide)
      (by decide)⟩

/-- **C103** (violated by joins of two primary keys): both keys remain valid after such a join. If a foreign key is then joined
with one of them, the other one remains valid although its values are repeated. -/
theorem C103_pk_pk_violated : ∃ (tables : List Nat) (joins : Cond) (D : Data) (calls : List Nat) (c : Col),
    ValidJoins tables joins ∧ KeysHold D ex_index ∧ c.tab ∈ calls ∧
    ∃ g, Reached tables joins [] ex_index idOrd (calls.map fun t => (t, none)) g ∧ UsablePK (g.idx c) ∧ ¬ UniqueIn D joins calls c :=
  ⟨[1, 2, 3], [(col 1 0, col 2 0), (col 3 5, col 1 0)], ex_data, [1, 2, 3], col 2 0, ⟨by decide, by decide, by decide⟩, ex_keys,
    by decide,
    violation _ _ _ _ (fun _ => 0) (fun t => if t = 3 then 1 else 0) 3 (by decide +kernel)
      ⟨by simp [ex_data], by simp [ex_data, col]⟩ ⟨by simp [ex_data], by simp [ex_data, col]⟩ (by simp [ex_data, col]) (by decide)
      (by decide)⟩

/-- **C103** (violated by cross products): no index is invalidated if the new table is not joined with the others. -/
theorem C103_cross_violated : ∃ (tables : List Nat) (joins : Cond) (D : Data) (calls : List Nat) (c : Col),
    ValidJoins tables joins ∧ KeysHold D ex_index ∧ c.tab ∈ calls ∧
    ∃ g, Reached tables joins [] ex_index idOrd (calls.map fun t => (t, none)) g ∧ UsablePK (g.idx c) ∧ ¬ UniqueIn D joins calls c :=
  ⟨[1, 3], [], ex_data, [1, 3], col 1 0, ⟨by decide, by decide, by decide⟩, ex_keys, by decide,
    violation _ _ _ _ (fun _ => 0) (fun t => if t = 3 then 1 else 0) 3 (by decide +kernel)
      ⟨by simp [ex_data], by simp [ex_data, col]⟩ ⟨by simp [ex_data], by simp [ex_data, col]⟩ (by simp [ex_data, col]) (by decide)
      (by decide)⟩

end PB.JoinGraphIndexProps
