import Verif.Model.DynProg
import Verif.Props.Collections
import Verif.Props.QueryPreds
import Mathlib.Data.Finset.Lattice.Fold
import Mathlib.Tactic.Linarith

/-! Properties of the dynamic programming enumerator. -/

set_option linter.unusedSimpArgs false
set_option linter.unusedVariables false
set_option linter.unusedSectionVars false
set_option linter.unnecessarySimpa false

namespace PB.DynProgProps
open PB PB.Hints PB.DynProg PB.QueryPredsProps PB.Qal PB.PredProps

/-! ### Specification -/

/-- The tables that a plan scans, from left to right. -/
def leaves : Path → List Nat
  | .scan _ t _ => [t]
  | .join _ o i => leaves o ++ leaves i

/-- A supported way to scan table `t`: index scans need an index on a column that the query uses, index-only scans need in
addition that no other column is used. -/
def ScanOk (ops : List ScanOp) (cols : Nat → List (Nat × List Nat)) (t : Nat) (op : ScanOp) (idx : Option (Nat × Nat)) : Prop :=
  op ∈ ops ∧ match op with
    | .seqScan => idx = none
    | .bitmapScan => idx = none ∧ cols t ≠ []
    | .idxScan => ∃ c is i, idx = some (c, i) ∧ (c, is) ∈ cols t ∧ i ∈ is
    | .idxOnlyScan => ∃ c is i, cols t = [(c, is)] ∧ idx = some (c, i) ∧ i ∈ is

/-- A plan in the search space: supported scans, supported joins other than index nested-loop joins, inputs without common tables
and a join predicate between the inputs (no cross product). -/
def Plan (scanOps : List ScanOp) (cols : Nat → List (Nat × List Nat)) (joinOps : List JoinOp) (R : Nat → Nat → Prop) :
    Path → Prop
  | .scan op t idx => ScanOk scanOps cols t op idx
  | .join op o i => op ∈ joinOps ∧ op ≠ .indexNlj ∧ Plan scanOps cols joinOps R o ∧ Plan scanOps cols joinOps R i ∧
      (∀ t, t ∈ leaves o → t ∉ leaves i) ∧ ∃ a ∈ leaves o, ∃ b ∈ leaves i, R a b

/-- Cheaper inputs over the same tables never make a join more expensive (Bellman's principle). -/
def Monotone (cost : Path → Rat) : Prop :=
  ∀ op o o' i i', (∀ t, t ∈ leaves o ↔ t ∈ leaves o') → (∀ t, t ∈ leaves i ↔ t ∈ leaves i') → cost o ≤ cost o' → cost i ≤ cost i' →
    cost (.join op o i) ≤ cost (.join op o' i')

/-! ### Connected sets -/

section conn
variable {R : Nat → Nat → Prop}

theorem crossing {s A : Finset Nat} (hc : JoinConnected R s) (hA : A ⊆ s) (hne : A.Nonempty) (hp : A ≠ s) :
    ∃ a ∈ A, ∃ b ∈ s \ A, R a b := by
  by_contra hcon
  push Not at hcon
  obtain ⟨a, ha⟩ := hne
  obtain ⟨b, hb, hbA⟩ : ∃ b ∈ s, b ∉ A := by
    by_contra h; push Not at h; exact hp (Finset.Subset.antisymm hA h)
  have : ∀ y, Relation.ReflTransGen (fun x y => x ∈ s ∧ y ∈ s ∧ R x y) a y → y ∈ A := by
    intro y hy
    induction hy with
    | refl => exact ha
    | tail _ hstep ih =>
      by_contra hn
      exact hcon _ ih _ (Finset.mem_sdiff.2 ⟨hstep.2.1, hn⟩) hstep.2.2
  exact hbA (this b (hc a (hA ha) b hb))

theorem conn_mono {A s : Finset Nat} (hA : A ⊆ s) {a b : Nat}
    (h : Relation.ReflTransGen (fun x y => x ∈ A ∧ y ∈ A ∧ R x y) a b) :
    Relation.ReflTransGen (fun x y => x ∈ s ∧ y ∈ s ∧ R x y) a b :=
  Relation.ReflTransGen.mono (fun _ _ h => ⟨hA h.1, hA h.2.1, h.2.2⟩) _ _ h

theorem conn_union {A B : Finset Nat} (hs : ∀ a b, R a b → R b a) (hA : JoinConnected R A) (hB : JoinConnected R B)
    {a b : Nat} (ha : a ∈ A) (hb : b ∈ B) (hab : R a b) : JoinConnected R (A ∪ B) := by
  have l : A ⊆ A ∪ B := Finset.subset_union_left
  have r : B ⊆ A ∪ B := Finset.subset_union_right
  intro x hx y hy
  rcases Finset.mem_union.1 hx with hx | hx <;> rcases Finset.mem_union.1 hy with hy | hy
  · exact conn_mono l (hA x hx y hy)
  · exact ((conn_mono l (hA x hx a ha)).tail ⟨l ha, r hb, hab⟩).trans (conn_mono r (hB b hb y hy))
  · exact ((conn_mono r (hB x hx b hb)).tail ⟨r hb, l ha, hs _ _ hab⟩).trans (conn_mono l (hA a ha y hy))
  · exact conn_mono r (hB x hx y hy)

theorem conn_singleton (t : Nat) : JoinConnected R {t} := by
  intro a ha b hb
  rw [Finset.mem_singleton] at ha hb
  subst ha hb
  exact .refl

theorem conn_grow (hs : ∀ a b, R a b → R b a) {s : Finset Nat} (hc : JoinConnected R s) :
    ∀ n, 1 ≤ n → n ≤ s.card → ∃ A ⊆ s, A.card = n ∧ JoinConnected R A := by
  intro n
  induction n with
  | zero => intro h; omega
  | succ n ih =>
    intro _ hn
    rcases Nat.eq_zero_or_pos n with rfl | hpos
    · obtain ⟨a, ha⟩ : s.Nonempty := by rw [← Finset.card_pos]; omega
      exact ⟨{a}, by simpa using ha, by simp, conn_singleton a⟩
    · obtain ⟨A, hA, hcard, hconn⟩ := ih hpos (by omega)
      have hne : A.Nonempty := by rw [← Finset.card_pos]; omega
      have hp : A ≠ s := by rintro rfl; omega
      obtain ⟨a, ha, b, hb, hab⟩ := crossing hc hA hne hp
      rw [Finset.mem_sdiff] at hb
      refine ⟨A ∪ {b}, ?_, ?_, conn_union hs hconn (conn_singleton b) ha (by simp) hab⟩
      · intro x hx
        rcases Finset.mem_union.1 hx with hx | hx
        · exact hA hx
        · rw [Finset.mem_singleton] at hx; exact hx ▸ hb.1
      · rw [Finset.card_union_of_disjoint (by simpa using hb.2)]
        simp [hcard]

end conn

/-! ### The pieces of the algorithm -/

theorem minBy_none {α : Type} (key : α → Rat) (l : List α) : minBy key l = none ↔ l = [] := by
  cases l with
  | nil => simp [minBy]
  | cons x xs =>
    simp only [minBy, reduceCtorEq, iff_false]
    split
    · simp
    · split <;> simp

theorem minBy_some {α : Type} (key : α → Rat) (l : List α) (x : α) (h : minBy key l = some x) :
    x ∈ l ∧ ∀ y ∈ l, key x ≤ key y := by
  induction l generalizing x with
  | nil => simp [minBy] at h
  | cons a as ih =>
    simp only [minBy] at h
    split at h
    · rename_i hn
      rw [minBy_none] at hn
      injection h with h
      subst h; simp [hn]
    · rename_i y hy
      obtain ⟨hm, hle⟩ := ih y hy
      split at h <;> injection h with h <;> subst h
      · rename_i hay
        refine ⟨by simp, fun z hz => ?_⟩
        rcases List.mem_cons.1 hz with rfl | hz
        · exact le_refl _
        · exact le_trans hay (hle z hz)
      · rename_i hay
        refine ⟨by simp [hm], fun z hz => ?_⟩
        rcases List.mem_cons.1 hz with rfl | hz
        · exact le_of_lt (not_le.1 hay)
        · exact hle z hz

/-- C28: the candidates for a table are exactly its supported scans. -/
theorem mem_baseCandidates (ops : List ScanOp) (t : Nat) (cols : Nat → List (Nat × List Nat)) (p : Path) :
    p ∈ baseCandidates ops t (cols t) ↔ ∃ op idx, p = .scan op t idx ∧ ScanOk ops cols t op idx := by
  unfold baseCandidates indexPaths indexScans
  by_cases hc : cols t = []
  · simp only [hc, List.isEmpty_nil, if_true, List.append_nil]
    constructor
    · intro h
      split at h
      · rename_i hs
        exact ⟨.seqScan, none, by simpa using h, hs, rfl⟩
      · simp at h
    · rintro ⟨op, idx, rfl, hop, hk⟩
      cases op <;> simp_all
  · have he : (cols t).isEmpty = false := by simpa [List.isEmpty_iff] using hc
    simp only [he, Bool.false_eq_true, if_false, List.mem_append, List.mem_flatMap, Bool.and_eq_true, decide_eq_true_eq]
    constructor
    · rintro (h | ⟨⟨c, is⟩, hcol, i, hi, h | h⟩ | h)
      · split at h
        · rename_i hs
          exact ⟨.seqScan, none, by simpa using h, hs, rfl⟩
        · simp at h
      · split at h
        · rename_i hs
          exact ⟨.idxScan, some (c, i), by simpa using h, hs, c, is, i, rfl, hcol, hi⟩
        · simp at h
      · split at h
        · rename_i hs
          refine ⟨.idxOnlyScan, some (c, i), by simpa using h, hs.2, c, is, i, ?_, rfl, hi⟩
          match hl : cols t, hs.1, hcol with
          | [x], _, hcol => simpa [eq_comm] using hcol
        · simp at h
      · split at h
        · rename_i hs
          exact ⟨.bitmapScan, none, by simpa using h, hs, rfl, hc⟩
        · simp at h
    · rintro ⟨op, idx, rfl, hop, hk⟩
      cases op with
      | seqScan => simp only at hk; subst hk; simp [hop]
      | bitmapScan => simp only at hk; obtain ⟨rfl, _⟩ := hk; simp [hop]
      | idxScan =>
        obtain ⟨c, is, i, rfl, hcol, hi⟩ := hk
        exact Or.inr (Or.inl ⟨(c, is), hcol, i, hi, Or.inl (by simp [hop])⟩)
      | idxOnlyScan =>
        obtain ⟨c, is, i, hcol, rfl, hi⟩ := hk
        refine Or.inr (Or.inl ⟨(c, is), by simp [hcol], i, hi, Or.inr ?_⟩)
        rw [if_pos ⟨by simp [hcol], hop⟩]; simp

theorem mem_consideredJoins (ops : List JoinOp) (o : JoinOp) : o ∈ consideredJoins ops ↔ o ∈ ops ∧ o ≠ .indexNlj := by
  cases o <;> simp [consideredJoins]

theorem mem_split (ops : List JoinOp) (dp : Dict (Finset Nat) Path) (ord : Finset Nat → List Nat)
    (hord : ∀ s, (ord s).Nodup ∧ (ord s).toFinset = s) (s : Finset Nat) (p : Path) :
    p ∈ (Coll.powerset (ord s)).flatMap (splitCandidates ops dp s) ↔
      ∃ A ⊆ s, A.Nonempty ∧ A ≠ s ∧ ∃ o i op, Dict.get? dp A = some o ∧ Dict.get? dp (s \ A) = some i ∧
        op ∈ ops ∧ op ≠ .indexNlj ∧ p = .join op o i := by
  obtain ⟨hnd, hset⟩ := hord s
  rw [List.mem_flatMap]
  constructor
  · rintro ⟨out, hout, hp⟩
    rw [CollProps.C05_powerset_mem] at hout
    unfold splitCandidates at hp
    split at hp
    · simp at hp
    rename_i hguard
    simp only [Bool.or_eq_true, List.isEmpty_iff, beq_iff_eq, not_or] at hguard
    have hcard : out.toFinset.card = out.length := List.toFinset_card_of_nodup (hnd.sublist hout)
    split at hp
    · rename_i o i ho hi
      rw [List.mem_map] at hp
      obtain ⟨op, hop, rfl⟩ := hp
      rw [mem_consideredJoins] at hop
      refine ⟨out.toFinset, ?_, ?_, ?_, o, i, op, ho, hi, hop.1, hop.2, rfl⟩
      · intro x hx
        rw [← hset, List.mem_toFinset]
        exact hout.subset (List.mem_toFinset.1 hx)
      · rw [List.toFinset_nonempty_iff]; exact hguard.1
      · intro h; exact hguard.2 (by rw [← hcard, h])
    · simp at hp
  · rintro ⟨A, hA, hne, hp, o, i, op, ho, hi, hop, hop', rfl⟩
    have hset' : ((ord s).filter fun x => decide (x ∈ A)).toFinset = A := by
      ext x
      simp only [List.mem_toFinset, List.mem_filter, decide_eq_true_eq]
      constructor
      · exact fun h => h.2
      · intro h
        exact ⟨by rw [← List.mem_toFinset, hset]; exact hA h, h⟩
    have hlen : ((ord s).filter fun x => decide (x ∈ A)).length = A.card := by
      rw [← List.toFinset_card_of_nodup (hnd.filter _), hset']
    refine ⟨(ord s).filter (fun x => decide (x ∈ A)), (CollProps.C05_powerset_mem _ _).2 List.filter_sublist, ?_⟩
    unfold splitCandidates
    have hlt : A.card < s.card := Finset.card_lt_card (Finset.ssubset_iff_subset_ne.2 ⟨hA, hp⟩)
    have hpos : 0 < A.card := Finset.card_pos.2 hne
    rw [if_neg]
    · rw [hset', ho, hi]
      simp only [List.mem_map]
      exact ⟨op, (mem_consideredJoins _ _).2 ⟨hop, hop'⟩, rfl⟩
    · simp only [Bool.or_eq_true, List.isEmpty_iff, beq_iff_eq, not_or, hlen]
      refine ⟨fun h => ?_, by omega⟩
      rw [h] at hlen; simp at hlen; omega

theorem plan_conn {scanOps cols joinOps} {R : Nat → Nat → Prop} (hs : ∀ a b, R a b → R b a) (p : Path)
    (hp : Plan scanOps cols joinOps R p) : JoinConnected R (leaves p).toFinset := by
  induction p with
  | scan op t i => simpa [leaves] using conn_singleton t
  | join op o i ho hi =>
    obtain ⟨_, _, hpo, hpi, _, a, ha, b, hb, hab⟩ := hp
    rw [leaves, List.toFinset_append]
    exact conn_union hs (ho hpo) (hi hpi) (by simpa using ha) (by simpa using hb) hab

theorem leaves_ne (p : Path) : leaves p ≠ [] := by
  induction p with
  | scan => simp [leaves]
  | join op o i ho hi => simp [leaves, ho]

theorem plan_nodup {scanOps cols joinOps} {R : Nat → Nat → Prop} (p : Path)
    (hp : Plan scanOps cols joinOps R p) : (leaves p).Nodup := by
  induction p with
  | scan op t i => simp [leaves]
  | join op o i ho hi =>
    obtain ⟨_, _, hpo, hpi, hd, _⟩ := hp
    rw [leaves, List.nodup_append]
    exact ⟨ho hpo, hi hpi, fun a ha b hb hab => hd a ha (hab ▸ hb)⟩

/-! ### The invariant -/

section inv
variable (cost : Path → Rat) (scanOps : List ScanOp) (cols : Nat → List (Nat × List Nat)) (joinOps : List JoinOp)
  (R : Nat → Nat → Prop) (T : Finset Nat)

/-- `p` is a plan for `s`, and a cheapest one if costs are monotone. -/
def Best (s : Finset Nat) (p : Path) : Prop :=
  Plan scanOps cols joinOps R p ∧ (leaves p).toFinset = s ∧
    (Monotone cost → ∀ p', Plan scanOps cols joinOps R p' → (leaves p').toFinset = s → cost p ≤ cost p')

/-- All connected sets of at most `k` tables have an entry, and all entries are best plans. -/
def Inv (k : Nat) (dp : Dict (Finset Nat) Path) : Prop :=
  (∀ s p, Dict.get? dp s = some p → s ⊆ T ∧ s.card ≤ k ∧ Best cost scanOps cols joinOps R s p) ∧
  (∀ s ⊆ T, 1 ≤ s.card → s.card ≤ k → JoinConnected R s → (Dict.get? dp s).isSome = true)

theorem basePaths_inv (ts done : List Nat) (dp : Dict (Finset Nat) Path)
    (hdp : (∀ s p, Dict.get? dp s = some p → (∃ t ∈ done, s = {t}) ∧ Best cost scanOps cols joinOps R s p) ∧
      ∀ t ∈ done, (Dict.get? dp {t}).isSome = true) :
    ((∀ t ∈ ts, ∃ op idx, ScanOk scanOps cols t op idx) →
      ∃ dp', basePaths cost scanOps cols ts dp = some dp' ∧
        (∀ s p, Dict.get? dp' s = some p → (∃ t ∈ done ++ ts, s = {t}) ∧ Best cost scanOps cols joinOps R s p) ∧
        ∀ t ∈ done ++ ts, (Dict.get? dp' {t}).isSome = true) ∧
    ((∃ t ∈ ts, ∀ op idx, ¬ ScanOk scanOps cols t op idx) → basePaths cost scanOps cols ts dp = none) := by
  induction ts generalizing dp done with
  | nil =>
    refine ⟨fun _ => ⟨dp, rfl, ?_, ?_⟩, by simp⟩
    · simpa using hdp.1
    · simpa using hdp.2
  | cons t ts ih =>
    unfold basePaths
    cases hm : minBy cost (baseCandidates scanOps t (cols t)) with
    | none =>
      rw [minBy_none] at hm
      have hno : ∀ op idx, ¬ ScanOk scanOps cols t op idx := by
        intro op idx hk
        have := (mem_baseCandidates scanOps t cols (.scan op t idx)).2 ⟨op, idx, rfl, hk⟩
        rw [hm] at this; simp at this
      refine ⟨fun h => ?_, fun _ => rfl⟩
      obtain ⟨op, idx, hk⟩ := h t (by simp)
      exact absurd hk (hno op idx)
    | some p =>
      obtain ⟨hmem, hle⟩ := minBy_some _ _ _ hm
      obtain ⟨op, idx, rfl, hk⟩ := (mem_baseCandidates _ _ _ _).1 hmem
      have hbest : Best cost scanOps cols joinOps R {t} (.scan op t idx) := by
        refine ⟨hk, by simp [leaves], fun _ p' hp' hl => ?_⟩
        cases p' with
        | scan op' t' idx' =>
          have : t' = t := by simpa [leaves] using hl
          subst this
          exact hle _ ((mem_baseCandidates _ _ _ _).2 ⟨op', idx', rfl, hp'⟩)
        | join op' o i =>
          exfalso
          obtain ⟨_, _, _, _, hd, a, ha, b, hb, _⟩ := hp'
          have h1 : a ∈ ({t} : Finset Nat) := by rw [← hl]; simp [leaves, ha]
          have h2 : b ∈ ({t} : Finset Nat) := by rw [← hl]; simp [leaves, hb]
          rw [Finset.mem_singleton] at h1 h2
          subst h1 h2
          exact hd _ ha hb
      have hdp' := ih (done ++ [t]) (Dict.set dp {t} (.scan op t idx)) ⟨?_, ?_⟩
      · simp only [Option.bind_some]
        refine ⟨fun h => ?_, fun h => ?_⟩
        · have := hdp'.1 (fun t' ht' => h t' (by simp [ht']))
          simpa using this
        · obtain ⟨t', ht', hno⟩ := h
          rcases List.mem_cons.1 ht' with rfl | ht'
          · exact absurd hk (hno _ _)
          · exact hdp'.2 ⟨t', ht', hno⟩
      · intro s p hs
        rw [Dict.get?_set] at hs
        split at hs
        · rename_i heq
          injection hs with hs
          subst hs
          rw [← heq] at *
          exact ⟨⟨t, by simp, rfl⟩, hbest⟩
        · obtain ⟨⟨t', ht', rfl⟩, hb⟩ := hdp.1 s p hs
          exact ⟨⟨t', by simp [ht'], rfl⟩, hb⟩
      · intro t' ht'
        rw [Dict.get?_set]
        split
        · rfl
        · rename_i hne
          rcases List.mem_append.1 ht' with h | h
          · exact hdp.2 t' h
          · rw [List.mem_singleton] at h
            subst h
            exact absurd rfl hne

variable {cost scanOps cols joinOps R T}

theorem cheapest_spec (hs : ∀ a b, R a b → R b a) (ord : Finset Nat → List Nat)
    (hord : ∀ s, (ord s).Nodup ∧ (ord s).toFinset = s) {k : Nat} (hk : 1 ≤ k) {dp : Dict (Finset Nat) Path}
    (hinv : Inv cost scanOps cols joinOps R T k dp) {s : Finset Nat} (hsT : s ⊆ T) (hcard : s.card = k + 1)
    (hc : JoinConnected R s) :
    ((∃ op ∈ joinOps, op ≠ .indexNlj) →
      ∃ p, cheapest cost joinOps ord dp s = some p ∧ Best cost scanOps cols joinOps R s p) ∧
    ((∀ op ∈ joinOps, op = .indexNlj) → cheapest cost joinOps ord dp s = none) := by
  have hentry : ∀ A ⊆ s, A.Nonempty → A ≠ s → JoinConnected R A → (Dict.get? dp A).isSome = true := by
    intro A hA hne hp hconn
    have hlt : A.card < s.card := Finset.card_lt_card (Finset.ssubset_iff_subset_ne.2 ⟨hA, hp⟩)
    exact hinv.2 A (hA.trans hsT) (Finset.card_pos.2 hne) (by omega) hconn
  refine ⟨?_, ?_⟩
  · rintro ⟨op, hop, hop'⟩
    cases hm : cheapest cost joinOps ord dp s with
    | none =>
      exfalso
      unfold cheapest at hm
      rw [minBy_none] at hm
      obtain ⟨A, hA, hAc, hconn⟩ := conn_grow hs hc k hk (by omega)
      have hne : A.Nonempty := by rw [← Finset.card_pos]; omega
      have hp : A ≠ s := by rintro rfl; omega
      have hB : (s \ A).card = 1 := by rw [Finset.card_sdiff_of_subset hA]; omega
      obtain ⟨v, hv⟩ := Finset.card_eq_one.1 hB
      obtain ⟨o, ho⟩ := Option.isSome_iff_exists.1 (hentry A hA hne hp hconn)
      obtain ⟨i, hi⟩ := Option.isSome_iff_exists.1 (hentry (s \ A) Finset.sdiff_subset (by rw [hv]; simp)
        (by intro h; rw [h] at hB; omega) (by rw [hv]; exact conn_singleton v))
      have := (mem_split joinOps dp ord hord s (.join op o i)).2 ⟨A, hA, hne, hp, o, i, op, ho, hi, hop, hop', rfl⟩
      rw [hm] at this
      simp at this
    | some p =>
      refine ⟨p, rfl, ?_⟩
      obtain ⟨hmem, hle⟩ := minBy_some _ _ _ hm
      rw [mem_split joinOps dp ord hord] at hmem
      obtain ⟨A, hA, hne, hp, o, i, op₁, ho, hi, hop₁, hop₁', rfl⟩ := hmem
      obtain ⟨_, _, hpo, hlo, hbo⟩ := hinv.1 _ _ ho
      obtain ⟨_, _, hpi, hli, hbi⟩ := hinv.1 _ _ hi
      obtain ⟨a, ha, b, hb, hab⟩ := crossing hc hA hne hp
      refine ⟨⟨hop₁, hop₁', hpo, hpi, ?_, a, ?_, b, ?_, hab⟩, ?_, ?_⟩
      · intro t h1 h2
        have h1' : t ∈ A := by rw [← hlo]; simpa using h1
        have h2' : t ∈ s \ A := by rw [← hli]; simpa using h2
        exact (Finset.mem_sdiff.1 h2').2 h1'
      · rw [← hlo] at ha; simpa using ha
      · rw [← hli] at hb; simpa using hb
      · rw [leaves, List.toFinset_append, hlo, hli, Finset.union_sdiff_of_subset hA]
      · intro hmono p' hp' hl'
        cases p' with
        | scan op' t idx =>
          exfalso
          simp only [leaves, List.toFinset_cons, List.toFinset_nil, insert_empty_eq] at hl'
          rw [← hl'] at hcard
          simp at hcard; omega
        | join op' l r =>
          obtain ⟨h1, h2, hpl, hpr, hd, hcross⟩ := hp'
          rw [leaves, List.toFinset_append] at hl'
          have hdis : Disjoint (leaves l).toFinset (leaves r).toFinset := by
            rw [Finset.disjoint_left]
            intro t ht; simpa using hd t (by simpa using ht)
          have hsd : s \ (leaves l).toFinset = (leaves r).toFinset := by
            rw [← hl', Finset.union_sdiff_left, Finset.sdiff_eq_self_of_disjoint hdis.symm]
          have hnl : (leaves l).toFinset.Nonempty := by rw [List.toFinset_nonempty_iff]; exact leaves_ne l
          have hnr : (leaves r).toFinset.Nonempty := by rw [List.toFinset_nonempty_iff]; exact leaves_ne r
          have hsub : (leaves l).toFinset ⊆ s := by rw [← hl']; exact Finset.subset_union_left
          have hsubr : (leaves r).toFinset ⊆ s := by rw [← hl']; exact Finset.subset_union_right
          have hneq : (leaves l).toFinset ≠ s := by
            intro h
            rw [h, Finset.sdiff_self] at hsd
            rw [← hsd] at hnr; simp at hnr
          have hneqr : (leaves r).toFinset ≠ s := by
            intro h
            obtain ⟨x, hx⟩ := hnl
            exact Finset.disjoint_left.1 hdis hx (h ▸ hsub hx)
          obtain ⟨o', ho'⟩ := Option.isSome_iff_exists.1 (hentry _ hsub hnl hneq (plan_conn hs l hpl))
          obtain ⟨i', hi'⟩ := Option.isSome_iff_exists.1 (hentry _ hsubr hnr hneqr (plan_conn hs r hpr))
          obtain ⟨_, _, _, hlo', hbo'⟩ := hinv.1 _ _ ho'
          obtain ⟨_, _, _, hli', hbi'⟩ := hinv.1 _ _ hi'
          have hcand := (mem_split joinOps dp ord hord s (.join op' o' i')).2
            ⟨_, hsub, hnl, hneq, o', i', op', ho', by rw [hsd]; exact hi', h1, h2, rfl⟩
          refine le_trans (hle _ hcand) (hmono op' _ _ _ _ ?_ ?_ (hbo' hmono l hpl rfl) (hbi' hmono r hpr rfl))
          · intro t; rw [← List.mem_toFinset, hlo', List.mem_toFinset]
          · intro t; rw [← List.mem_toFinset, hli', List.mem_toFinset]
  · intro hno
    unfold cheapest
    rw [minBy_none, List.eq_nil_iff_forall_not_mem]
    intro p hp
    rw [mem_split joinOps dp ord hord] at hp
    obtain ⟨A, _, _, _, o, i, op, _, _, hop, hop', _⟩ := hp
    exact hop' (hno op hop)

/-- What `joins_tables` has to compute. -/
def Decides (conn : Finset Nat → Option Bool) (R : Nat → Nat → Prop) (T : Finset Nat) : Prop :=
  ∀ s ⊆ T, 2 ≤ s.card → ∃ b, conn s = some b ∧ (b = true ↔ JoinConnected R s)

theorem levelPaths_spec (hs : ∀ a b, R a b → R b a) (ord : Finset Nat → List Nat)
    (hord : ∀ s, (ord s).Nodup ∧ (ord s).toFinset = s) (conn : Finset Nat → Option Bool) (hconn : Decides conn R T)
    {k : Nat} (hk : 1 ≤ k) {dp : Dict (Finset Nat) Path}
    (hinv : Inv cost scanOps cols joinOps R T k dp) (js : List (List Nat))
    (hjs : ∀ j ∈ js, j.toFinset ⊆ T ∧ j.toFinset.card = k + 1) :
    ((∃ op ∈ joinOps, op ≠ .indexNlj) → ∃ r, levelPaths cost joinOps ord conn dp js = some r ∧
      (∀ s p, (s, p) ∈ r → s ⊆ T ∧ s.card = k + 1 ∧ Best cost scanOps cols joinOps R s p) ∧
      (∀ j ∈ js, JoinConnected R j.toFinset → j.toFinset ∈ Dict.keys r)) ∧
    ((∀ op ∈ joinOps, op = .indexNlj) → (∃ j ∈ js, JoinConnected R j.toFinset) →
      levelPaths cost joinOps ord conn dp js = none) := by
  induction js with
  | nil =>
    refine ⟨fun _ => ⟨[], rfl, by simp, by simp⟩, by simp⟩
  | cons j js ih =>
    obtain ⟨hjT, hjc⟩ := hjs j (by simp)
    obtain ⟨b, hb, hbiff⟩ := hconn _ hjT (by omega)
    have ih' := ih (fun j' h => hjs j' (by simp [h]))
    unfold levelPaths
    rw [hb, Option.bind_some]
    by_cases hc : JoinConnected R j.toFinset
    · have : b = true := hbiff.2 hc
      subst this
      simp only [if_true]
      obtain ⟨hch, hno⟩ := cheapest_spec (cost := cost) (scanOps := scanOps) (cols := cols) hs ord hord hk hinv hjT hjc hc
      refine ⟨fun hop => ?_, fun hop _ => by rw [hno hop]; rfl⟩
      obtain ⟨p, hp, hbest⟩ := hch hop
      obtain ⟨r, hr, hr1, hr2⟩ := ih'.1 hop
      refine ⟨(j.toFinset, p) :: r, by rw [hp, hr]; rfl, ?_, ?_⟩
      · intro s q hq
        rcases List.mem_cons.1 hq with h | h
        · injection h with h1 h2
          subst h1 h2
          exact ⟨hjT, hjc, hbest⟩
        · exact hr1 s q h
      · intro j' hj' hc'
        rcases List.mem_cons.1 hj' with rfl | h
        · simp
        · simpa using Or.inr (hr2 j' h hc')
    · have : b = false := by
        cases b with
        | false => rfl
        | true => exact absurd (hbiff.1 rfl) hc
      subst this
      simp only [Bool.false_eq_true, if_false]
      refine ⟨fun hop => ?_, fun hop hex => ?_⟩
      · obtain ⟨r, hr, hr1, hr2⟩ := ih'.1 hop
        refine ⟨r, hr, hr1, ?_⟩
        intro j' hj' hc'
        rcases List.mem_cons.1 hj' with rfl | h
        · exact absurd hc' hc
        · exact hr2 j' h hc'
      · obtain ⟨j', hj', hc'⟩ := hex
        rcases List.mem_cons.1 hj' with rfl | h
        · exact absurd hc' hc
        · exact ih'.2 hop ⟨j', h, hc'⟩

theorem inv_update {k : Nat} {dp r : Dict (Finset Nat) Path} (hinv : Inv cost scanOps cols joinOps R T k dp)
    (h1 : ∀ s p, (s, p) ∈ r → s ⊆ T ∧ s.card = k + 1 ∧ Best cost scanOps cols joinOps R s p)
    (h2 : ∀ s ⊆ T, s.card = k + 1 → JoinConnected R s → s ∈ Dict.keys r) :
    Inv cost scanOps cols joinOps R T (k + 1) (Dict.update dp r) := by
  refine ⟨?_, ?_⟩
  · intro s p hp
    rw [Dict.get?_update_list] at hp
    cases hr : Dict.get? r.reverse s with
    | none =>
      rw [hr, Option.none_or] at hp
      obtain ⟨a, b, c⟩ := hinv.1 s p hp
      exact ⟨a, by omega, c⟩
    | some q =>
      rw [hr, Option.some_or] at hp
      injection hp with hp
      subst hp
      obtain ⟨a, b, c⟩ := h1 s q (List.mem_reverse.1 (Dict.mem_of_get? hr))
      exact ⟨a, by omega, c⟩
  · intro s hs hpos hle hc
    rw [Dict.get?_update_list, Option.isSome_or]
    by_cases h : s.card = k + 1
    · have := h2 s hs h hc
      have : (Dict.get? r.reverse s).isSome = true := by
        rw [Dict.get?_isSome]
        simpa [Dict.keys] using this
      rw [this]; rfl
    · rw [hinv.2 s hs hpos (by omega) hc]; simp

theorem mem_level {tables : List Nat} (hnd : tables.Nodup) (k : Nat) (s : Finset Nat) :
    (∃ j ∈ Coll.combinations tables k, j.toFinset = s) ↔ s ⊆ tables.toFinset ∧ s.card = k := by
  constructor
  · rintro ⟨j, hj, rfl⟩
    rw [CollProps.mem_combinations] at hj
    refine ⟨fun x hx => ?_, by rw [List.toFinset_card_of_nodup (hnd.sublist hj.1)]; exact hj.2⟩
    simpa using hj.1.subset (by simpa using hx)
  · rintro ⟨hs, hc⟩
    have hset : (tables.filter fun x => decide (x ∈ s)).toFinset = s := by
      ext x
      simp only [List.mem_toFinset, List.mem_filter, decide_eq_true_eq]
      exact ⟨fun h => h.2, fun h => ⟨by simpa using hs h, h⟩⟩
    refine ⟨tables.filter (fun x => decide (x ∈ s)), ?_, hset⟩
    rw [CollProps.mem_combinations]
    refine ⟨List.filter_sublist, ?_⟩
    rw [← List.toFinset_card_of_nodup (hnd.filter _), hset, hc]

theorem buildLevels_spec (hs : ∀ a b, R a b → R b a) (ord : Finset Nat → List Nat)
    (hord : ∀ s, (ord s).Nodup ∧ (ord s).toFinset = s) (conn : Finset Nat → Option Bool) {tables : List Nat}
    (hnd : tables.Nodup) (hconn : Decides conn R tables.toFinset) (hop : ∃ op ∈ joinOps, op ≠ .indexNlj) (m : Nat) :
    ∀ (k : Nat) (dp : Dict (Finset Nat) Path), 1 ≤ k → Inv cost scanOps cols joinOps R tables.toFinset k dp →
      ∃ dp', buildLevels cost joinOps ord conn tables (List.range' (k + 1) m) dp = some dp' ∧
        Inv cost scanOps cols joinOps R tables.toFinset (k + m) dp' := by
  induction m with
  | zero => intro k dp _ h; exact ⟨dp, rfl, h⟩
  | succ m ih =>
    intro k dp hk hinv
    rw [List.range'_succ, buildLevels]
    obtain ⟨r, hr, hr1, hr2⟩ := (levelPaths_spec hs ord hord conn hconn hk hinv (Coll.combinations tables (k + 1))
      (fun j hj => (mem_level hnd (k + 1) _).1 ⟨j, hj, rfl⟩)).1 hop
    have hinv' := inv_update hinv hr1 (by
      intro s hsT hc hconn'
      obtain ⟨j, hj, rfl⟩ := (mem_level hnd (k + 1) s).2 ⟨hsT, hc⟩
      exact hr2 j hj hconn')
    rw [hr, Option.bind_some]
    obtain ⟨dp', h1, h2⟩ := ih (k + 1) _ (by omega) hinv'
    exact ⟨dp', h1, by rwa [show k + (m + 1) = k + 1 + m by omega]⟩

theorem base_spec (tables : List Nat) (hnd : tables.Nodup) :
    ((∀ t ∈ tables, ∃ op idx, ScanOk scanOps cols t op idx) → ∃ dp, basePaths cost scanOps cols tables [] = some dp ∧
      Inv cost scanOps cols joinOps R tables.toFinset 1 dp) ∧
    ((∃ t ∈ tables, ∀ op idx, ¬ ScanOk scanOps cols t op idx) → basePaths cost scanOps cols tables [] = none) := by
  have h := basePaths_inv cost scanOps cols joinOps R tables [] [] ⟨by simp [Dict.get?], by simp⟩
  refine ⟨fun hsc => ?_, h.2⟩
  obtain ⟨dp, hdp, h1, h2⟩ := h.1 hsc
  refine ⟨dp, hdp, ?_, ?_⟩
  · intro s p hp
    obtain ⟨⟨t, ht, rfl⟩, hb⟩ := h1 s p hp
    exact ⟨by simpa using ht, by simp, hb⟩
  · intro s hsT hpos hle _
    obtain ⟨t, rfl⟩ := Finset.card_eq_one.1 (show s.card = 1 by omega)
    exact h2 t (by simpa using hsT)

theorem cheapest_noop (cost : Path → Rat) (joinOps : List JoinOp) (ord : Finset Nat → List Nat)
    (hord : ∀ s, (ord s).Nodup ∧ (ord s).toFinset = s) (hno : ∀ op ∈ joinOps, op = .indexNlj) (dp : Dict (Finset Nat) Path)
    (s : Finset Nat) : cheapest cost joinOps ord dp s = none := by
  unfold cheapest
  rw [minBy_none, List.eq_nil_iff_forall_not_mem]
  intro p hp
  rw [mem_split joinOps dp ord hord] at hp
  obtain ⟨A, _, _, _, o, i, op, _, _, hop, hop', _⟩ := hp
  exact hop' (hno op hop)

theorem levelPaths_noop (cost : Path → Rat) (joinOps : List JoinOp) (ord : Finset Nat → List Nat)
    (hord : ∀ s, (ord s).Nodup ∧ (ord s).toFinset = s) (conn : Finset Nat → Option Bool)
    (hno : ∀ op ∈ joinOps, op = .indexNlj) (dp : Dict (Finset Nat) Path) (js : List (List Nat)) (r : Dict (Finset Nat) Path)
    (h : levelPaths cost joinOps ord conn dp js = some r) : r = [] := by
  induction js generalizing r with
  | nil => simpa [levelPaths, eq_comm] using h
  | cons j js ih =>
    rw [levelPaths] at h
    cases hc : conn j.toFinset with
    | none => rw [hc] at h; simp at h
    | some b =>
      rw [hc, Option.bind_some] at h
      split at h
      · rw [cheapest_noop cost joinOps ord hord hno] at h; simp at h
      · exact ih r h

theorem buildLevels_noop (cost : Path → Rat) (joinOps : List JoinOp) (ord : Finset Nat → List Nat)
    (hord : ∀ s, (ord s).Nodup ∧ (ord s).toFinset = s) (conn : Finset Nat → Option Bool) (tables : List Nat)
    (hno : ∀ op ∈ joinOps, op = .indexNlj) (ks : List Nat) (dp dp' : Dict (Finset Nat) Path)
    (h : buildLevels cost joinOps ord conn tables ks dp = some dp') : dp' = dp := by
  induction ks generalizing dp with
  | nil => simpa [buildLevels, eq_comm] using h
  | cons k ks ih =>
    rw [buildLevels] at h
    cases hl : levelPaths cost joinOps ord conn dp (Coll.combinations tables k) with
    | none => rw [hl] at h; simp at h
    | some r =>
      rw [hl, Option.bind_some] at h
      have := levelPaths_noop cost joinOps ord hord conn hno dp _ r hl
      subst this
      exact ih _ h

end inv

/-- The search always looks at tables in some order. -/
def IsOrder (ord : Finset Nat → List Nat) : Prop := ∀ s, (ord s).Nodup ∧ ∀ t, t ∈ ord s ↔ t ∈ s

theorem IsOrder.spec {ord : Finset Nat → List Nat} (h : IsOrder ord) (s : Finset Nat) :
    (ord s).Nodup ∧ (ord s).toFinset = s := ⟨(h s).1, by ext t; simp [(h s).2 t]⟩

theorem main (cost : Path → Rat) (scanOps : List ScanOp) (cols : Nat → List (Nat × List Nat)) (joinOps : List JoinOp)
    (R : Nat → Nat → Prop) (hsym : ∀ a b, R a b → R b a) (ord : Finset Nat → List Nat) (hord : IsOrder ord)
    (conn : Finset Nat → Option Bool) (tables : List Nat) (hnd : tables.Nodup) (hne : tables ≠ [])
    (hconn : Decides conn R tables.toFinset) :
    (∀ p, generatePlan cost scanOps cols joinOps ord conn tables = some p →
      Best cost scanOps cols joinOps R tables.toFinset p) ∧
    ((generatePlan cost scanOps cols joinOps ord conn tables).isSome = true ↔
      JoinConnected R tables.toFinset ∧ (∀ t ∈ tables, ∃ op idx, ScanOk scanOps cols t op idx) ∧
        (tables.length = 1 ∨ ∃ op ∈ joinOps, op ≠ .indexNlj)) := by
  have hbase := base_spec (cost := cost) (scanOps := scanOps) (cols := cols) (joinOps := joinOps) (R := R) tables hnd
  have hlen : 1 ≤ tables.length := List.length_pos_iff.2 hne
  have hcard : tables.toFinset.card = tables.length := List.toFinset_card_of_nodup hnd
  unfold generatePlan
  by_cases hsc : ∀ t ∈ tables, ∃ op idx, ScanOk scanOps cols t op idx
  · obtain ⟨dp, hdp, hinv⟩ := hbase.1 hsc
    rw [hdp]
    simp only [Option.bind_some]
    have fin : ∀ dp', Inv cost scanOps cols joinOps R tables.toFinset tables.length dp' →
        (∀ p, Dict.get? dp' tables.toFinset = some p → Best cost scanOps cols joinOps R tables.toFinset p) ∧
        ((Dict.get? dp' tables.toFinset).isSome = true ↔ JoinConnected R tables.toFinset) := by
      intro dp' h
      refine ⟨fun p hp => (h.1 _ _ hp).2.2, fun hs => ?_, fun hc => h.2 _ (Finset.Subset.refl _) (by omega) (by omega) hc⟩
      obtain ⟨p, hp⟩ := Option.isSome_iff_exists.1 hs
      obtain ⟨_, _, hpl, hl, _⟩ := h.1 _ _ hp
      rw [← hl]
      exact plan_conn hsym p hpl
    by_cases h1 : tables.length = 1
    · rw [h1] at fin
      simp only [h1, Nat.sub_self, List.range'_zero, buildLevels, Option.bind_some]
      obtain ⟨f1, f2⟩ := fin dp hinv
      exact ⟨f1, f2.trans ⟨fun h => ⟨h, hsc, .inl trivial⟩, fun h => h.1⟩⟩
    · by_cases hop : ∃ op ∈ joinOps, op ≠ .indexNlj
      · obtain ⟨dp', h2, h3⟩ := buildLevels_spec hsym ord hord.spec conn hnd hconn hop (tables.length - 1) 1 dp (le_refl _) hinv
        rw [show 1 + (tables.length - 1) = tables.length by omega] at h3
        rw [h2, Option.bind_some]
        obtain ⟨f1, f2⟩ := fin dp' h3
        exact ⟨f1, f2.trans ⟨fun h => ⟨h, hsc, .inr hop⟩, fun h => h.1⟩⟩
      · push Not at hop
        have hcases : (buildLevels cost joinOps ord conn tables (List.range' 2 (tables.length - 1)) dp).bind
            (fun dp => Dict.get? dp tables.toFinset) = none := by
          cases hb : buildLevels cost joinOps ord conn tables (List.range' 2 (tables.length - 1)) dp with
          | none => rfl
          | some dp' =>
            have := buildLevels_noop cost joinOps ord hord.spec conn tables hop _ _ _ hb
            subst this
            rw [Option.bind_some]
            cases hg : Dict.get? dp' tables.toFinset with
            | none => rfl
            | some p =>
              have := (hinv.1 _ _ hg).2.1
              omega
        rw [hcases]
        refine ⟨by simp, by simpa [h1] using fun _ _ => hop⟩
  · push Not at hsc
    rw [hbase.2 hsc]
    refine ⟨by simp, ?_⟩
    simp only [Option.bind_none, Option.isSome_none, Bool.false_eq_true, false_iff, not_and]
    intro _ h
    obtain ⟨t, ht, hno⟩ := hsc
    obtain ⟨op, idx, hk⟩ := h t ht
    exact absurd hk (hno op idx)

/-! ### C28 -/

/-- **C28.** For a query whose tables are connected by its join predicates, the enumerator returns a plan. The plan scans every
table exactly once, uses supported operators only and contains no cross product. If costs are monotone, no plan of the search space
(including bushy ones) over the same tables is cheaper. If the tables are not connected, it raises an exception. -/
theorem C28_optimal_partial (cost : Path → Rat) (scanOps : List ScanOp) (cols : Nat → List (Nat × List Nat)) (joinOps : List JoinOp)
    (R : Nat → Nat → Prop) (hsym : ∀ a b, R a b → R b a) (ord : Finset Nat → List Nat) (hord : IsOrder ord)
    (conn : Finset Nat → Option Bool) (tables : List Nat) (hnd : tables.Nodup) (hne : tables ≠ [])
    (hconn : ∀ s, (∀ t ∈ s, t ∈ tables) → 2 ≤ s.card → ∃ b, conn s = some b ∧ (b = true ↔ JoinConnected R s))
    (hscan : ∀ t ∈ tables, ∃ op idx, ScanOk scanOps cols t op idx) (hjoin : ∃ op ∈ joinOps, op ≠ .indexNlj) :
    (JoinConnected R tables.toFinset → ∃ p, generatePlan cost scanOps cols joinOps ord conn tables = some p ∧
      Plan scanOps cols joinOps R p ∧ (leaves p).Perm tables ∧
      (Monotone cost → ∀ p', Plan scanOps cols joinOps R p' → (leaves p').Perm tables → cost p ≤ cost p')) ∧
    (¬ JoinConnected R tables.toFinset → generatePlan cost scanOps cols joinOps ord conn tables = none) := by
  obtain ⟨hb, hiff⟩ := main cost scanOps cols joinOps R hsym ord hord conn tables hnd hne
    (fun s hs hc => hconn s (fun t ht => by simpa using hs ht) hc)
  refine ⟨fun hc => ?_, fun hc => ?_⟩
  · obtain ⟨p, hp⟩ := Option.isSome_iff_exists.1 (hiff.2 ⟨hc, hscan, .inr hjoin⟩)
    obtain ⟨h1, h2, h3⟩ := hb p hp
    refine ⟨p, hp, h1, ?_, fun hm p' hp' hl => h3 hm p' hp' (by ext x; simp [hl.mem_iff])⟩
    exact List.perm_of_nodup_nodup_toFinset_eq (plan_nodup p h1) hnd h2
  · by_contra h
    obtain ⟨p, hp⟩ := Option.ne_none_iff_exists'.1 h
    exact hc (hiff.1 (by rw [hp]; rfl)).1

/-- **C28.** The enumerator raises an exception exactly if the tables are not connected, some table has no supported scan, or two
tables have to be joined but only index nested-loop joins are supported. -/
theorem C28_raises (cost : Path → Rat) (scanOps : List ScanOp) (cols : Nat → List (Nat × List Nat)) (joinOps : List JoinOp)
    (R : Nat → Nat → Prop) (hsym : ∀ a b, R a b → R b a) (ord : Finset Nat → List Nat) (hord : IsOrder ord)
    (conn : Finset Nat → Option Bool) (tables : List Nat) (hnd : tables.Nodup) (hne : tables ≠ [])
    (hconn : ∀ s, (∀ t ∈ s, t ∈ tables) → 2 ≤ s.card → ∃ b, conn s = some b ∧ (b = true ↔ JoinConnected R s)) :
    generatePlan cost scanOps cols joinOps ord conn tables = none ↔
      ¬ JoinConnected R tables.toFinset ∨ (∃ t ∈ tables, ∀ op idx, ¬ ScanOk scanOps cols t op idx) ∨
        (1 < tables.length ∧ ∀ op ∈ joinOps, op = .indexNlj) := by
  have hiff := (main cost scanOps cols joinOps R hsym ord hord conn tables hnd hne
    (fun s hs hc => hconn s (fun t ht => by simpa using hs ht) hc)).2
  have hlen : 1 ≤ tables.length := List.length_pos_iff.2 hne
  rw [← Option.not_isSome_iff_eq_none, hiff]
  simp only [not_and_or, not_or]
  push Not
  constructor
  · rintro (h | h | h)
    · exact .inl h
    · exact .inr (.inl h)
    · exact .inr (.inr ⟨by omega, h.2⟩)
  · rintro (h | h | h)
    · exact .inl h
    · exact .inr (.inl h)
    · exact .inr (.inr ⟨by omega, h.2⟩)

theorem linked_symm {Q : Type} (ops : QOps Q) (qp : QueryPreds Q) (a b : Nat) (h : Linked ops qp a b) : Linked ops qp b a := by
  obtain ⟨j, hj, ht, ps, hps, p, hp, hc⟩ := h
  exact ⟨j, hj, ht.symm, ps, hps, p, hp, hc.symm⟩

/-- **C28.** The same with the join predicates of a query: connectedness is decided by `joins_tables`. -/
theorem C28_query_partial {Q : Type} [DecidableEq Q] (ops : QOps Q) (qp : QueryPreds Q) (hv : qp.Valid ops) (hr : qp.root ≠ none)
    (cost : Path → Rat) (scanOps : List ScanOp) (cols : Nat → List (Nat × List Nat)) (joinOps : List JoinOp)
    (ord : Finset Nat → List Nat) (hord : IsOrder ord) (tables : List Nat) (hnd : tables.Nodup) (hne : tables ≠ [])
    (hscan : ∀ t ∈ tables, ∃ op idx, ScanOk scanOps cols t op idx) (hjoin : ∃ op ∈ joinOps, op ≠ .indexNlj) :
    (JoinConnected (Linked ops qp) tables.toFinset →
      ∃ p, generatePlan cost scanOps cols joinOps ord (qp.joinsTables ops) tables = some p ∧
        Plan scanOps cols joinOps (Linked ops qp) p ∧ (leaves p).Perm tables ∧
        (Monotone cost → ∀ p', Plan scanOps cols joinOps (Linked ops qp) p' → (leaves p').Perm tables → cost p ≤ cost p')) ∧
    (¬ JoinConnected (Linked ops qp) tables.toFinset →
      generatePlan cost scanOps cols joinOps ord (qp.joinsTables ops) tables = none) := by
  obtain ⟨r, hroot⟩ := Option.ne_none_iff_exists'.1 hr
  exact C28_optimal_partial cost scanOps cols joinOps _ (linked_symm ops qp) ord hord _ tables hnd hne
    (fun s _ hc => ((C34_joins_tables ops qp hv s).2 r hroot).2.2 hc) hscan hjoin

/-! ### Examples -/

/-- Scans cost their table number, index scans a bit less; hash joins cost 1, all others 2. -/
def exCost : Path → Rat
  | .scan .idxScan t _ => t - 1 / 2
  | .scan _ t _ => t
  | .join .hash o i => exCost o + exCost i + 1
  | .join _ o i => exCost o + exCost i + 2

theorem exCost_monotone : Monotone exCost := by
  intro op o o' i i' _ _ h1 h2
  cases op <;> simp only [exCost] <;> linarith

def exCols : Nat → List (Nat × List Nat) := fun t => if t = 3 then [(7, [8])] else []

def exOrd (s : Finset Nat) : List Nat := (List.range (s.sup id + 1)).filter fun t => decide (t ∈ s)

theorem exOrd_isOrder : IsOrder exOrd := fun s =>
  ⟨List.nodup_range.filter _, fun t => by
    simp only [exOrd, List.mem_filter, List.mem_range, decide_eq_true_eq, and_iff_right_iff_imp]
    exact fun h => Nat.lt_succ_of_le (Finset.le_sup (f := id) h)⟩

/-- 1 — 2 — 3 -/
def exR (a b : Nat) : Prop := (a = 1 ∧ b = 2) ∨ (a = 2 ∧ b = 1) ∨ (a = 2 ∧ b = 3) ∨ (a = 3 ∧ b = 2)

theorem exR_symm (a b : Nat) (h : exR a b) : exR b a := by unfold exR at *; omega

noncomputable def exConn (s : Finset Nat) : Option Bool := by
  classical exact some (decide (JoinConnected exR s))

/-- The hypotheses of `C28_optimal_partial` hold for a chain of three tables, which is connected. -/
example : ∃ p, generatePlan exCost [.seqScan, .idxScan] exCols [.hash, .nlj] exOrd exConn [1, 2, 3] = some p ∧
    (leaves p).Perm [1, 2, 3] ∧
    ∀ p', Plan [.seqScan, .idxScan] exCols [.hash, .nlj] exR p' → (leaves p').Perm [1, 2, 3] → exCost p ≤ exCost p' := by
  obtain ⟨p, h1, h2, h3, h4⟩ := (C28_optimal_partial exCost [.seqScan, .idxScan] exCols [.hash, .nlj] exR exR_symm exOrd exOrd_isOrder exConn
    [1, 2, 3] (by decide) (by decide) (fun s _ _ => ⟨_, rfl, by simp⟩)
    (fun t _ => ⟨.seqScan, none, by simp, rfl⟩) ⟨.hash, by simp, by decide⟩).1 (by
      have h12 := conn_union exR_symm (conn_singleton 1) (conn_singleton (R := exR) 2) (a := 1) (b := 2) (by simp) (by simp)
        (by simp [exR])
      exact conn_union exR_symm h12 (conn_singleton (R := exR) 3) (a := 2) (b := 3) (by simp) (by simp) (by simp [exR]))
  exact ⟨p, h1, h3, h4 exCost_monotone⟩

/-- An evaluation: the cheap index scan of table 3 is found. -/
example : generatePlan exCost [.seqScan, .idxScan] exCols [.hash, .nlj] exOrd
    (fun s => some (decide (s ≠ {1, 3}))) [1, 2, 3] =
    some (.join .hash (.scan .seqScan 1 none) (.join .hash (.scan .seqScan 2 none) (.scan .idxScan 3 (some (7, 8))))) := by
  decide +kernel

/-- The hypotheses of `C28_query_partial` hold for the predicates `1.x = 2.y AND ...` of `qp1`. -/
example : ∃ p, generatePlan exCost [.seqScan] exCols [.hash] exOrd (qp1.joinsTables ExprProps.noOps) [1, 2] = some p ∧
    (leaves p).Perm [1, 2] := by
  obtain ⟨p, h1, _, h2, _⟩ := (C28_query_partial ExprProps.noOps qp1 qp1_valid (by decide +kernel) exCost [.seqScan] exCols [.hash]
    exOrd exOrd_isOrder [1, 2] (by decide) (by decide) (fun t _ => ⟨.seqScan, none, by simp, rfl⟩) ⟨.hash, by simp, by decide⟩).1 (by
      have := ((C34_joins_tables ExprProps.noOps qp1 qp1_valid {1, 2}).2 _ rfl).2.2 (by decide)
      obtain ⟨b, hb, hiff⟩ := this
      have h : qp1.joinsTables ExprProps.noOps {1, 2} = some true := by decide +kernel
      rw [hb] at h
      injection h with h
      exact hiff.1 h)
  exact ⟨p, h1, h2⟩

/-- As `exCost`, with cheap index nested-loop joins. -/
def exCost' : Path → Rat
  | .scan _ t _ => t
  | .join .indexNlj o i => exCost' o + exCost' i + 1
  | .join _ o i => exCost' o + exCost' i + 2

/-- **C28 does not hold** if index nested-loop joins are supported: they are never considered, so that a cheaper plan is missed
although costs are monotone. -/
theorem C28_index_nlj_violated : Monotone exCost' ∧
    ∃ p, generatePlan exCost' [.seqScan] (fun _ => []) [.hash, .indexNlj] exOrd (fun _ => some true) [1, 2] = some p ∧
      exCost' (.join .indexNlj (.scan .seqScan 1 none) (.scan .seqScan 2 none)) < exCost' p := by
  refine ⟨?_, .join .hash (.scan .seqScan 1 none) (.scan .seqScan 2 none), by decide +kernel, by decide +kernel⟩
  intro op o o' i i' _ _ h1 h2
  cases op <;> simp only [exCost'] <;> linarith

/-- Sequential scans are cheaper, but merge joins profit from index scans: not monotone. -/
def exCost'' : Path → Rat
  | .scan .idxScan t _ => t + 1
  | .scan _ t _ => t
  | .join .merge (.scan .idxScan t _) (.scan .idxScan t' _) => t + t'
  | .join _ o i => exCost'' o + exCost'' i + 5

/-- Monotone costs are needed: only the cheapest plan of every subset is kept, so that a sorted but more expensive input of a
merge join is lost. -/
theorem C28_not_monotone_violated :
    ∃ p, generatePlan exCost'' [.seqScan, .idxScan] (fun t => [(t, [t])]) [.merge] exOrd (fun _ => some true) [1, 2] = some p ∧
      exCost'' (.join .merge (.scan .idxScan 1 (some (1, 1))) (.scan .idxScan 2 (some (2, 2)))) < exCost'' p :=
  ⟨.join .merge (.scan .seqScan 1 none) (.scan .seqScan 2 none), by decide +kernel, by decide +kernel⟩

end PB.DynProgProps
