import Mathlib.Tactic.FieldSimp
import Mathlib.Tactic.IntervalCases
import Mathlib.Algebra.BigOperators.Group.List.Basic
import Verif.Props.Ues

/-! Properties of the cardinality bounds of the UES join order optimizer (C55). -/

set_option linter.unusedSimpArgs false
set_option linter.unusedVariables false
set_option linter.unusedSectionVars false
set_option linter.unnecessarySimpa false

namespace PB.UesBoundsProps

open PB PB.JoinGraph PB.JoinGraphProps PB.Ues PB.UesProps

/-! ### Specification: database contents -/

/-- A row: the values of its columns. -/
abbrev Row := Nat → Nat

/-- All combinations of rows of the tables. -/
def assigns (D : Nat → List Row) : List Nat → List (Nat → Row)
  | [] => [fun _ _ => 0]
  | t :: ts => (D t).flatMap fun r => (assigns D ts).map fun f x => if x = t then r else f x

/-- A combination of rows satisfies all join predicates. -/
def Sat (joins : Cond) (f : Nat → Row) : Bool := joins.all fun j => decide (f j.1.tab j.1.name = f j.2.tab j.2.name)

/-- The number of result rows of the join of some tables. -/
def resultSize (D : Nat → List Row) (joins : Cond) (ts : List Nat) : Nat := (assigns D ts).countP (Sat joins)

/-- The column is used by a join predicate. -/
def Joined (joins : Cond) (c : Col) : Prop := ∃ j ∈ joins, c = j.1 ∨ c = j.2

/-- The statistics are upper bounds for the columns of the joins: number of rows of their tables, and frequency of each value. -/
structure Valid (joins : Cond) (D : Nat → List Row) (s : St) : Prop where
  rows : ∀ c : Col, Joined joins c → ((D c.tab).length : Rat) ≤ s.base c.tab
  ub : ∀ t b, Dict.get? s.ub t = some b → ((D t).length : Rat) ≤ b
  freq : ∀ (c : Col) (v : Nat), Joined joins c → (((D c.tab).countP fun r => decide (r c.name = v) : Nat) : Rat) ≤ s.freq c

theorem Valid.mono {joins joins' : Cond} {D : Nat → List Row} {s : St} (h : Valid joins D s) (hs : ∀ j ∈ joins', j ∈ joins) : Valid joins' D s :=
  ⟨fun c ⟨j, hj, e⟩ => h.rows c ⟨j, hs j hj, e⟩, h.ub, fun c v ⟨j, hj, e⟩ => h.freq c v ⟨j, hs j hj, e⟩⟩

/-! ### Joins of two tables -/

theorem sum_le (l : List Row) (f : Row → Nat) (b : Nat) (h : ∀ r ∈ l, f r ≤ b) : (l.map f).sum ≤ l.length * b := by
  induction l with
  | nil => simp
  | cons r l ih =>
    have h1 := h r (by simp)
    have h2 := ih fun x hx => h x (by simp [hx])
    simp only [List.map_cons, List.sum_cons, List.length_cons]
    linarith [Nat.succ_mul l.length b]

theorem sum_comm (l m : List Row) (p : Row → Row → Bool) :
    (l.map fun r => m.countP (p r)).sum = (m.map fun x => l.countP fun r => p r x).sum := by
  induction l with
  | nil => simp
  | cons r l ih =>
    rw [List.map_cons, List.sum_cons, ih]
    clear ih
    induction m with
    | nil => simp
    | cons x m ih =>
      simp only [List.map_cons, List.sum_cons, List.countP_cons] at *
      omega

theorem assigns_two (D : Nat → List Row) (t1 t2 : Nat) (hne : t1 ≠ t2) (p : (Nat → Row) → Bool) (q : Row → Row → Bool)
    (hq : ∀ f, p f = q (f t1) (f t2)) :
    (assigns D [t1, t2]).countP p = ((D t1).map fun r => (D t2).countP (q r)).sum := by
  simp only [assigns, List.countP_flatMap]
  congr 1
  refine List.map_congr_left fun r _ => ?_
  simp only [Function.comp, List.countP_map, List.map_cons, List.map_nil]
  have : (List.flatMap (fun r => [fun x => if x = t2 then r else fun _ => 0]) (D t2) : List (Nat → Row)) =
      (D t2).map fun r => fun x => if x = t2 then r else fun _ => 0 := by
    induction (D t2) with
    | nil => rfl
    | cons a l ih => simp [ih]
  rw [this, List.countP_map]
  refine List.countP_congr fun r' _ => ?_
  simp [Function.comp, hq, hne.symm]

/-- The equi-join of two columns has no more rows than one side times the frequency on the other side. -/
theorem join_le (D : Nat → List Row) (a b : Col) (hne : a.tab ≠ b.tab) (joins : Cond) (hj : (a, b) ∈ joins ∨ (b, a) ∈ joins)
    (fb : Rat) (hfb : ∀ v, (((D b.tab).countP fun r => decide (r b.name = v) : Nat) : Rat) ≤ fb) :
    ((assigns D [a.tab, b.tab]).countP (Sat joins) : Rat) ≤ (D a.tab).length * fb := by
  have hle : (assigns D [a.tab, b.tab]).countP (Sat joins) ≤
      (assigns D [a.tab, b.tab]).countP fun f => decide (f a.tab a.name = f b.tab b.name) := by
    refine List.countP_mono_left fun f _ hf => ?_
    unfold Sat at hf
    rw [List.all_eq_true] at hf
    rcases hj with hj | hj
    · exact hf _ hj
    · have := hf _ hj
      simp only [decide_eq_true_eq] at this ⊢
      exact this.symm
  rw [assigns_two D a.tab b.tab hne _ (fun r r' => decide (r a.name = r' b.name)) (fun f => rfl)] at hle
  have h1 : ∀ r ∈ D a.tab, (D b.tab).countP (fun r' => decide (r a.name = r' b.name)) ≤ ⌊fb⌋.toNat := by
    intro r _
    have h := hfb (r a.name)
    have e : (D b.tab).countP (fun r' => decide (r a.name = r' b.name)) = (D b.tab).countP fun r' => decide (r' b.name = r a.name) :=
      List.countP_congr fun r' _ => by simp [eq_comm]
    rw [e]
    have : (((D b.tab).countP fun r' => decide (r' b.name = r a.name) : Nat) : Int) ≤ ⌊fb⌋ := by
      rw [Int.le_floor]
      push_cast
      exact h
    omega
  have h2 := hle.trans (sum_le _ _ _ h1)
  have hpos : (0 : Rat) ≤ fb := le_trans (by positivity) (hfb 0)
  have h3 : ((⌊fb⌋.toNat : Nat) : Rat) ≤ fb := by
    have : ((⌊fb⌋.toNat : Nat) : Int) = ⌊fb⌋ := Int.toNat_of_nonneg (Int.floor_nonneg.2 hpos)
    have e : ((⌊fb⌋.toNat : Nat) : Rat) = ((⌊fb⌋ : Int) : Rat) := by exact_mod_cast congrArg (Int.cast (R := Rat)) this
    rw [e]
    exact Int.floor_le fb
  calc ((assigns D [a.tab, b.tab]).countP (Sat joins) : Rat) ≤ (((D a.tab).length * ⌊fb⌋.toNat : Nat) : Rat) := by exact_mod_cast h2
    _ = (D a.tab).length * (⌊fb⌋.toNat : Rat) := by push_cast; ring
    _ ≤ (D a.tab).length * fb := by
      refine mul_le_mul_of_nonneg_left h3 (by positivity)

theorem assigns_comm (D : Nat → List Row) (t1 t2 : Nat) (hne : t1 ≠ t2) (joins : Cond)
    (hj : ∀ j ∈ joins, Connects t1 t2 j) : resultSize D joins [t1, t2] = resultSize D joins [t2, t1] := by
  have hp : ∃ q : Row → Row → Bool, ∀ f, Sat joins f = q (f t1) (f t2) := by
    refine ⟨fun r r' => joins.all fun j => decide ((if j.1.tab = t1 then r else r') j.1.name = (if j.2.tab = t1 then r else r') j.2.name), ?_⟩
    intro f
    unfold Sat
    rw [Bool.eq_iff_iff, List.all_eq_true, List.all_eq_true]
    refine forall₂_congr fun j hjm => ?_
    rcases hj j hjm with ⟨h1, h2⟩ | ⟨h1, h2⟩
    · simp [h1, h2, hne.symm]
    · simp [h1, h2, hne.symm]
  obtain ⟨q, hq⟩ := hp
  unfold resultSize
  rw [assigns_two D t1 t2 hne _ q hq, assigns_two D t2 t1 hne.symm _ (fun r r' => q r' r) hq, sum_comm]

/-! ### The estimates -/

theorem nm_ge (x b1 b2 f1 f2 : Rat) (h0 : 0 ≤ x) (hb1 : 0 ≤ b1) (hb2 : 0 ≤ b2) (hf1 : 0 < f1) (hf2 : 0 < f2)
    (h1 : x ≤ b1 * f2) (h2 : x ≤ b2 * f1) : x ≤ min (b1 / f1) (b2 / f2) * f1 * f2 := by
  rcases min_choice (b1 / f1) (b2 / f2) with h | h <;> rw [h]
  · rw [div_mul_cancel₀ _ hf1.ne']; exact h1
  · have : b2 / f2 * f1 * f2 = b2 * f1 := by field_simp
    rw [this]; exact h2

theorem fetch_valid {D : Nat → List Row} {s : St} {joins : Cond} (hv : Valid joins D s) (c : Col) (hc : Joined joins c) : ((D c.tab).length : Rat) ≤ fetchBound s c := by
  unfold fetchBound
  cases h : Dict.get? s.ub c.tab with
  | none => exact hv.rows _ hc
  | some b => exact hv.ub _ _ h

/-- The bound of one join predicate. -/
theorem pred_ge {D : Nat → List Row} {s : St} (joins : Cond) (hv : Valid joins D s) (j : Col × Col) (hj : j ∈ joins) (t1 t2 : Nat)
    (hne : t1 ≠ t2) (hall : ∀ j ∈ joins, Connects t1 t2 j) : (resultSize D joins [t1, t2] : Rat) ≤ predBound s j := by
  obtain ⟨a, b⟩ := j
  have htab : a.tab ≠ b.tab ∧ resultSize D joins [t1, t2] = resultSize D joins [a.tab, b.tab] := by
    rcases hall _ hj with ⟨h1, h2⟩ | ⟨h1, h2⟩
    · simp only at h1 h2
      exact ⟨by rw [h1, h2]; exact hne, by rw [h1, h2]⟩
    · simp only at h1 h2
      exact ⟨by rw [h1, h2]; exact hne.symm, by rw [h1, h2]; exact assigns_comm D t1 t2 hne joins hall⟩
  obtain ⟨hab, he⟩ := htab
  have hall' : ∀ j ∈ joins, Connects a.tab b.tab j := by
    intro j hjm
    have h1 := hall _ hj
    have h2 := hall j hjm
    simp only [Connects] at *
    omega
  have ja : Joined joins a := ⟨_, hj, .inl rfl⟩
  have jb : Joined joins b := ⟨_, hj, .inr rfl⟩
  have h1 := join_le D a b hab joins (.inl hj) (s.freq b) fun v => hv.freq b v jb
  have h2 := join_le D b a hab.symm joins (.inr hj) (s.freq a) fun v => hv.freq a v ja
  have he' : (assigns D [b.tab, a.tab]).countP (Sat joins) = resultSize D joins [a.tab, b.tab] :=
    (assigns_comm D a.tab b.tab hab joins hall').symm
  rw [he'] at h2
  change (resultSize D joins [a.tab, b.tab] : Rat) ≤ _ at h1
  rw [he]
  generalize resultSize D joins [a.tab, b.tab] = n at *
  have fpos : ∀ c, Joined joins c → 0 ≤ s.freq c := fun c hc => le_trans (by positivity) (hv.freq c 0 hc)
  have lpos : ∀ t, (0 : Rat) ≤ (D t).length := fun t => by positivity
  have pkfk : ∀ fk pk : Col, Joined joins fk → Joined joins pk → (n : Rat) ≤ (D pk.tab).length * s.freq fk → (n : Rat) ≤ pkFkBound s fk pk := by
    intro fk pk j1 j2 h
    unfold pkFkBound
    refine le_trans ?_ (Int.le_ceil _)
    calc (n : Rat) ≤ (D pk.tab).length * s.freq fk := h
      _ ≤ s.base pk.tab * s.freq fk := mul_le_mul_of_nonneg_right (hv.rows _ j2) (fpos _ j1)
      _ = s.freq fk * s.base pk.tab := mul_comm _ _
  unfold predBound
  split
  · exact pkfk a b ja jb h2
  · split
    · exact pkfk b a jb ja h1
    · unfold nmBound
      have h1' : (n : Rat) ≤ fetchBound s a * s.freq b := h1.trans (mul_le_mul_of_nonneg_right (fetch_valid hv a ja) (fpos _ jb))
      have h2' : (n : Rat) ≤ fetchBound s b * s.freq a := h2.trans (mul_le_mul_of_nonneg_right (fetch_valid hv b jb) (fpos _ ja))
      have ha0 : 0 ≤ fetchBound s a := (lpos _).trans (fetch_valid hv a ja)
      have hb0 : 0 ≤ fetchBound s b := (lpos _).trans (fetch_valid hv b jb)
      split
      · rename_i h0
        rcases h0 with h0 | h0 | h0 | h0
        · rw [h0] at h1'; simpa using h1'
        · rw [h0] at h2'; simpa using h2'
        · rw [h0] at h2'; simpa using h2'
        · rw [h0] at h1'; simpa using h1'
      · rename_i h0
        push Not at h0
        refine le_trans ?_ (Int.le_ceil _)
        exact nm_ge _ _ _ _ _ (by positivity) ha0 hb0 (lt_of_le_of_ne (fpos a ja) h0.2.2.1.symm)
          (lt_of_le_of_ne (fpos b jb) h0.2.2.2.symm) h1' h2'

theorem estimate_fold (s : St) (c : Cond) (m : Bound) (x : Rat) (hm : ∀ b, m = some b → x ≤ b) (h : ∀ j ∈ c, x ≤ predBound s j) :
    ∀ b, (c.foldl (fun m j => if Bound.lt (some (predBound s j)) m then some (predBound s j) else m) m) = some b → x ≤ b := by
  induction c generalizing m with
  | nil => exact hm
  | cons j c ih =>
    rw [List.foldl_cons]
    refine ih _ ?_ fun j hj => h j (by simp [hj])
    intro b hb
    split at hb
    · simp only [Option.some.injEq] at hb; rw [← hb]; exact h j (by simp)
    · exact hm b hb

/-- **C55**: for valid statistics, the estimate for the join of two tables is an upper bound of the size of the join, whatever
kind of join it is classified as and whichever of the predicates are used. -/
theorem C55_estimate (D : Nat → List Row) (s : St) (joins : Cond) (hv : Valid joins D s) (hne : joins ≠ []) (t1 t2 : Nat) (ht : t1 ≠ t2)
    (hall : ∀ j ∈ joins, Connects t1 t2 j) :
    ∃ b, uesEstimate s joins = some b ∧ (resultSize D joins [t1, t2] : Rat) ≤ b := by
  cases h : uesEstimate s joins with
  | none => exact absurd ((uesEstimate_fold s joins none).1 h).2 hne
  | some b =>
    exact ⟨b, rfl, estimate_fold s joins none _ (by simp) (fun j hj => pred_ge joins hv j hj t1 t2 ht hall) b h⟩

/-- **C55**: the annotated cardinality of the join order for a query of two tables is an upper bound of the size of its result. -/
theorem C55_binary (D : Nat → List Row) (joins : Cond) (index : Col → Index) (base : Nat → Rat) (freq : Col → Rat)
    (eager : Bool) (ord : List Nat → List Nat) (k t1 t2 : Nat) (ht : t1 ≠ t2)
    (hv : Valid joins D (start [t1, t2] joins [] index base freq)) (hne : joins ≠ []) (hall : ∀ j ∈ joins, Connects t1 t2 j) :
    ∃ tree b, optimize (uesPolicy eager ord k) (start [t1, t2] joins [] index base freq) [] = some (some tree) ∧ tree.ann = some b ∧
      (resultSize D joins [t1, t2] : Rat) ≤ b := by
  have hkeys : Dict.keys (start [t1, t2] joins [] index base freq).g.nodes = [t1, t2] :=
    (marked_build [t1, t2] joins [] index).keys
  have key : ∀ a b, (a = t1 ∧ b = t2) ∨ (a = t2 ∧ b = t1) → joinsBetween joins a [b] = some joins := by
    intro a b hab
    unfold joinsBetween
    have : (joins.filter fun j => (j.1.tab = a && j.2.tab ∈ [b]) || (j.2.tab = a && j.1.tab ∈ [b])) = joins := by
      rw [List.filter_eq_self]
      intro j hj
      rcases hab with ⟨rfl, rfl⟩ | ⟨rfl, rfl⟩ <;> rcases hall j hj with ⟨h1, h2⟩ | ⟨h1, h2⟩ <;> simp [h1, h2]
    simp only [this]
    rw [if_neg hne]
  obtain ⟨b, hb, hle⟩ := C55_estimate D _ joins hv hne t1 t2 ht hall
  have hopt : optimize (uesPolicy eager ord k) (start [t1, t2] joins [] index base freq) [] =
      (binaryOptimizer (uesPolicy eager ord k) (start [t1, t2] joins [] index base freq) t1 t2).map some := by
    unfold optimize optimizeConnected
    rw [hkeys]
    simp
  rw [hopt]
  unfold binaryOptimizer
  have hq : (start [t1, t2] joins [] index base freq).g.qjoins = joins := rfl
  simp only [hq]
  by_cases hlt : (start [t1, t2] joins [] index base freq).base t1 < (start [t1, t2] joins [] index base freq).base t2
  · simp only [hlt, if_true, key t2 t1 (.inr ⟨rfl, rfl⟩), Option.map_some]
    exact ⟨_, b, rfl, hb, hle⟩
  · simp only [hlt, if_false, key t1 t2 (.inl ⟨rfl, rfl⟩), Option.map_some]
    exact ⟨_, b, rfl, hb, hle⟩

/-! ### Star queries -/

theorem countP_assigns (D : Nat → List Row) (t : Nat) (ts : List Nat) (p : (Nat → Row) → Bool) :
    (assigns D (t :: ts)).countP p =
      ((D t).map fun r => (assigns D ts).countP fun f => p fun x => if x = t then r else f x).sum := by
  simp only [assigns, List.countP_flatMap]
  congr 1
  refine List.map_congr_left fun r _ => ?_
  simp only [Function.comp, List.countP_map]
  rfl

theorem sum_comm' {α β : Type} (l : List α) (m : List β) (g : α → β → Nat) :
    (l.map fun r => (m.map fun x => g r x).sum).sum = (m.map fun x => (l.map fun r => g r x).sum).sum := by
  induction l with
  | nil => simp
  | cons r l ih =>
    rw [List.map_cons, List.sum_cons, ih]
    clear ih
    induction m with
    | nil => simp
    | cons x m ih =>
      simp only [List.map_cons, List.sum_cons] at *
      omega

theorem countP_eq_sum {α : Type} (l : List α) (p : α → Bool) : l.countP p = (l.map fun x => if p x then 1 else 0).sum := by
  induction l with
  | nil => simp
  | cons x l ih => rw [List.countP_cons, ih]; simp [add_comm]

/-- The order of the tables does not matter. -/
theorem countP_perm (D : Nat → List Row) (ts ts' : List Nat) (h : ts.Perm ts') (hn : ts.Nodup) (p : (Nat → Row) → Bool) :
    (assigns D ts).countP p = (assigns D ts').countP p := by
  induction h generalizing p with
  | nil => rfl
  | cons x h ih =>
    rw [countP_assigns, countP_assigns]
    congr 1
    exact List.map_congr_left fun r _ => ih (List.nodup_cons.1 hn).2 _
  | swap x y l =>
    have hxy : x ≠ y := by
      intro h; subst h; simp at hn
    simp only [countP_assigns]
    rw [sum_comm']
    congr 1
    refine List.map_congr_left fun r _ => ?_
    congr 1
    refine List.map_congr_left fun r' _ => ?_
    refine List.countP_congr fun f _ => ?_
    have : (fun z => if z = y then r' else if z = x then r else f z) = fun z => if z = x then r else if z = y then r' else f z := by
      funext z
      by_cases h1 : z = x
      · by_cases h2 : z = y
        · exact absurd (h1.symm.trans h2) hxy
        · simp [h1, hxy]
      · simp [h1]
    rw [this]
  | trans h1 h2 ih1 ih2 => rw [ih1 hn, ih2 (h1.nodup_iff.1 hn)]

/-- A table is joined with the center by a unique column. -/
def KeyJoin (D : Nat → List Row) (center d : Nat) (joins : Cond) : Prop :=
  ∃ j ∈ joins, Connects center d j ∧ ∀ v, ((D d).countP fun r => decide (r (side d j).name = v)) ≤ 1

/-- Joining with a dimension table does not add rows. -/
theorem drop_dim (D : Nat → List Row) (center d : Nat) (hcd : center ≠ d) (ts : List Nat) (J K : Cond) (hK : ∀ j ∈ K, j ∈ J)
    (hKd : ∀ j ∈ K, j.1.tab ≠ d ∧ j.2.tab ≠ d) (hkey : KeyJoin D center d J) :
    (assigns D (d :: ts)).countP (Sat J) ≤ (assigns D ts).countP (Sat K) := by
  obtain ⟨j, hj, hcon, huniq⟩ := hkey
  rw [countP_assigns]
  have hstep : ∀ r f, Sat J (fun x => if x = d then r else f x) = true →
      Sat K f = true ∧ r (side d j).name = f center (side center j).name := by
    intro r f hs
    unfold Sat at *
    rw [List.all_eq_true] at hs
    constructor
    · rw [List.all_eq_true]
      intro i hi
      have := hs i (hK i hi)
      simpa [(hKd i hi).1, (hKd i hi).2] using this
    · have := hs j hj
      rcases hcon with ⟨h1, h2⟩ | ⟨h1, h2⟩
      · simp only [decide_eq_true_eq, h1, h2, hcd, if_true, if_false] at this
        simp only [side, h1, hcd, if_true, if_false]
        exact this.symm
      · simp only [decide_eq_true_eq, h1, h2, hcd, if_true, if_false] at this
        simp only [side, h1, hcd.symm, if_true, if_false]
        exact this
  calc ((D d).map fun r => (assigns D ts).countP fun f => Sat J fun x => if x = d then r else f x).sum
      ≤ ((D d).map fun r => (assigns D ts).countP fun f => Sat K f && decide (r (side d j).name = f center (side center j).name)).sum := by
        refine List.sum_le_sum fun r _ => List.countP_mono_left fun f _ hf => ?_
        obtain ⟨h1, h2⟩ := hstep r f hf
        simp [h1, h2]
    _ = ((D d).map fun r => ((assigns D ts).map fun f =>
          if (Sat K f && decide (r (side d j).name = f center (side center j).name)) = true then 1 else 0).sum).sum := by
        congr 1
        exact List.map_congr_left fun r _ => countP_eq_sum _ _
    _ = ((assigns D ts).map fun f => ((D d).map fun r =>
          if (Sat K f && decide (r (side d j).name = f center (side center j).name)) = true then 1 else 0).sum).sum := sum_comm' _ _ _
    _ ≤ ((assigns D ts).map fun f => if Sat K f then 1 else 0).sum := by
        refine List.sum_le_sum fun f _ => ?_
        rw [← countP_eq_sum]
        by_cases hs : Sat K f = true
        · simp only [hs, Bool.true_and, if_true]
          exact huniq _
        · simp [hs]
    _ = (assigns D ts).countP (Sat K) := (countP_eq_sum _ _).symm

theorem drop_dims (D : Nat → List Row) (center : Nat) (ds ts : List Nat) (J K : Cond) (hK : ∀ j ∈ K, j ∈ J)
    (hnd : (center :: ds).Nodup) (hJ : ∀ j ∈ J, j.1.tab = center ∨ j.2.tab = center)
    (hKd : ∀ j ∈ K, j.1.tab ∉ ds ∧ j.2.tab ∉ ds)
    (hkey : ∀ d ∈ ds, KeyJoin D center d J) : (assigns D (ds ++ ts)).countP (Sat J) ≤ (assigns D ts).countP (Sat K) := by
  induction ds generalizing J with
  | nil =>
    refine List.countP_mono_left fun f _ hf => ?_
    unfold Sat at *
    rw [List.all_eq_true] at *
    exact fun j hj => hf j (hK j hj)
  | cons d ds ih =>
    have hcd : center ≠ d := by intro h; subst h; simp at hnd
    have hdd : d ∉ ds := (List.nodup_cons.1 (List.nodup_cons.1 hnd).2).1
    refine (drop_dim D center d hcd (ds ++ ts) J (J.filter fun j => decide (j.1.tab ≠ d ∧ j.2.tab ≠ d)) ?_ ?_ (hkey d (by simp))).trans ?_
    · exact fun j hj => (List.mem_filter.1 hj).1
    · intro j hj
      have := (List.mem_filter.1 hj).2
      simpa using this
    · refine ih _ ?_ ?_ ?_ ?_ ?_
      · intro j hj
        rw [List.mem_filter]
        refine ⟨hK j hj, ?_⟩
        have := hKd j hj
        simp only [List.mem_cons, not_or] at this
        simp [this.1.1, this.2.1]
      · rw [List.nodup_cons] at hnd ⊢
        exact ⟨fun h => hnd.1 (by simp [h]), (List.nodup_cons.1 hnd.2).2⟩
      · exact fun j hj => hJ j (List.mem_filter.1 hj).1
      · intro j hj
        have := hKd j hj
        simp only [List.mem_cons, not_or] at this
        exact ⟨this.1.2, this.2.2⟩
      · intro d' hd'
        obtain ⟨j, hj, hcon, hu⟩ := hkey d' (by simp [hd'])
        refine ⟨j, ?_, hcon, hu⟩
        rw [List.mem_filter]
        refine ⟨hj, ?_⟩
        have hne : d' ≠ d := fun h => hdd (h ▸ hd')
        rcases hcon with ⟨h1, h2⟩ | ⟨h1, h2⟩
        · simp [h1, h2, hcd, hne]
        · simp [h1, h2, hcd, hne]

/-- The bound of the last join of a star query. -/
def LastBound (D : Nat → List Row) (joins : Cond) (center : Nat) (dims : List Nat) (tree : UTree) : Prop :=
  ∃ s d, Valid joins D s ∧ d ∈ dims ∧ condBetween joins center d ≠ [] ∧ tree.ann = uesEstimate s (condBetween joins center d)

theorem condBetween_symm (J : Cond) (a b : Nat) : condBetween J a b = condBetween J b a := by
  unfold condBetween
  refine List.filter_congr fun j _ => ?_
  rw [decide_eq_decide]
  exact connects_symm _ _ _

theorem star_path {D : Nat → List Row} {center : Nat} {dims : List Nat} {joins : Cond} (hnd : (center :: dims).Nodup)
    (hstar : ∀ j ∈ joins ++ [], ∃ d ∈ dims, Connects center d j) {a b : Nat} (h : JoinedBy (joins ++ []) a b) :
    ∃ d ∈ dims, condBetween (joins ++ []) a b = condBetween (joins ++ []) center d ∧ condBetween (joins ++ []) center d ≠ [] := by
  have hne := (joinedBy_iff _ _ _).1 h
  obtain ⟨j, hj, hc⟩ := h
  obtain ⟨d, hd, hcd⟩ := hstar j hj
  have hcn : center ≠ d := by intro h; subst h; exact (List.nodup_cons.1 hnd).1 hd
  refine ⟨d, hd, ?_⟩
  have hab : (a = center ∧ b = d) ∨ (a = d ∧ b = center) := by
    rcases hc with ⟨h1, h2⟩ | ⟨h1, h2⟩ <;> rcases hcd with ⟨h3, h4⟩ | ⟨h3, h4⟩ <;> omega
  rcases hab with ⟨rfl, rfl⟩ | ⟨rfl, rfl⟩
  · exact ⟨rfl, hne⟩
  · rw [condBetween_symm]
    rw [condBetween_symm] at hne
    exact ⟨rfl, hne⟩

theorem star_loop_bound {D : Nat → List Row} {center : Nat} {dims : List Nat} {joins : Cond} {index : Col → Index} {eager : Bool}
    {ord : List Nat → List Nat} {k : Nat} (hv : ValidJoins (center :: dims) (joins ++ []))
    (hstar : ∀ j ∈ joins ++ [], ∃ d ∈ dims, Connects center d j) (n : Nat) (tree tree' : UTree) (s : St)
    (hok : Ok (center :: dims) joins [] index (uesPolicy eager ord k) tree.leaves s) (hval : Valid (joins ++ []) D s)
    (hlast : LastBound D (joins ++ []) center dims tree) (h : starLoop (uesPolicy eager ord k) n tree s = some tree') :
    LastBound D (joins ++ []) center dims tree' := by
  induction n generalizing tree s with
  | zero =>
    simp only [starLoop] at h
    split at h
    · simp at h
    · simp only [Option.some.injEq] at h; rw [← h]; exact hlast
  | succ n ih =>
    simp only [starLoop] at h
    split at h
    · obtain ⟨p, hp, h⟩ := Option.bind_eq_some_iff.1 h
      obtain ⟨⟨t1, s1⟩, h1, h⟩ := Option.bind_eq_some_iff.1 h
      unfold applyJoin at h1
      obtain ⟨s2, h2, h3⟩ := Option.map_eq_some_iff.1 h1
      simp only [Prod.mk.injEq] at h3
      obtain ⟨rfl, rfl⟩ := h3
      obtain ⟨hpm, hpe, -⟩ := C104_greedy _ _ _ p hp
      obtain ⟨hok2, hb, hfr, hub⟩ := mark_ok hok h2
      obtain ⟨-, -, -, hpc, -⟩ := (ok_path hv hok (leaves_ne tree) false p).1 hpm
      obtain ⟨d, hd, he, hne⟩ := star_path (D := D) hv.nodup hstar (ok_path_any hv hok false p hpm).1
      refine ih (UTree.join tree (.scan p.target (some (s.base p.target)))
        (selectPath (uesPolicy eager ord k) s (s.g.availablePaths false)).1) s2 hok2 ⟨?_, ?_, ?_⟩ ?_ h
      · rw [hb]; exact hval.rows
      · rw [hub]; exact hval.ub
      · rw [hfr]; exact hval.freq
      · refine ⟨s, d, hval, hd, hne, ?_⟩
        simp only [UTree.ann]
        rw [hpe, hpc, he]
        rfl
    · simp only [Option.some.injEq] at h; rw [← h]; exact hlast

/-- **C55** (partial: only star queries, where each table is joined with a common table on a column with unique values): for valid
statistics, the annotated cardinality of the join order is an upper bound of the size of the query result. -/
theorem C55_star_partial (D : Nat → List Row) (center : Nat) (dims : List Nat) (joins : Cond) (index : Col → Index)
    (base : Nat → Rat) (freq : Col → Rat) (eager : Bool) (ord : List Nat → List Nat) (k n : Nat)
    (hv : ValidJoins (center :: dims) (joins ++ [])) (hstar : ∀ j ∈ joins ++ [], ∃ d ∈ dims, Connects center d j)
    (hkey : ∀ d ∈ dims, KeyJoin D center d (joins ++ [])) (hval : Valid (joins ++ []) D (start (center :: dims) joins [] index base freq))
    (tree : UTree) (h : starOptimizer (uesPolicy eager ord k) n (start (center :: dims) joins [] index base freq) = some tree) :
    ∃ b, tree.ann = some b ∧ (resultSize D (joins ++ []) (center :: dims) : Rat) ≤ b := by
  have hok := ok_start (tables := center :: dims) (joins := joins) (extra := []) (index := index) (P := uesPolicy eager ord k) base freq
  have hlast : LastBound D (joins ++ []) center dims tree := by
    unfold starOptimizer at h
    obtain ⟨p, hp, h⟩ := Option.bind_eq_some_iff.1 h
    obtain ⟨s1, h1, h⟩ := Option.bind_eq_some_iff.1 h
    obtain ⟨⟨t2, s2⟩, h2, h⟩ := Option.bind_eq_some_iff.1 h
    unfold applyJoin at h2
    obtain ⟨s3, h3, h4⟩ := Option.map_eq_some_iff.1 h2
    simp only [Prod.mk.injEq] at h4
    obtain ⟨rfl, rfl⟩ := h4
    obtain ⟨hpm, hpe, -⟩ := C104_greedy _ _ _ p hp
    obtain ⟨hok1, hb1, hfr1, hub1⟩ := mark_ok hok h1
    obtain ⟨hok2, hb2, hfr2, hub2⟩ := mark_ok hok1 h3
    have hj := (ok_path_any hv hok false p hpm).1
    have hpc : p.cond = condBetween (joins ++ []) p.start p.target := by
      have hini := (ok_facts hv.nodup hok).2.1.2 rfl
      have := (C30_initial_paths (center :: dims) joins [] index hv p).2.2 (.inl hpm)
      exact ((C30_initial_paths (center :: dims) joins [] index hv p).1.1 this).1
    obtain ⟨d, hd, he, hne⟩ := star_path (D := D) hv.nodup hstar hj
    refine star_loop_bound hv hstar n _ tree s3 hok2 ⟨?_, ?_, ?_⟩ ?_ h
    · rw [hb2, hb1]; exact hval.rows
    · rw [hub2, hub1]; exact hval.ub
    · rw [hfr2, hfr1]; exact hval.freq
    · refine ⟨_, d, hval, hd, hne, ?_⟩
      simp only [UTree.ann]
      rw [hpe, hpc, he]
      rfl
  obtain ⟨s, d, hs, hd, hne, hann⟩ := hlast
  have hcd : center ≠ d := by intro h; subst h; exact (List.nodup_cons.1 hv.nodup).1 hd
  obtain ⟨b, hb, hle⟩ := C55_estimate D s (condBetween (joins ++ []) center d) (hs.mono fun j hj => (List.mem_filter.1 hj).1) hne center d hcd
    (fun j hj => by simpa [condBetween] using (List.mem_filter.1 hj).2)
  refine ⟨b, hann.trans hb, le_trans ?_ hle⟩
  have hperm : (center :: dims).Perm (dims.erase d ++ [center, d]) := by
    have h1 : dims.Perm (d :: dims.erase d) := List.perm_cons_erase hd
    calc (center :: dims).Perm (center :: d :: dims.erase d) := h1.cons _
      _ = [center, d] ++ dims.erase d := rfl
      List.Perm _ (dims.erase d ++ [center, d]) := List.perm_append_comm
  unfold resultSize
  rw [countP_perm D _ _ hperm hv.nodup]
  have hnde : (center :: dims.erase d).Nodup := by
    have := hv.nodup
    rw [List.nodup_cons] at this ⊢
    exact ⟨fun h => this.1 (List.mem_of_mem_erase h), this.2.erase d⟩
  have := drop_dims D center (dims.erase d) [center, d] (joins ++ []) (condBetween (joins ++ []) center d)
    (fun j hj => (List.mem_filter.1 hj).1) hnde
    (fun j hj => by
      obtain ⟨x, -, h⟩ := hstar j hj
      rcases h with h | h
      · exact .inl h.1
      · exact .inr h.2)
    (fun j hj => by
      have hc : Connects center d j := by simpa [condBetween] using (List.mem_filter.1 hj).2
      have h1 : center ∉ dims.erase d := (List.nodup_cons.1 hnde).1
      have h2 : d ∉ dims.erase d := fun h => ((List.nodup_cons.1 hv.nodup).2.mem_erase_iff.1 h).1 rfl
      rcases hc with ⟨e1, e2⟩ | ⟨e1, e2⟩
      · rw [e1, e2]; exact ⟨h1, h2⟩
      · rw [e1, e2]; exact ⟨h2, h1⟩)
    (fun x hx => hkey x (List.mem_of_mem_erase hx))
  exact_mod_cast this

/-! ### Violations -/

/-- Two rows in `t1`, three rows in `t2` and four rows in `t3`, all with the same values. -/
def ex_data : Nat → List Row := fun t => if t = 1 ∨ t = 2 ∨ t = 3 then List.replicate (t + 1) (fun _ => 7) else []

/-- The exact statistics. -/
def ex_stats : Nat → Rat := fun t => if t = 1 ∨ t = 2 ∨ t = 3 then t + 1 else 0

theorem ex_rows (t : Nat) : ((ex_data t).length : Rat) = ex_stats t := by
  unfold ex_data ex_stats
  split <;> simp

theorem ex_valid_stats (joins : Cond) (index : Col → Index) (tables : List Nat) :
    Valid joins ex_data (start tables joins [] index ex_stats fun c => ex_stats c.tab) := by
  refine ⟨fun c _ => (ex_rows c.tab).le, fun t b h => by simp [start, Dict.get?] at h, fun c v _ => ?_⟩
  have : (ex_data c.tab).countP (fun r => decide (r c.name = v)) ≤ (ex_data c.tab).length := List.countP_le_length
  calc ((ex_data c.tab).countP (fun r => decide (r c.name = v)) : Rat) ≤ (ex_data c.tab).length := by exact_mod_cast this
    _ = _ := ex_rows _

/-- **C55** (violated): with exact statistics, the bound of an n:m join of three tables is too low: the bound of the third join
uses the size of a base table instead of the bound of the intermediate result. -/
theorem C55_chain_violated (eager : Bool) : Valid ex_chain ex_data (start [1, 2, 3] ex_chain [] (fun _ => noIx) ex_stats fun c => ex_stats c.tab) ∧
    ∃ tree, optimize (uesPolicy eager id 20) (start [1, 2, 3] ex_chain [] (fun _ => noIx) ex_stats fun c => ex_stats c.tab) [] = some (some tree) ∧
      tree.ann = some 12 ∧ resultSize ex_data ex_chain [1, 2, 3] = 24 := by
  refine ⟨ex_valid_stats _ _ _, UTree.join (.join (.scan 1 (some 2)) (.scan 2 (some 3)) (some 6)) (.scan 3 (some 4)) (some 12), ?_, rfl,
    by decide +kernel⟩
  cases eager <;> decide +kernel

/-- `t1.a = t2.id AND t2.b = t3.id`. -/
def ex_snow : Cond := [(col 1 5, col 2 0), (col 2 5, col 3 0)]

/-- Four rows in `t1` that refer to two rows in `t2`, which refer to two of five rows in `t3`. -/
def ex_snow_data : Nat → List Row := fun t =>
  if t = 1 then [fun _ => 0, fun _ => 0, fun _ => 1, fun _ => 1]
  else if t = 2 then [fun _ => 0, fun _ => 1]
  else if t = 3 then [fun _ => 0, fun _ => 1, fun _ => 2, fun _ => 3, fun _ => 4]
  else []

/-- The number of rows. -/
def ex_snow_rows : Nat → Rat := fun t => if t = 1 then 4 else if t = 2 then 2 else if t = 3 then 5 else 0

/-- The maximum frequencies. -/
def ex_snow_freq : Col → Rat := fun c => if c.tab = 1 then 2 else if c.tab = 2 then 1 else if c.tab = 3 then 1 else 0

/-- **C55** (violated): with exact statistics, the bound of a query of two primary key/foreign key joins is too low: after the
first join, the second one is treated as an n:m join of the base tables. -/
theorem C55_foreign_keys_violated (eager : Bool) :
    Valid ex_snow ex_snow_data (start [1, 2, 3] ex_snow [] ex_index ex_snow_rows ex_snow_freq) ∧
    ∃ tree, optimize (uesPolicy eager id 20) (start [1, 2, 3] ex_snow [] ex_index ex_snow_rows ex_snow_freq) [] = some (some tree) ∧
      tree.ann = some 2 ∧ resultSize ex_snow_data ex_snow [1, 2, 3] = 4 := by
  refine ⟨⟨?_, fun t b h => by simp [start, Dict.get?] at h, ?_⟩,
    UTree.join (.join (.scan 1 (some 4)) (.scan 2 (some 2)) (some 4)) (.scan 3 (some 5)) (some 2), ?_, rfl, by decide +kernel⟩
  · rintro ⟨t, n⟩ -
    unfold ex_snow_data start ex_snow_rows
    simp only
    split
    · simp
    · split
      · simp
      · split <;> simp
  · rintro ⟨t, n⟩ v -
    unfold ex_snow_data start ex_snow_freq
    simp only
    by_cases h1 : t = 1
    · subst h1
      simp only [if_true, List.countP_cons, List.countP_nil]
      by_cases e0 : 0 = v
      · subst e0; norm_num
      · by_cases e1 : 1 = v
        · subst e1; norm_num
        · simp [e0, e1]
    · by_cases h2 : t = 2
      · subst h2
        by_cases e0 : 0 = v
        · subst e0; norm_num [List.countP_cons]
        · by_cases e1 : 1 = v
          · subst e1; norm_num [List.countP_cons]
          · simp [List.countP_cons, e0, e1]
      · by_cases h3 : t = 3
        · subst h3
          by_cases hv : v < 5
          · interval_cases v <;> norm_num [List.countP_cons]
          · have : 0 ≠ v ∧ 1 ≠ v ∧ 2 ≠ v ∧ 3 ≠ v ∧ 4 ≠ v := by omega
            simp [List.countP_cons, this]
        · simp [h1, h2, h3]
  · cases eager <;> decide +kernel

/-- A fact table with four rows and two dimension tables with two and five rows. -/
example : ∃ tree b, starOptimizer (uesPolicy true id 20) 3 (start [1, 2, 3] ex_star [] ex_index ex_snow_rows
      fun c => ex_snow_rows c.tab) = some tree ∧ tree.ann = some b ∧ (resultSize ex_snow_data (ex_star ++ []) [1, 2, 3] : Rat) ≤ b := by
  have hval : Valid (ex_star ++ []) ex_snow_data (start [1, 2, 3] ex_star [] ex_index ex_snow_rows fun c => ex_snow_rows c.tab) := by
    have hr : ∀ t, ((ex_snow_data t).length : Rat) ≤ ex_snow_rows t := by
      intro t
      unfold ex_snow_data ex_snow_rows
      split
      · simp
      · split
        · simp
        · split <;> simp
    refine ⟨fun c _ => hr c.tab, fun t b h => by simp [start, Dict.get?] at h, fun c v _ => le_trans ?_ (hr c.tab)⟩
    exact_mod_cast List.countP_le_length
  have hu : ∀ d, (d = 2 ∨ d = 3) → ∀ n v, ((ex_snow_data d).countP fun r => decide (r n = v)) ≤ 1 := by
    intro d hd n v
    rcases hd with rfl | rfl
    · by_cases hv : v < 5
      · interval_cases v <;> simp [ex_snow_data, List.countP_cons]
      · have : 0 ≠ v ∧ 1 ≠ v ∧ 2 ≠ v ∧ 3 ≠ v ∧ 4 ≠ v := by omega
        simp [ex_snow_data, List.countP_cons, this]
    · by_cases hv : v < 5
      · interval_cases v <;> simp [ex_snow_data, List.countP_cons]
      · have : 0 ≠ v ∧ 1 ≠ v ∧ 2 ≠ v ∧ 3 ≠ v ∧ 4 ≠ v := by omega
        simp [ex_snow_data, List.countP_cons, this]
  have hopt : ∃ tree, starOptimizer (uesPolicy true id 20) 3 (start [1, 2, 3] ex_star [] ex_index ex_snow_rows
      fun c => ex_snow_rows c.tab) = some tree := Option.isSome_iff_exists.1 (by decide +kernel)
  obtain ⟨tree, ht⟩ := hopt
  obtain ⟨b, h1, h2⟩ := C55_star_partial ex_snow_data 1 [2, 3] ex_star ex_index ex_snow_rows (fun c => ex_snow_rows c.tab) true id 20 3
    ⟨by decide, by decide, by decide⟩ (by decide)
    (by
      intro d hd
      simp only [List.mem_cons, List.not_mem_nil, or_false] at hd
      rcases hd with rfl | rfl
      · exact ⟨(col 1 5, col 2 0), by decide, by decide, hu 2 (.inl rfl) _⟩
      · exact ⟨(col 1 6, col 3 0), by decide, by decide, hu 3 (.inr rfl) _⟩) hval tree ht
  exact ⟨tree, b, ht, h1, h2⟩

example : ∃ b, uesEstimate (start [1, 2] [(col 1 1, col 2 1)] [] ex_index ex_stats fun c => ex_stats c.tab) [(col 1 1, col 2 1)] = some b ∧
    (resultSize ex_data [(col 1 1, col 2 1)] [1, 2] : Rat) ≤ b :=
  C55_estimate ex_data _ _ (ex_valid_stats _ _ _) (by simp) 1 2 (by decide) (by decide)

example : ∃ tree b, optimize (uesPolicy true id 3) (start [1, 2] [(col 1 1, col 2 1)] [] ex_index ex_stats fun c => ex_stats c.tab) [] =
    some (some tree) ∧ tree.ann = some b ∧ (resultSize ex_data [(col 1 1, col 2 1)] [1, 2] : Rat) ≤ b :=
  C55_binary ex_data _ _ _ _ _ _ _ 1 2 (by decide) (ex_valid_stats _ _ _) (by simp) (by decide)

end PB.UesBoundsProps
