import Verif.Props.UesBounds

/-! Properties of the frequency updates of the UES join order optimizer (C239). -/

set_option linter.unusedSimpArgs false
set_option linter.unusedVariables false
set_option linter.unusedSectionVars false
set_option linter.unnecessarySimpa false

namespace PB.UesFreqProps

open PB PB.JoinGraph PB.JoinGraphProps PB.Ues PB.UesProps PB.UesBoundsProps

/-! ### Specification -/

/-- The join of an intermediate result with the rows of a further table. -/
def extend (I : List (Nat → Row)) (t : Nat) (T : List Row) (c : Cond) : List (Nat → Row) :=
  (I.flatMap fun f => T.map fun r x => if x = t then r else f x).filter (Sat c)

/-- How often a value appears in a column of an intermediate result. -/
def occurs (I : List (Nat → Row)) (x : Col) (v : Nat) : Nat := I.countP fun f => decide (f x.tab x.name = v)

/-- The column belongs to a join between two tables of the join tree other than the table that has been joined. -/
def Third (qjoins : Cond) (tree : List Nat) (t : Nat) (x : Col) : Prop :=
  ∃ j ∈ qjoins, (x = j.1 ∨ x = j.2) ∧ j.1.tab ∈ tree ∧ j.2.tab ∈ tree ∧ j.1.tab ≠ t ∧ j.2.tab ≠ t ∧ j.1.tab ≠ j.2.tab

/-- All predicates connect the table with other tables. -/
def Connects (c : Cond) (t : Nat) : Prop := ∀ j ∈ c, (j.1.tab = t ∧ j.2.tab ≠ t) ∨ (j.2.tab = t ∧ j.1.tab ≠ t)

/-! ### Lemmas -/

theorem thirdParty_iff (q : Cond) (tree : List Nat) (t : Nat) (x : Col) : x ∈ thirdParty q tree t ↔ Third q tree t x := by
  simp only [thirdParty, List.mem_flatMap, Third]
  constructor
  · rintro ⟨u, hu, hx⟩
    cases h : joinsBetween q u ((tree.filter (· ≠ t)).filter (· ≠ u)) with
    | none => rw [h] at hx; simp at hx
    | some c =>
      rw [h] at hx
      simp only [Option.map_some, Option.getD_some, condCols, List.mem_flatMap] at hx
      obtain ⟨j, hj, hx⟩ := hx
      have hx : x = j.1 ∨ x = j.2 := by simpa using hx
      simp only [joinsBetween] at h
      split at h
      · cases h
      · have h := Option.some.inj h
        rw [← h] at hj
        simp only [List.mem_filter, Bool.or_eq_true, Bool.and_eq_true, decide_eq_true_eq] at hj hu
        obtain ⟨hq, h1 | h1⟩ := hj
        · refine ⟨j, hq, hx, ?_⟩
          rw [h1.1]; exact ⟨hu.1, h1.2.1.1, by simpa using hu.2, by simpa using h1.2.1.2, fun e => h1.2.2 e.symm⟩
        · refine ⟨j, hq, hx, ?_⟩
          rw [h1.1]; exact ⟨h1.2.1.1, hu.1, by simpa using h1.2.1.2, by simpa using hu.2, h1.2.2⟩
  · rintro ⟨j, hq, hx, h1, h2, h3, h4, h5⟩
    refine ⟨j.1.tab, by simp [h1, h3], ?_⟩
    have hm : j ∈ q.filter fun k => (k.1.tab = j.1.tab && k.2.tab ∈ (tree.filter (· ≠ t)).filter (· ≠ j.1.tab)) ||
        (k.2.tab = j.1.tab && k.1.tab ∈ (tree.filter (· ≠ t)).filter (· ≠ j.1.tab)) := by
      simp only [List.mem_filter, Bool.or_eq_true, Bool.and_eq_true, decide_eq_true_eq]
      exact ⟨hq, .inl ⟨trivial, ⟨h2, by simpa using h4⟩, fun e => h5 e.symm⟩⟩
    have hne : q.filter (fun k => (k.1.tab = j.1.tab && k.2.tab ∈ (tree.filter (· ≠ t)).filter (· ≠ j.1.tab)) ||
        (k.2.tab = j.1.tab && k.1.tab ∈ (tree.filter (· ≠ t)).filter (· ≠ j.1.tab))) ≠ [] := List.ne_nil_of_mem hm
    rw [joinsBetween]
    rw [if_neg hne]
    simp only [Option.map_some, Option.getD_some, condCols, List.mem_flatMap]
    exact ⟨j, hm, by simpa using hx⟩

theorem updatePair_mono (f : Col → Rat) (hf : ∀ x, 1 ≤ f x) (a b x : Col) : f x ≤ updatePair f a b x := by
  have ha := hf a; have hb := hf b; have hx := hf x
  simp only [updatePair]
  split <;> split <;> nlinarith [mul_nonneg (show (0 : Rat) ≤ f x - 1 by linarith) (show (0 : Rat) ≤ f b - 1 by linarith),
    mul_nonneg (show (0 : Rat) ≤ f x * (f b - 1) by nlinarith) (show (0 : Rat) ≤ f a - 1 by linarith)]

theorem updatePair_fst (f : Col → Rat) (a b : Col) (h : a ≠ b) : updatePair f a b a = f a * f b := by simp [updatePair, h]

theorem updatePair_snd (f : Col → Rat) (a b : Col) (h : a ≠ b) : updatePair f a b b = f a * f b := by
  simp [updatePair, Ne.symm h, mul_comm]

theorem updatePairs_cons (t : Nat) (f : Col → Rat) (j : Col × Col) (c : Cond) :
    updatePairs t f (j :: c) = updatePairs t (if j.1.tab = t then updatePair f j.1 j.2 else updatePair f j.2 j.1) c := rfl

theorem updatePairs_mono (t : Nat) : ∀ (c : Cond) (f : Col → Rat), (∀ x, 1 ≤ f x) → ∀ x, f x ≤ updatePairs t f c x
  | [], f, _, x => le_rfl
  | j :: c, f, hf, x => by
    rw [updatePairs_cons]
    split
    · have h1 := updatePair_mono f hf j.1 j.2
      exact (h1 x).trans (updatePairs_mono t c _ (fun y => (hf y).trans (h1 y)) x)
    · have h1 := updatePair_mono f hf j.2 j.1
      exact (h1 x).trans (updatePairs_mono t c _ (fun y => (hf y).trans (h1 y)) x)

theorem updatePairs_pair (t : Nat) : ∀ (c : Cond) (f : Col → Rat), (∀ x, 1 ≤ f x) → Connects c t → ∀ j ∈ c,
    f j.1 * f j.2 ≤ updatePairs t f c j.1 ∧ f j.1 * f j.2 ≤ updatePairs t f c j.2
  | [], _, _, _, j, hj => by simp at hj
  | k :: c, f, hf, hc, j, hj => by
    rw [updatePairs_cons]
    have hkt := hc k (by simp)
    have hne : k.1 ≠ k.2 := by
      intro e; rcases hkt with h | h
      · exact h.2 (by rw [← e]; exact h.1)
      · exact h.2 (by rw [e]; exact h.1)
    have key : ∀ g : Col → Rat, (∀ x, f x ≤ g x) → (k = j → f j.1 * f j.2 ≤ g j.1 ∧ f j.1 * f j.2 ≤ g j.2) →
        f j.1 * f j.2 ≤ updatePairs t g c j.1 ∧ f j.1 * f j.2 ≤ updatePairs t g c j.2 := by
      intro g hg hk
      have hg1 : ∀ x, 1 ≤ g x := fun x => (hf x).trans (hg x)
      rcases List.mem_cons.mp hj with e | e
      · obtain ⟨a, b⟩ := hk e.symm
        exact ⟨a.trans (updatePairs_mono t c g hg1 _), b.trans (updatePairs_mono t c g hg1 _)⟩
      · obtain ⟨a, b⟩ := updatePairs_pair t c g hg1 (fun x hx => hc x (by simp [hx])) j e
        have : f j.1 * f j.2 ≤ g j.1 * g j.2 :=
          mul_le_mul (hg _) (hg _) (by linarith [hf j.2]) (by linarith [hg1 j.1])
        exact ⟨this.trans a, this.trans b⟩
    split
    · refine key _ (updatePair_mono f hf _ _) ?_
      rintro rfl
      rw [updatePair_fst _ _ _ hne, updatePair_snd _ _ _ hne]; exact ⟨le_rfl, le_rfl⟩
    · refine key _ (updatePair_mono f hf _ _) ?_
      rintro rfl
      rw [updatePair_fst _ _ _ hne.symm, updatePair_snd _ _ _ hne.symm, mul_comm]; exact ⟨le_rfl, le_rfl⟩

theorem argminCol_mem (f : Col → Rat) : ∀ (l : List Col) (m : Col), argminCol f l = some m → m ∈ l
  | [], m, h => by simp [argminCol] at h
  | c :: cs, m, h => by
    have aux : ∀ (cs : List Col) (c : Col), cs.foldl (fun m x => if f x < f m then x else m) c ∈ c :: cs := by
      intro cs
      induction cs with
      | nil => intro c; simp
      | cons d cs ih =>
        intro c
        simp only [List.foldl_cons]
        split
        · have := ih d; simp at this ⊢; tauto
        · have := ih c; simp at this ⊢; tauto
    simp only [argminCol, Option.some.injEq] at h
    rw [← h]; exact aux cs c

theorem argminCol_some (f : Col → Rat) (l : List Col) (h : l ≠ []) : ∃ m, argminCol f l = some m := by
  cases l with
  | nil => exact absurd rfl h
  | cons c cs => exact ⟨_, rfl⟩

theorem sum_count (I : List (Nat → Row)) (g : (Nat → Row) → Nat) (p : (Nat → Row) → Bool) (M : Rat)
    (h : ∀ f ∈ I, (g f : Rat) ≤ if p f then M else 0) : (((I.map g).sum : Nat) : Rat) ≤ (I.countP p : Nat) * M := by
  induction I with
  | nil => simp
  | cons f I ih =>
    have h1 := h f (by simp)
    have h2 := ih fun x hx => h x (by simp [hx])
    simp only [List.map_cons, List.sum_cons, List.countP_cons, Nat.cast_add]
    by_cases hp : p f = true
    · simp only [hp, if_true] at h1 ⊢
      push_cast; linarith
    · simp only [hp, if_false, Bool.false_eq_true] at h1 ⊢
      push_cast; linarith

theorem occurs_extend (I : List (Nat → Row)) (t : Nat) (T : List Row) (c : Cond) (x : Col) (v : Nat) :
    occurs (extend I t T c) x v = (I.map fun f => T.countP fun r =>
      Sat c (fun y => if y = t then r else f y) && decide ((if x.tab = t then r else f x.tab) x.name = v)).sum := by
  unfold occurs extend
  rw [List.countP_filter]
  induction I with
  | nil => simp
  | cons f I ih =>
    simp only [List.flatMap_cons, List.countP_append, ih, List.map_cons, List.sum_cons, List.countP_map]
    congr 1
    refine List.countP_congr fun r _ => ?_
    simp [and_comm]

theorem countP_le_of (T : List Row) (p q : Row → Bool) (h : ∀ r ∈ T, p r = true → q r = true) : T.countP p ≤ T.countP q :=
  List.countP_mono_left h

/-! ### The columns that are updated -/

section
variable (s : St) (tree : List Nat) (t : Nat) (c : Cond) (I : List (Nat → Row)) (T : List Row)

theorem partner_bound (hc : Connects c t) (j : Col × Col) (hj : j ∈ c) (a b : Col) (hab : (a = j.1 ∧ b = j.2) ∨ (a = j.2 ∧ b = j.1)) (ha : a.tab = t) (hb : b.tab ≠ t)
    (F : Col → Rat) (hT : ∀ v, ((T.countP fun r => decide (r a.name = v) : Nat) : Rat) ≤ F a) (hI : ∀ v, ((occurs I b v : Nat) : Rat) ≤ F b)
    (x : Col) (hx : x = a ∨ x = b) (v : Nat) : ((occurs (extend I t T c) x v : Nat) : Rat) ≤ F a * F b := by
  rw [occurs_extend]
  have hsat : ∀ (f : Nat → Row) (r : Row), Sat c (fun y => if y = t then r else f y) = true → r a.name = f b.tab b.name := by
    intro f r h
    simp only [Sat, List.all_eq_true, decide_eq_true_eq] at h
    have := h j hj
    rcases hab with ⟨rfl, rfl⟩ | ⟨rfl, rfl⟩
    · simpa [ha, hb] using this
    · simpa [ha, hb] using this.symm
  have hM : (0 : Rat) ≤ F a := le_trans (by positivity) (hT 0)
  have h1 := sum_count I (fun f => T.countP fun r =>
      Sat c (fun y => if y = t then r else f y) && decide ((if x.tab = t then r else f x.tab) x.name = v)) (fun f => decide (f b.tab b.name = v)) (F a) (by
    intro f _
    by_cases hf : f b.tab b.name = v
    · simp only [hf, decide_true, if_true]
      refine le_trans ?_ (hT v)
      exact_mod_cast countP_le_of T _ _ (by
        intro r _ hr
        simp only [Bool.and_eq_true, decide_eq_true_eq] at hr
        simp [hsat f r hr.1, hf])
    · simp only [hf, decide_false, Bool.false_eq_true, if_false]
      have : (T.countP fun r => Sat c (fun y => if y = t then r else f y) && decide ((if x.tab = t then r else f x.tab) x.name = v)) = 0 := by
        rw [List.countP_eq_zero]
        intro r _ hr
        simp only [Bool.and_eq_true, decide_eq_true_eq] at hr
        have h2 := hsat f r hr.1
        rcases hx with rfl | rfl
        · rw [if_pos ha] at hr; exact hf (h2.symm.trans hr.2)
        · rw [if_neg hb] at hr; exact hf hr.2
      rw [this]; simp)
  have h2 := mul_le_mul_of_nonneg_right (hI v) hM
  rw [mul_comm (F b)] at h2
  exact h1.trans h2

theorem third_bound (j : Col × Col) (hj : j ∈ c) (a b : Col) (hab : (a = j.1 ∧ b = j.2) ∨ (a = j.2 ∧ b = j.1)) (ha : a.tab = t) (hb : b.tab ≠ t)
    (F : Col → Rat) (hT : ∀ v, ((T.countP fun r => decide (r a.name = v) : Nat) : Rat) ≤ F a) (x : Col) (hxt : x.tab ≠ t)
    (hI : ∀ v, ((occurs I x v : Nat) : Rat) ≤ F x) (v : Nat) : ((occurs (extend I t T c) x v : Nat) : Rat) ≤ F x * F a := by
  rw [occurs_extend]
  have hsat : ∀ (f : Nat → Row) (r : Row), Sat c (fun y => if y = t then r else f y) = true → r a.name = f b.tab b.name := by
    intro f r h
    simp only [Sat, List.all_eq_true, decide_eq_true_eq] at h
    have := h j hj
    rcases hab with ⟨rfl, rfl⟩ | ⟨rfl, rfl⟩
    · simpa [ha, hb] using this
    · simpa [ha, hb] using this.symm
  have hM : (0 : Rat) ≤ F a := le_trans (by positivity) (hT 0)
  have h1 := sum_count I (fun f => T.countP fun r =>
      Sat c (fun y => if y = t then r else f y) && decide ((if x.tab = t then r else f x.tab) x.name = v)) (fun f => decide (f x.tab x.name = v)) (F a) (by
    intro f _
    by_cases hf : f x.tab x.name = v
    · simp only [hf, decide_true, if_true]
      refine le_trans ?_ (hT (f b.tab b.name))
      exact_mod_cast countP_le_of T _ _ (by
        intro r _ hr
        simp only [Bool.and_eq_true, decide_eq_true_eq] at hr
        simp [hsat f r hr.1])
    · simp [hf, hxt])
  exact h1.trans (mul_le_mul_of_nonneg_right (hI v) hM)

/-- **C239**: if the frequencies are upper bounds for the intermediate result and for the joined table, then the updated ones are upper bounds for the result
of the join, for the columns of the join predicates and for the columns of the joins between the other tables of the join tree. -/
theorem C239_updated_partial (hc : Connects c t) (hne : c ≠ []) (h1 : ∀ x, 1 ≤ s.freq x)
    (hI : ∀ x : Col, x.tab ≠ t → Joined c x ∨ Third s.g.qjoins tree t x → ∀ v, ((occurs I x v : Nat) : Rat) ≤ s.freq x)
    (hT : ∀ x : Col, x.tab = t → Joined c x → ∀ v, ((T.countP fun r => decide (r x.name = v) : Nat) : Rat) ≤ s.freq x)
    (x : Col) (hx : Joined c x ∨ Third s.g.qjoins tree t x) (v : Nat) :
    ((occurs (extend I t T c) x v : Nat) : Rat) ≤ uesUpdate s tree t c x := by
  have hside : ∀ j ∈ c, ∃ a b : Col, ((a = j.1 ∧ b = j.2) ∨ (a = j.2 ∧ b = j.1)) ∧ a.tab = t ∧ b.tab ≠ t := by
    intro j hj
    rcases hc j hj with h | h
    · exact ⟨j.1, j.2, .inl ⟨rfl, rfl⟩, h.1, h.2⟩
    · exact ⟨j.2, j.1, .inr ⟨rfl, rfl⟩, h.1, h.2⟩
  have hlow : ∃ low, argminCol (updatePairs t s.freq c) ((condCols c).filter fun x => x.tab = t) = some low := by
    apply argminCol_some
    obtain ⟨j, hj⟩ := List.exists_mem_of_ne_nil c hne
    obtain ⟨a, b, hab, ha, -⟩ := hside j hj
    refine List.ne_nil_of_mem (a := a) ?_
    simp only [List.mem_filter, condCols, List.mem_flatMap, decide_eq_true_eq]
    refine ⟨⟨j, hj, ?_⟩, ha⟩
    rcases hab with h | h <;> simp [h.1]
  obtain ⟨low, hlow⟩ := hlow
  have hmem := argminCol_mem _ _ _ hlow
  simp only [List.mem_filter, condCols, List.mem_flatMap, decide_eq_true_eq] at hmem
  obtain ⟨⟨k, hk, hlk⟩, hlt⟩ := hmem
  have hlk : low = k.1 ∨ low = k.2 := by simpa using hlk
  have hmono := updatePairs_mono t c s.freq h1
  have hval : uesUpdate s tree t c x = if x ∈ thirdParty s.g.qjoins tree t then updatePairs t s.freq c x * updatePairs t s.freq c low else updatePairs t s.freq c x := by
    simp only [uesUpdate, hlow]
  have hge : updatePairs t s.freq c x ≤ uesUpdate s tree t c x := by
    rw [hval]
    split
    · have a := (h1 x).trans (hmono x)
      have b := (h1 low).trans (hmono low)
      nlinarith
    · exact le_rfl
  by_cases hjx : Joined c x
  · obtain ⟨j, hj, hxj⟩ := hjx
    obtain ⟨a, b, hab, ha, hb⟩ := hside j hj
    have ja : Joined c a := ⟨j, hj, by rcases hab with h | h <;> simp [h.1]⟩
    have jb : Joined c b := ⟨j, hj, by rcases hab with h | h <;> simp [h.2]⟩
    have h2 := partner_bound t c I T hc j hj a b hab ha hb s.freq (hT a ha ja) (hI b hb (.inl jb)) x
      (by rcases hab with ⟨rfl, rfl⟩ | ⟨rfl, rfl⟩ <;> tauto) v
    have h3 := updatePairs_pair t c s.freq h1 hc j hj
    refine h2.trans (le_trans ?_ hge)
    have e : s.freq a * s.freq b = s.freq j.1 * s.freq j.2 := by
      rcases hab with ⟨rfl, rfl⟩ | ⟨rfl, rfl⟩
      · rfl
      · exact mul_comm _ _
    rw [e]
    rcases hxj with rfl | rfl
    · exact h3.1
    · exact h3.2
  · have hth : Third s.g.qjoins tree t x := hx.resolve_left hjx
    have hxt : x.tab ≠ t := by
      obtain ⟨j, -, hxj, -, -, h3, h4, -⟩ := hth
      rcases hxj with rfl | rfl <;> assumption
    obtain ⟨a, b, hab, ha, hb⟩ := hside k hk
    have hla : low = a := by
      rcases hab with ⟨rfl, rfl⟩ | ⟨rfl, rfl⟩
      · rcases hlk with h | h
        · exact h
        · rw [h] at hlt; exact absurd hlt hb
      · rcases hlk with h | h
        · rw [h] at hlt; exact absurd hlt hb
        · exact h
    have ja : Joined c a := ⟨k, hk, by rcases hab with h | h <;> simp [h.1]⟩
    have h2 := third_bound t c I T k hk a b hab ha hb s.freq (hT a ha ja) x hxt (hI x hxt (.inr hth)) v
    rw [hval, if_pos ((thirdParty_iff _ _ _ _).mpr hth), hla]
    exact h2.trans (mul_le_mul (hmono x) (hmono a) (by linarith [h1 a]) (by linarith [h1 x, hmono x]))

/-- **C239**: all other columns keep their frequency. -/
theorem C239_unchanged (x : Col) (hx : ¬ Joined c x) (hx' : ¬ Third s.g.qjoins tree t x) : uesUpdate s tree t c x = s.freq x := by
  have h1 : ∀ (d : Cond) (f : Col → Rat), ¬ Joined d x → updatePairs t f d x = f x := by
    intro d
    induction d with
    | nil => intro f _; rfl
    | cons j d ih =>
      intro f h
      rw [updatePairs_cons, ih _ (fun ⟨k, hk, e⟩ => h ⟨k, by simp [hk], e⟩)]
      have a : x ≠ j.1 := fun e => h ⟨j, by simp, .inl e⟩
      have b : x ≠ j.2 := fun e => h ⟨j, by simp, .inr e⟩
      split <;> simp [updatePair, a, b]
  unfold uesUpdate
  cases argminCol (updatePairs t s.freq c) ((condCols c).filter fun x => x.tab = t) with
  | none => exact h1 c _ hx
  | some low =>
    show (if x ∈ thirdParty s.g.qjoins tree t then _ else _) = _
    rw [if_neg (fun h => hx' ((thirdParty_iff _ _ _ _).mp h))]; exact h1 c _ hx

end

/-! ### Columns of joins with tables that have not been joined yet -/

/-- `t1.x = t2.x AND t1.y = t3.y AND t2.z = t4.z`. -/
def exJoins : Cond := [(⟨1, 0⟩, ⟨2, 0⟩), (⟨1, 1⟩, ⟨3, 1⟩), (⟨2, 2⟩, ⟨4, 2⟩)]

/-- Frequencies for tables `t1` with `m` equal rows and `t2` with `n` equal rows. -/
def exFreq (m n : Nat) : Col → Rat := fun x => if x.tab = 1 then m else if x.tab = 2 then n else 1

/-- The state of the optimizer before the join with `t2`. -/
def exState (m n : Nat) : St := start [1, 2, 3, 4] exJoins [] (fun _ => noIx) (fun _ => 1) (exFreq m n)

/-- `k` equal rows. -/
def same (k : Nat) : List Row := List.replicate k fun _ => 7

theorem same_count (k : Nat) (n v : Nat) : (same k).countP (fun r => decide (r n = v)) ≤ k := by
  have := List.countP_le_length (p := fun r : Row => decide (r n = v)) (l := same k)
  simpa [same] using this

theorem occurs_same (m n : Nat) (x : Col) (h : x.tab = 1 ∨ x.tab = 2) :
    occurs (extend ((same m).map fun r _ => r) 2 (same n) [(⟨1, 0⟩, ⟨2, 0⟩)]) x 7 = m * n := by
  rw [occurs_extend]
  have : ∀ f ∈ (same m).map (fun r (_ : Nat) => r), ((same n).countP fun r =>
      Sat [(⟨1, 0⟩, ⟨2, 0⟩)] (fun y => if y = 2 then r else f y) && decide ((if x.tab = 2 then r else f x.tab) x.name = 7)) = n := by
    intro f hf
    obtain ⟨r0, hr0, rfl⟩ := List.mem_map.mp hf
    have e0 := (List.mem_replicate.mp hr0).2
    have : (same n).countP (fun r => Sat [(⟨1, 0⟩, ⟨2, 0⟩)] (fun y => if y = 2 then r else r0) && decide ((if x.tab = 2 then r else r0) x.name = 7)) = (same n).length := by
      rw [List.countP_eq_length]
      intro r hr
      have e := (List.mem_replicate.mp hr).2
      simp [Sat, e, e0]
    rw [this]; simp [same]
  rw [List.map_congr_left this]
  simp [same]

/-- **C239** (violated): columns that are needed for later joins keep their frequency, although the join multiplies it. With exact frequencies, `m` equal rows in `t1` and `n`
equal rows in `t2`, the value of `t1.y` appears `m * n` times in the result of the join, and the container has `m`; the same holds for `t2.z` and `n`. -/
theorem C239_later_violated (m n : Nat) (hm : 2 ≤ m) (hn : 2 ≤ n) :
    (∀ x v, ((occurs ((same m).map fun r _ => r) ⟨1, x⟩ v : Nat) : Rat) ≤ exFreq m n ⟨1, x⟩) ∧
    (∀ x v, (((same n).countP fun r => decide (r x = v) : Nat) : Rat) ≤ exFreq m n ⟨2, x⟩) ∧
    ∃ v, uesUpdate (exState m n) [1, 2] 2 [(⟨1, 0⟩, ⟨2, 0⟩)] ⟨1, 1⟩ < (occurs (extend ((same m).map fun r _ => r) 2 (same n) [(⟨1, 0⟩, ⟨2, 0⟩)]) ⟨1, 1⟩ v : Nat) ∧
      uesUpdate (exState m n) [1, 2] 2 [(⟨1, 0⟩, ⟨2, 0⟩)] ⟨2, 2⟩ < (occurs (extend ((same m).map fun r _ => r) 2 (same n) [(⟨1, 0⟩, ⟨2, 0⟩)]) ⟨2, 2⟩ v : Nat) := by
  refine ⟨?_, ?_, 7, ?_, ?_⟩
  · intro x v
    have : occurs ((same m).map fun r _ => r) ⟨1, x⟩ v ≤ m := by
      have := List.countP_le_length (p := fun f : Nat → Row => decide (f 1 x = v)) (l := (same m).map fun r _ => r)
      simpa [same, occurs] using this
    simp only [exFreq, if_true]; exact_mod_cast this
  · intro x v
    have := same_count n x v
    simp only [exFreq]; simp only [show (2 : Nat) ≠ 1 by decide, if_false, if_true]; exact_mod_cast this
  · rw [C239_unchanged _ _ _ _ _ (by simp [Joined]) (by simp [Third, exState, start, JG.build, exJoins]), occurs_same _ _ _ (by simp)]
    have : (exState m n).freq ⟨1, 1⟩ = m := by simp [exState, start, exFreq]
    rw [this]
    have : m < m * n := by nlinarith
    exact_mod_cast this
  · rw [C239_unchanged _ _ _ _ _ (by simp [Joined]) (by simp [Third, exState, start, JG.build, exJoins]), occurs_same _ _ _ (by simp)]
    have : (exState m n).freq ⟨2, 2⟩ = n := by simp [exState, start, exFreq]
    rw [this]
    have : n < m * n := by nlinarith
    exact_mod_cast this

/-- The join of `t2` meets the hypotheses of `C239_updated_partial`; the bound is exact. -/
example : Connects [(⟨1, 0⟩, ⟨2, 0⟩)] 2 ∧ (∀ x, 1 ≤ (exState 2 3).freq x) ∧ uesUpdate (exState 2 3) [1, 2] 2 [(⟨1, 0⟩, ⟨2, 0⟩)] ⟨1, 0⟩ = 6 ∧
    occurs (extend ((same 2).map fun r _ => r) 2 (same 3) [(⟨1, 0⟩, ⟨2, 0⟩)]) ⟨1, 0⟩ 7 = 6 := by
  refine ⟨by simp [Connects], ?_, by decide +kernel, by rw [occurs_same _ _ _ (by simp)]⟩
  intro x
  simp only [exState, start, exFreq]
  split
  · norm_num
  · split <;> norm_num

/-- A third-party column: after `t1` and `t2`, the table `t3` is joined; the frequency of `t2.x` is multiplied by the updated one of `t3.y`. -/
example : Third exJoins [1, 2, 3] 3 ⟨2, 0⟩ ∧ uesUpdate (exState 2 3) [1, 2, 3] 3 [(⟨1, 1⟩, ⟨3, 1⟩)] ⟨2, 0⟩ = 6 := by
  refine ⟨⟨(⟨1, 0⟩, ⟨2, 0⟩), by simp [exJoins], .inr rfl, by simp, by simp, by simp, by simp, by simp⟩, by decide +kernel⟩

end PB.UesFreqProps
