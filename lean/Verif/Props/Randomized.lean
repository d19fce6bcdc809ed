import Verif.Model.Randomized
import Verif.Props.Walk
import Verif.Props.JoinTree
import Verif.Props.Hints
import Mathlib.Tactic.Tauto

set_option linter.unusedSimpArgs false
set_option linter.unusedVariables false
set_option linter.unusedSectionVars false
set_option linter.unnecessarySimpa false

/-! Properties C146 (bushy join orders), C147 (linear join orders), C148 (duplicates), C149 (operators and plans). -/

namespace PB.RandomizedProps
open PB PB.Hints PB.Randomized

abbrev Edges := List (Nat × Nat)

/-! ### Specification -/

/-- Specification: the tables of a join tree, from left to right. -/
def leaves : T → List Nat
  | .empty _ => []
  | .scan _ t _ => [t]
  | .join _ o i _ => leaves o ++ leaves i

/-- Specification: two tables are joined by a predicate. -/
def Joined (E : Edges) (a b : Nat) : Prop := (a, b) ∈ E ∨ (b, a) ∈ E

/-- Specification: a join tree without cross products. -/
inductive Valid (E : Edges) : T → Prop
  | scan (t) : Valid E (.scan .generic t none)
  | join {o i} : Valid E o → Valid E i → (∃ a ∈ leaves o, ∃ b ∈ leaves i, Joined E a b) →
      Valid E (.join .generic o i none)

/-- Specification: `s` is a subtree of `t`. -/
inductive Sub (s : T) : T → Prop
  | refl : Sub s s
  | outer {c o i a} : Sub s o → Sub s (.join c o i a)
  | inner {c o i a} : Sub s i → Sub s (.join c o i a)

/-- Specification: a join graph: tables are unique, edges connect different tables. -/
structure Graph (tables : List Nat) (E : Edges) : Prop where
  nodup : tables.Nodup
  ends : ∀ e ∈ E, e.1 ∈ tables ∧ e.2 ∈ tables ∧ e.1 ≠ e.2

/-- Specification: every table can be reached from every other one. -/
def Connected (tables : List Nat) (E : Edges) : Prop :=
  ∀ a ∈ tables, ∀ b ∈ tables, Relation.ReflTransGen (Joined E) a b

/-! ### Graph states -/

theorem Joined.symm {E : Edges} {a b : Nat} (h : Joined E a b) : Joined E b a := Or.symm h

theorem leaves_ne {E : Edges} {t : T} (h : Valid E t) : ∃ a, a ∈ leaves t := by
  induction h with
  | scan t => exact ⟨t, by simp [leaves]⟩
  | join _ _ _ ih _ => obtain ⟨a, ha⟩ := ih; exact ⟨a, by simp [leaves, ha]⟩

/-- The invariant of the sampling. -/
structure Inv (tables : List Nat) (E : Edges) (g : Gr) : Prop where
  perm : (g.nodes.flatMap leaves).Perm tables
  valid : ∀ n ∈ g.nodes, Valid E n
  sound : ∀ e ∈ g.edges, e.1 ∈ g.nodes ∧ e.2 ∈ g.nodes ∧ e.1 ≠ e.2 ∧
    ∃ a ∈ leaves e.1, ∃ b ∈ leaves e.2, Joined E a b
  complete : ∀ x ∈ g.nodes, ∀ y ∈ g.nodes, x ≠ y → (∃ a ∈ leaves x, ∃ b ∈ leaves y, Joined E a b) →
    (x, y) ∈ g.edges ∨ (y, x) ∈ g.edges

theorem flatMap_disjoint {l : List T} (h : (l.flatMap leaves).Nodup) {x y : T} (hx : x ∈ l) (hy : y ∈ l) {a : Nat}
    (ha : a ∈ leaves x) (hb : a ∈ leaves y) : x = y := by
  induction l with
  | nil => cases hx
  | cons z l ih =>
    rw [List.flatMap_cons, List.nodup_append] at h
    obtain ⟨_, h2, h3⟩ := h
    rcases List.mem_cons.1 hx with e1 | hx' <;> rcases List.mem_cons.1 hy with e2 | hy'
    · exact e1.trans e2.symm
    · exact absurd rfl (h3 a (e1 ▸ ha) a (List.mem_flatMap.2 ⟨y, hy', hb⟩))
    · exact absurd rfl (h3 a (e2 ▸ hb) a (List.mem_flatMap.2 ⟨x, hx', ha⟩))
    · exact ih h2 hx' hy'

theorem nodes_nodup {E : Edges} {l : List T} (h : (l.flatMap leaves).Nodup) (hv : ∀ n ∈ l, Valid E n) : l.Nodup := by
  induction l with
  | nil => simp
  | cons z l ih =>
    rw [List.flatMap_cons, List.nodup_append] at h
    obtain ⟨_, h2, h3⟩ := h
    refine List.nodup_cons.2 ⟨?_, ih h2 fun n hn => hv n (by simp [hn])⟩
    intro hz
    obtain ⟨a, ha⟩ := leaves_ne (hv z (by simp))
    exact h3 a ha a (List.mem_flatMap.2 ⟨z, hz, ha⟩) rfl

theorem Inv.leavesNodup {tables : List Nat} {E : Edges} {g : Gr} (hg : Graph tables E) (h : Inv tables E g) :
    (g.nodes.flatMap leaves).Nodup := h.perm.nodup_iff.2 hg.nodup

theorem Inv.nodup {tables : List Nat} {E : Edges} {g : Gr} (hg : Graph tables E) (h : Inv tables E g) :
    g.nodes.Nodup := nodes_nodup (h.leavesNodup hg) h.valid

/-- Merging `u` and `v` into `t`. -/
def fuse (u v t x : T) : T := if x = u ∨ x = v then t else x

theorem redirect_fuse (u v t x : T) (h : u ≠ v) : redirect t u (redirect u v x) = fuse u v t x := by
  unfold redirect fuse
  by_cases h1 : x = v
  · simp [h1]
  · by_cases h2 : x = u <;> simp [h1, h2]

/-- The state after a step. -/
def stepGr (g : Gr) (u v t : T) : Gr := (g.contract u v).relabel u t

theorem step_nodes {g : Gr} {u v : T} (t : T) (hn : g.nodes.Nodup) (hu : u ∈ g.nodes) (hv : v ∈ g.nodes) (huv : u ≠ v) :
    ∃ rest, g.nodes.Perm (u :: v :: rest) ∧ (stepGr g u v t).nodes.Perm (t :: rest) := by
  have h1 := List.perm_cons_erase hu
  have hv' : v ∈ g.nodes.erase u := (List.mem_erase_of_ne huv.symm).2 hv
  have h2 := List.perm_cons_erase hv'
  have h3 : g.nodes.Perm (u :: v :: (g.nodes.erase u).erase v) := h1.trans (h2.cons u)
  refine ⟨_, h3, ?_⟩
  have hnd := h3.nodup_iff.1 hn
  generalize (g.nodes.erase u).erase v = rest at h3 hnd
  unfold stepGr Gr.relabel Gr.contract
  simp only
  have h4 := (h3.filter fun x => decide (x ≠ v)).map (redirect t u)
  refine h4.trans ?_
  simp only [List.nodup_cons, List.mem_cons, not_or] at hnd
  obtain ⟨⟨_, hur⟩, hvr, _⟩ := hnd
  have hf : (u :: v :: rest).filter (fun x => decide (x ≠ v)) = u :: rest := by
    simp only [ne_eq, huv, not_false_eq_true, decide_true, List.filter_cons_of_pos, not_true_eq_false, decide_false,
      Bool.false_eq_true, not_false_eq_true, List.filter_cons_of_neg, List.cons.injEq, true_and]
    exact List.filter_eq_self.2 fun x hx => by
      have : x ≠ v := fun e => hvr (e ▸ hx)
      simpa using this
  rw [hf]
  have hm : rest.map (redirect t u) = rest := by
    conv_rhs => rw [← List.map_id rest]
    refine List.map_congr_left fun x hx => ?_
    have : x ≠ u := fun e => hur (e ▸ hx)
    simp [redirect, this]
  simp [redirect, hm]

theorem mem_step_edges {g : Gr} {u v t : T} (huv : u ≠ v) (e : T × T) : e ∈ (stepGr g u v t).edges ↔
    ∃ e' ∈ g.edges, e' ≠ (u, v) ∧ e' ≠ (v, u) ∧ e = (fuse u v t e'.1, fuse u v t e'.2) := by
  unfold stepGr Gr.relabel Gr.contract
  simp only [List.mem_map, List.mem_filter, Bool.not_eq_true', Bool.or_eq_false_iff, decide_eq_false_iff_not]
  constructor
  · rintro ⟨e1, ⟨e', ⟨h1, h2, h3⟩, rfl⟩, rfl⟩
    exact ⟨e', h1, h2, h3, by rw [redirect_fuse _ _ _ _ huv, redirect_fuse _ _ _ _ huv]⟩
  · rintro ⟨e', h1, h2, h3, rfl⟩
    exact ⟨_, ⟨e', ⟨h1, h2, h3⟩, rfl⟩, by simp only [redirect_fuse _ _ _ _ huv]⟩

theorem mergeNodes_eq {E : Edges} {a b : T} (ha : Valid E a) (hb : Valid E b) :
    mergeNodes a b = some (.join .generic a b none) := by
  cases ha <;> cases hb <;> rfl

/-- The tree of a step. -/
def joined (flip : Bool) (u v : T) : T :=
  if flip then .join .generic u v none else .join .generic v u none

theorem merge_joined {E : Edges} {u v : T} (f : Bool) (hu : Valid E u) (hv : Valid E v) :
    mergeNodes (orient f u v).1 (orient f u v).2 = some (joined f u v) := by
  cases f
  · exact mergeNodes_eq hv hu
  · exact mergeNodes_eq hu hv

theorem leaves_joined (f : Bool) (u v : T) : (leaves (joined f u v)).Perm (leaves u ++ leaves v) := by
  cases f
  · exact List.perm_append_comm
  · exact .refl _

theorem mem_leaves_joined (f : Bool) (u v : T) (a : Nat) : a ∈ leaves (joined f u v) ↔ a ∈ leaves u ∨ a ∈ leaves v := by
  rw [(leaves_joined f u v).mem_iff, List.mem_append]

theorem valid_joined {E : Edges} {u v : T} (f : Bool) (hu : Valid E u) (hv : Valid E v)
    (h : ∃ a ∈ leaves u, ∃ b ∈ leaves v, Joined E a b) : Valid E (joined f u v) := by
  obtain ⟨a, ha, b, hb, hj⟩ := h
  cases f
  · exact .join hv hu ⟨b, hb, a, ha, hj.symm⟩
  · exact .join hu hv ⟨a, ha, b, hb, hj⟩

/-- A step keeps the invariant. -/
theorem inv_step {tables : List Nat} {E : Edges} {g : Gr} (hg : Graph tables E) (hi : Inv tables E g) {u v : T}
    (hu : u ∈ g.nodes) (hv : v ∈ g.nodes) (huv : u ≠ v) (hj : ∃ a ∈ leaves u, ∃ b ∈ leaves v, Joined E a b) (f : Bool) :
    Inv tables E (stepGr g u v (joined f u v)) ∧
    ∃ rest, g.nodes.Perm (u :: v :: rest) ∧ (stepGr g u v (joined f u v)).nodes.Perm (joined f u v :: rest) := by
  obtain ⟨rest, hp1, hp2⟩ := step_nodes (joined f u v) (hi.nodup hg) hu hv huv
  have hnd : (u :: v :: rest).Nodup := hp1.nodup_iff.1 (hi.nodup hg)
  simp only [List.nodup_cons, List.mem_cons, not_or] at hnd
  obtain ⟨⟨_, hur⟩, hvr, _⟩ := hnd
  have hrest : ∀ x ∈ rest, x ∈ g.nodes := fun x hx => hp1.mem_iff.2 (by simp [hx])
  have hfresh : ∀ x ∈ g.nodes, x ≠ u → x ≠ v → x ≠ joined f u v := by
    rintro x hx hxu hxv rfl
    obtain ⟨a, ha⟩ := leaves_ne (hi.valid u hu)
    exact hxu (flatMap_disjoint (hi.leavesNodup hg) hx hu ((mem_leaves_joined f u v a).2 (.inl ha)) ha)
  have hmem : ∀ x, x ∈ (stepGr g u v (joined f u v)).nodes ↔ x = joined f u v ∨ x ∈ g.nodes ∧ x ≠ u ∧ x ≠ v := by
    intro x
    rw [hp2.mem_iff, List.mem_cons]
    refine or_congr_right ⟨fun h => ⟨hrest x h, fun e => hur (e ▸ h), fun e => hvr (e ▸ h)⟩, ?_⟩
    rintro ⟨h, h1, h2⟩
    have := hp1.mem_iff.1 h
    simpa [h1, h2] using this
  have hfz : ∀ x ∈ g.nodes, fuse u v (joined f u v) x ∈ (stepGr g u v (joined f u v)).nodes := by
    intro x hx
    rw [hmem]
    unfold fuse
    split
    · exact .inl rfl
    · rename_i h; rw [not_or] at h; exact .inr ⟨hx, h⟩
  have hfl : ∀ x a, a ∈ leaves x → a ∈ leaves (fuse u v (joined f u v) x) := by
    intro x a ha
    unfold fuse
    split
    · rename_i h
      rw [mem_leaves_joined]
      rcases h with rfl | rfl
      · exact .inl ha
      · exact .inr ha
    · exact ha
  refine ⟨⟨?_, ?_, ?_, ?_⟩, rest, hp1, hp2⟩
  · refine (hp2.flatMap_right leaves).trans ?_
    refine .trans ?_ hi.perm
    refine .trans ?_ (hp1.flatMap_right leaves).symm
    simp only [List.flatMap_cons]
    rw [← List.append_assoc]
    exact (leaves_joined f u v).append_right _
  · intro n hn
    rcases (hmem n).1 hn with rfl | ⟨h, _⟩
    · exact valid_joined f (hi.valid u hu) (hi.valid v hv) hj
    · exact hi.valid n h
  · intro e he
    obtain ⟨⟨x, y⟩, h1, h2, h3, rfl⟩ := (mem_step_edges huv e).1 he
    obtain ⟨hx, hy, hxy, a, ha, b, hb, hab⟩ := hi.sound _ h1
    refine ⟨hfz x hx, hfz y hy, ?_, a, hfl x a ha, b, hfl y b hb, hab⟩
    simp only at hx hy hxy ⊢
    unfold fuse
    by_cases hx' : x = u ∨ x = v <;> by_cases hy' : y = u ∨ y = v
    · exfalso
      rcases hx' with rfl | rfl <;> rcases hy' with rfl | rfl <;> simp_all
    · rw [if_pos hx', if_neg hy']
      rw [not_or] at hy'
      exact (hfresh y hy hy'.1 hy'.2).symm
    · rw [if_neg hx', if_pos hy']
      rw [not_or] at hx'
      exact hfresh x hx hx'.1 hx'.2
    · rwa [if_neg hx', if_neg hy']
  · rintro x hx y hy hxy ⟨a, ha, b, hb, hab⟩
    have lift : ∀ x' y', x' ∈ g.nodes → y' ∈ g.nodes → fuse u v (joined f u v) x' = x → fuse u v (joined f u v) y' = y →
        a ∈ leaves x' → b ∈ leaves y' → (x, y) ∈ (stepGr g u v (joined f u v)).edges ∨
          (y, x) ∈ (stepGr g u v (joined f u v)).edges := by
      intro x' y' hx' hy' ex ey ha' hb'
      have hne : x' ≠ y' := by rintro rfl; exact hxy (ex.symm.trans ey)
      have hnot : ¬ (x' = u ∧ y' = v) ∧ ¬ (x' = v ∧ y' = u) := by
        constructor
        · rintro ⟨rfl, rfl⟩; apply hxy; rw [← ex, ← ey]; simp [fuse]
        · rintro ⟨rfl, rfl⟩; apply hxy; rw [← ex, ← ey]; simp [fuse]
      rcases hi.complete x' hx' y' hy' hne ⟨a, ha', b, hb', hab⟩ with h | h
      · refine .inl ((mem_step_edges huv _).2 ⟨_, h, ?_, ?_, by rw [ex, ey]⟩)
        · intro e; simp only [Prod.mk.injEq] at e; exact hnot.1 e
        · intro e; simp only [Prod.mk.injEq] at e; exact hnot.2 e
      · refine .inr ((mem_step_edges huv _).2 ⟨_, h, ?_, ?_, by rw [ex, ey]⟩)
        · intro e; simp only [Prod.mk.injEq] at e; exact hnot.2 e.symm
        · intro e; simp only [Prod.mk.injEq] at e; exact hnot.1 e.symm
    have pre : ∀ z, z ∈ (stepGr g u v (joined f u v)).nodes → ∀ d ∈ leaves z,
        ∃ z' ∈ g.nodes, fuse u v (joined f u v) z' = z ∧ d ∈ leaves z' := by
      intro z hz d hd
      rcases (hmem z).1 hz with rfl | ⟨h, h1, h2⟩
      · rcases (mem_leaves_joined f u v d).1 hd with h | h
        · exact ⟨u, hu, by simp [fuse], h⟩
        · exact ⟨v, hv, by simp [fuse], h⟩
      · exact ⟨z, h, by simp [fuse, h1, h2], hd⟩
    obtain ⟨x', hx', ex, ha'⟩ := pre x hx a ha
    obtain ⟨y', hy', ey, hb'⟩ := pre y hy b hb
    exact lift x' y' hx' hy' ex ey ha' hb'

/-- A path leaves every set it starts in and does not end in. -/
theorem path_leaves {R : Nat → Nat → Prop} {P : Nat → Prop} {a b : Nat} (h : Relation.ReflTransGen R a b) (ha : P a)
    (hb : ¬ P b) : ∃ c d, P c ∧ ¬ P d ∧ R c d := by
  induction h with
  | refl => exact absurd ha hb
  | @tail c d hac hcd ih =>
    by_cases hc : P c
    · exact ⟨c, d, hc, hb, hcd⟩
    · exact ih hc

theorem inv_edges {tables : List Nat} {E : Edges} {g : Gr} (hg : Graph tables E) (hc : Connected tables E)
    (hi : Inv tables E g) (hl : 1 < g.nodes.length) : g.edges ≠ [] := by
  match hn : g.nodes, hl with
  | x :: y :: l, _ =>
    have hx : x ∈ g.nodes := by simp [hn]
    have hy : y ∈ g.nodes := by simp [hn]
    have hxy : x ≠ y := by
      have := hi.nodup hg
      rw [hn, List.nodup_cons] at this
      intro e; exact this.1 (by simp [e])
    obtain ⟨a, ha⟩ := leaves_ne (hi.valid x hx)
    obtain ⟨b, hb⟩ := leaves_ne (hi.valid y hy)
    have hat : a ∈ tables := hi.perm.mem_iff.1 (List.mem_flatMap.2 ⟨x, hx, ha⟩)
    have hbt : b ∈ tables := hi.perm.mem_iff.1 (List.mem_flatMap.2 ⟨y, hy, hb⟩)
    obtain ⟨c, d, hc1, hd1, hcd⟩ := path_leaves (P := fun z => z ∈ leaves x) (hc a hat b hbt) ha
      fun h => hxy (flatMap_disjoint (hi.leavesNodup hg) hx hy h hb)
    have hdt : d ∈ tables := by
      rcases hcd with h | h
      · exact (hg.ends _ h).2.1
      · exact (hg.ends _ h).1
    obtain ⟨z, hz, hdz⟩ := List.mem_flatMap.1 (hi.perm.mem_iff.2 hdt)
    have hxz : x ≠ z := by rintro rfl; exact hd1 hdz
    intro he
    rcases hi.complete x hx z hz hxz ⟨c, hc1, d, hdz, hcd⟩ with h | h <;> simp [he] at h

theorem choose_mem {α : Type} {l : List α} (h : l ≠ []) (k : Nat) : ∃ x ∈ l, choose l k = some x := by
  have : k % l.length < l.length := Nat.mod_lt _ (List.length_pos_of_ne_nil h)
  exact ⟨l[k % l.length], List.getElem_mem _, by simp [choose, this]⟩

theorem choose_some {α : Type} {l : List α} {k : Nat} {x : α} (h : choose l k = some x) : x ∈ l :=
  List.mem_of_getElem? h

theorem choose_all {α : Type} {l : List α} {x : α} (h : x ∈ l) : ∃ k, choose l k = some x := by
  obtain ⟨k, hk, rfl⟩ := List.getElem_of_mem h
  exact ⟨k, by simp [choose, Nat.mod_eq_of_lt hk, hk]⟩

theorem Sub.trans {a b c : T} (h1 : Sub a b) (h2 : Sub b c) : Sub a c := by
  induction h2 with
  | refl => exact h1
  | outer _ ih => exact .outer ih
  | inner _ ih => exact .inner ih

theorem sub_joined (f : Bool) (u v : T) : Sub u (joined f u v) ∧ Sub v (joined f u v) := by
  cases f
  · exact ⟨.inner .refl, .outer .refl⟩
  · exact ⟨.outer .refl, .inner .refl⟩

theorem loop_step {c : Choices} {n k : Nat} {g : Gr} {E : Edges} {tables : List Nat} (hi : Inv tables E g)
    (hl : 1 < g.nodes.length) {e : T × T} (he : choose g.edges (c.pos k) = some e) :
    sampleLoop c (n + 1) k g = sampleLoop c n (k + 1) (stepGr g e.1 e.2 (joined (c.flip k) e.1 e.2)) := by
  have hs := hi.sound e (choose_some he)
  rw [sampleLoop, if_pos hl, he, Option.bind_some, merge_joined _ (hi.valid _ hs.1) (hi.valid _ hs.2.1),
    Option.bind_some]
  rfl

theorem loop_spec {tables : List Nat} {E : Edges} (hg : Graph tables E) (hc : Connected tables E) (c : Choices)
    (n : Nat) : ∀ (k : Nat) (g : Gr), Inv tables E g → g.nodes ≠ [] → g.nodes.length ≤ n + 1 →
    ∃ t, sampleLoop c n k g = some t ∧ Valid E t ∧ (leaves t).Perm tables ∧ ∀ x ∈ g.nodes, Sub x t := by
  have base : ∀ g : Gr, Inv tables E g → g.nodes.length = 1 → ∃ t, g.nodes.head? = some t ∧ Valid E t ∧
      (leaves t).Perm tables ∧ ∀ x ∈ g.nodes, Sub x t := by
    intro g hi hl
    obtain ⟨t, ht⟩ := List.length_eq_one_iff.1 hl
    refine ⟨t, by simp [ht], hi.valid t (by simp [ht]), ?_, ?_⟩
    · have := hi.perm; rw [ht] at this; simpa using this
    · intro x hx; rw [ht] at hx; simp at hx; subst hx; exact .refl
  induction n with
  | zero =>
    intro k g hi hne hl
    have := List.length_pos_of_ne_nil hne
    exact base g hi (by omega)
  | succ n ih =>
    intro k g hi hne hl
    have hpos := List.length_pos_of_ne_nil hne
    by_cases hlt : 1 < g.nodes.length
    · obtain ⟨e, hem, he⟩ := choose_mem (inv_edges hg hc hi hlt) (c.pos k)
      have hs := hi.sound e hem
      obtain ⟨hi', rest, hp1, hp2⟩ := inv_step hg hi hs.1 hs.2.1 hs.2.2.1 hs.2.2.2 (c.flip k)
      have hl1 := hp1.length_eq
      have hl2 := hp2.length_eq
      simp only [List.length_cons] at hl1 hl2
      obtain ⟨t, h1, h2, h3, h4⟩ := ih (k + 1) _ hi' (by intro h; rw [h] at hl2; simp at hl2) (by omega)
      refine ⟨t, by rw [loop_step hi hlt he]; exact h1, h2, h3, ?_⟩
      intro x hx
      have hj : Sub (joined (c.flip k) e.1 e.2) t := h4 _ (hp2.mem_iff.2 (by simp))
      have hsub := sub_joined (c.flip k) e.1 e.2
      rcases List.mem_cons.1 (hp1.mem_iff.1 hx) with rfl | hx
      · exact hsub.1.trans hj
      · rcases List.mem_cons.1 hx with rfl | hx
        · exact hsub.2.trans hj
        · exact h4 x (hp2.mem_iff.2 (by simp [hx]))
    · rw [sampleLoop, if_neg hlt]
      exact base g hi (by omega)

theorem inv_init {tables : List Nat} {E : Edges} (hg : Graph tables E) : Inv tables E (Gr.ofTables tables E) := by
  refine ⟨?_, ?_, ?_, ?_⟩
  · have : (Gr.ofTables tables E).nodes.flatMap leaves = tables := by
      simp [Gr.ofTables, List.flatMap_map, leaves]
    rw [this]
  · intro n hn
    obtain ⟨t, _, rfl⟩ := List.mem_map.1 hn
    exact .scan t
  · intro e he
    obtain ⟨e', he', rfl⟩ := List.mem_map.1 he
    obtain ⟨h1, h2, h3⟩ := hg.ends _ he'
    exact ⟨List.mem_map.2 ⟨_, h1, rfl⟩, List.mem_map.2 ⟨_, h2, rfl⟩, by simpa using h3,
      e'.1, by simp [leaves], e'.2, by simp [leaves], .inl he'⟩
  · intro x hx y hy hxy
    obtain ⟨a, _, rfl⟩ := List.mem_map.1 hx
    obtain ⟨b, _, rfl⟩ := List.mem_map.1 hy
    rintro ⟨a', ha', b', hb', hj⟩
    simp only [leaves, List.mem_singleton] at ha' hb'
    subst ha'; subst hb'
    rcases hj with h | h
    · exact .inl (List.mem_map.2 ⟨_, h, rfl⟩)
    · exact .inr (List.mem_map.2 ⟨_, h, rfl⟩)

/-! ### C146 -/

/-- C146: for a connected join graph and all random choices, sampling succeeds, and the join order contains every table
exactly once and no cross product. -/
theorem C146_valid (c : Choices) (tables : List Nat) (E : Edges) (hg : Graph tables E) (hc : Connected tables E)
    (hne : tables ≠ []) : ∃ t, sample c tables E none = some t ∧ (leaves t).Perm tables ∧ Valid E t := by
  obtain ⟨t, h1, h2, h3, _⟩ := loop_spec hg hc c tables.length 0 _ (inv_init hg) (by simpa [Gr.ofTables] using hne)
    (by simp [Gr.ofTables])
  exact ⟨t, h1, h3, h2⟩

theorem mem_neighbours (E : Edges) (b x : Nat) : x ∈ neighbours E b → Joined E b x := by
  unfold neighbours
  rw [List.mem_filterMap]
  rintro ⟨⟨p, q⟩, he, h⟩
  simp only at h
  split at h
  · rename_i e; cases h; subst e; exact .inl he
  · split at h
    · rename_i e; cases h; subst e; exact .inr he
    · cases h

theorem neighbours_mem {tables : List Nat} {E : Edges} (hg : Graph tables E) {b x : Nat} (h : Joined E b x) :
    x ∈ neighbours E b := by
  unfold neighbours
  rw [List.mem_filterMap]
  rcases h with h | h
  · exact ⟨_, h, by simp⟩
  · have := (hg.ends _ h).2.2
    exact ⟨_, h, by simpa using fun e => absurd e this⟩

theorem exists_neighbour {tables : List Nat} {E : Edges} (hg : Graph tables E) (hc : Connected tables E) {b : Nat}
    (hb : b ∈ tables) (hl : 1 < tables.length) : ∃ x, Joined E b x := by
  have : ∃ y ∈ tables, y ≠ b := by
    by_contra hno
    push Not at hno
    have hsub : tables ⊆ [b] := fun y hy => by simp [hno y hy]
    have := (hg.nodup.subperm hsub).length_le
    simp at this; omega
  obtain ⟨y, hy, hyb⟩ := this
  obtain ⟨c, d, hc1, _, hcd⟩ := path_leaves (P := fun z => z = b) (hc b hb y hy) rfl hyb
  subst hc1
  exact ⟨d, hcd⟩

theorem sample_base {tables : List Nat} {E : Edges} (hg : Graph tables E) (c : Choices) (b p : Nat)
    (hp : choose (neighbours E b) (c.pos 0) = some p) :
    sample c tables E (some b) = sampleLoop c tables.length 1 (stepGr (Gr.ofTables tables E) (.scan .generic b none)
      (.scan .generic p none) (joined (c.flip 0) (.scan .generic b none) (.scan .generic p none))) := by
  simp only [sample, hp, Option.bind_some]
  rw [merge_joined (E := E) _ (.scan b) (.scan p), Option.bind_some]
  rfl

theorem base_inv {tables : List Nat} {E : Edges} (hg : Graph tables E) {b p : Nat} (hb : b ∈ tables) (hj : Joined E b p)
    (f : Bool) :
    Inv tables E (stepGr (Gr.ofTables tables E) (.scan .generic b none) (.scan .generic p none)
      (joined f (.scan .generic b none) (.scan .generic p none))) ∧
    ∃ rest, (Gr.ofTables tables E).nodes.Perm (.scan .generic b none :: .scan .generic p none :: rest) ∧
      (stepGr (Gr.ofTables tables E) (.scan .generic b none) (.scan .generic p none)
      (joined f (.scan .generic b none) (.scan .generic p none))).nodes.Perm
        (joined f (.scan .generic b none) (.scan .generic p none) :: rest) := by
  have hpt : p ∈ tables ∧ b ≠ p := by
    rcases hj with h | h
    · exact ⟨(hg.ends _ h).2.1, (hg.ends _ h).2.2⟩
    · exact ⟨(hg.ends _ h).1, (hg.ends _ h).2.2.symm⟩
  refine inv_step hg (inv_init hg) (List.mem_map.2 ⟨_, hb, rfl⟩) (List.mem_map.2 ⟨_, hpt.1, rfl⟩) (by simpa using hpt.2)
    ⟨b, by simp [leaves], p, by simp [leaves], hj⟩ f

/-- C146: with a base table, the join order moreover contains the join of this table with one of its partners as a
subtree (it is joined first). -/
theorem C146_base (c : Choices) (tables : List Nat) (E : Edges) (hg : Graph tables E) (hc : Connected tables E) (b : Nat)
    (hb : b ∈ tables) (hl : 1 < tables.length) :
    ∃ t, sample c tables E (some b) = some t ∧ (leaves t).Perm tables ∧ Valid E t ∧
      ∃ p, Joined E b p ∧
        (Sub (.join .generic (.scan .generic b none) (.scan .generic p none) none) t ∨
         Sub (.join .generic (.scan .generic p none) (.scan .generic b none) none) t) := by
  obtain ⟨x, hx⟩ := exists_neighbour hg hc hb hl
  obtain ⟨p, hpm, hp⟩ := choose_mem (l := neighbours E b) (List.ne_nil_of_mem (neighbours_mem hg hx)) (c.pos 0)
  have hj := mem_neighbours E b p hpm
  obtain ⟨hi, rest, hp1, hp2⟩ := base_inv hg hb hj (c.flip 0)
  have hl1 := hp1.length_eq
  have hl2 := hp2.length_eq
  simp only [List.length_cons, Gr.ofTables, List.length_map] at hl1 hl2
  obtain ⟨t, h1, h2, h3, h4⟩ := loop_spec hg hc c tables.length 1 _ hi
    (by intro h; rw [h] at hp2; simpa using hp2.length_eq) (by have := hp2.length_eq; simp only [List.length_cons] at this; omega)
  refine ⟨t, by rw [sample_base hg c b p hp]; exact h1, h3, h2, p, hj, ?_⟩
  have := h4 _ (hp2.mem_iff.2 List.mem_cons_self)
  cases hf : c.flip 0 <;> simp only [hf, joined] at this
  · exact .inr this
  · exact .inl this

/-! #### Completeness -/

/-- The trees `l` are the parts of `t` that are already there. -/
inductive Cut : T → List T → Prop
  | whole {t} : Cut t [t]
  | parts {c o i a l1 l2} : Cut o l1 → Cut i l2 → Cut (.join c o i a) (l1 ++ l2)

theorem Cut.ne {t : T} {l : List T} (h : Cut t l) : l ≠ [] := by
  induction h with
  | whole => simp
  | parts _ _ ih _ => simp [ih]

theorem Cut.one {t x : T} (h : Cut t [x]) : x = t := by
  generalize hl : [x] = l at h
  cases h with
  | whole => simpa using hl
  | parts h1 h2 =>
    rename_i l1 l2
    have a := List.length_pos_of_ne_nil h1.ne
    have b := List.length_pos_of_ne_nil h2.ne
    have := congrArg List.length hl
    simp only [List.length_append, List.length_cons, List.length_nil] at this
    omega

theorem length_one {l : List T} (h1 : l ≠ []) (h2 : ¬ 1 < l.length) : ∃ x, l = [x] := by
  have := List.length_pos_of_ne_nil h1
  exact List.length_eq_one_iff.1 (by omega)

/-- Some join of `t` has both of its children among the parts. -/
theorem Cut.next {t : T} {l : List T} (h : Cut t l) (hl : 1 < l.length) :
    ∃ c a o i rest, l.Perm (o :: i :: rest) ∧ Sub (.join c o i a) t ∧
      ∃ l', Cut t l' ∧ l'.Perm (.join c o i a :: rest) := by
  induction h with
  | whole => simp at hl
  | @parts c o i a l1 l2 h1 h2 ih1 ih2 =>
    by_cases g1 : 1 < l1.length
    · obtain ⟨c', a', o', i', rest, hp, hs, l', hc, hp'⟩ := ih1 g1
      refine ⟨c', a', o', i', rest ++ l2, ?_, .outer hs, l' ++ l2, .parts hc h2, ?_⟩
      · exact hp.append_right l2
      · exact hp'.append_right l2
    · by_cases g2 : 1 < l2.length
      · obtain ⟨c', a', o', i', rest, hp, hs, l', hc, hp'⟩ := ih2 g2
        refine ⟨c', a', o', i', l1 ++ rest, ?_, .inner hs, l1 ++ l', .parts h1 hc, ?_⟩
        · refine (hp.append_left l1).trans ?_
          refine List.perm_middle.trans (List.Perm.cons _ List.perm_middle)
        · exact (hp'.append_left l1).trans List.perm_middle
      · obtain ⟨x, rfl⟩ := length_one h1.ne g1
        obtain ⟨y, rfl⟩ := length_one h2.ne g2
        have := h1.one; subst this
        have := h2.one; subst this
        exact ⟨c, a, x, y, [], .refl _, .refl, _, .whole, .refl _⟩

theorem Valid.sub {E : Edges} {s t : T} (hs : Sub s t) (h : Valid E t) : Valid E s := by
  induction hs with
  | refl => exact h
  | outer _ ih => cases h with | join h1 _ _ => exact ih h1
  | inner _ ih => cases h with | join _ h2 _ => exact ih h2

theorem loop_congr (c c' : Choices) (n : Nat) : ∀ (k : Nat) (g : Gr),
    (∀ j, k ≤ j → c.pos j = c'.pos j ∧ c.flip j = c'.flip j) → sampleLoop c n k g = sampleLoop c' n k g := by
  induction n with
  | zero => intro k g _; rfl
  | succ n ih =>
    intro k g h
    rw [sampleLoop, sampleLoop, (h k (le_refl _)).1, (h k (le_refl _)).2]
    congr 1
    congr 1
    funext e
    congr 1
    funext t
    exact ih (k + 1) _ fun j hj => h j (by omega)

/-- All trees that can still be built from the parts are possible. -/
theorem loop_complete {tables : List Nat} {E : Edges} (hg : Graph tables E) {t : T} (ht : Valid E t)
    (n : Nat) : ∀ (k : Nat) (g : Gr) (l : List T), Inv tables E g → g.nodes.length ≤ n + 1 → Cut t l → l.Perm g.nodes →
    ∃ c, sampleLoop c n k g = some t := by
  have base : ∀ (g : Gr) (l : List T), ¬ 1 < g.nodes.length → Cut t l → l.Perm g.nodes → g.nodes.head? = some t := by
    intro g l hlt hc hp
    have hl : ¬ 1 < l.length := by rwa [hp.length_eq]
    obtain ⟨x, rfl⟩ := length_one hc.ne hl
    have := hc.one; subst this
    rw [← List.singleton_perm.1 hp]; rfl
  induction n with
  | zero =>
    intro k g l hi hl hc hp
    exact ⟨⟨fun _ => 0, fun _ => true⟩, base g l (by omega) hc hp⟩
  | succ n ih =>
    intro k g l hi hl hc hp
    by_cases hlt : 1 < g.nodes.length
    · obtain ⟨cl, a, o, i, rest, hp1, hs, l', hc', hp'⟩ := hc.next (by rwa [hp.length_eq])
      have hv : Valid E (.join cl o i a) := ht.sub hs
      cases hv with
      | join ho hiv hj =>
        have hng : g.nodes.Perm (o :: i :: rest) := hp.symm.trans hp1
        have hom : o ∈ g.nodes := hng.mem_iff.2 (by simp)
        have him : i ∈ g.nodes := hng.mem_iff.2 (by simp)
        have hoi : o ≠ i := by
          have := hng.nodup_iff.1 (hi.nodup hg)
          rw [List.nodup_cons] at this
          intro e; exact this.1 (by simp [e])
        have key : ∃ (e : T × T) (f : Bool), e ∈ g.edges ∧ joined f e.1 e.2 = .join .generic o i none ∧
            (stepGr g e.1 e.2 (joined f e.1 e.2)).nodes.Perm (.join .generic o i none :: rest) := by
          have cancel : ∀ (u v : T) (rest' : List T), g.nodes.Perm (u :: v :: rest') → (u = o ∧ v = i ∨ u = i ∧ v = o) →
              rest'.Perm rest := by
            intro u v rest' h hcase
            have hh := h.symm.trans hng
            rcases hcase with ⟨rfl, rfl⟩ | ⟨rfl, rfl⟩
            · exact hh.cons_inv.cons_inv
            · exact (hh.trans (List.Perm.swap _ _ _)).cons_inv.cons_inv
          rcases hi.complete o hom i him hoi hj with h | h
          · refine ⟨(o, i), true, h, rfl, ?_⟩
            obtain ⟨_, rest', q1, q2⟩ := inv_step hg hi hom him hoi hj true
            exact q2.trans ((cancel _ _ _ q1 (.inl ⟨rfl, rfl⟩)).cons _)
          · refine ⟨(i, o), false, h, rfl, ?_⟩
            obtain ⟨a1, ha1, b1, hb1, hab⟩ := hj
            obtain ⟨_, rest', q1, q2⟩ := inv_step hg hi him hom hoi.symm ⟨b1, hb1, a1, ha1, hab.symm⟩ false
            exact q2.trans ((cancel _ _ _ q1 (.inr ⟨rfl, rfl⟩)).cons _)
        obtain ⟨e, f, hem, hjo, hperm⟩ := key
        have hse := hi.sound e hem
        obtain ⟨hi', _⟩ := inv_step hg hi hse.1 hse.2.1 hse.2.2.1 hse.2.2.2 f
        have hlen : (stepGr g e.1 e.2 (joined f e.1 e.2)).nodes.length ≤ n + 1 := by
          have h1 := hperm.length_eq
          have h2 := hng.length_eq
          simp only [List.length_cons] at h1 h2
          omega
        obtain ⟨c, hcr⟩ := ih (k + 1) _ l' hi' hlen hc' (hp'.trans hperm.symm)
        obtain ⟨pos, hpos⟩ := choose_all hem
        refine ⟨⟨fun j => if j = k then pos else c.pos j, fun j => if j = k then f else c.flip j⟩, ?_⟩
        rw [loop_step hi hlt (e := e) (by simpa using hpos)]
        simp only [if_true]
        rw [← hcr]
        refine loop_congr _ _ n (k + 1) _ fun j hj' => ?_
        have : j ≠ k := by omega
        simp [this]
    · exact ⟨⟨fun _ => 0, fun _ => true⟩, by rw [sampleLoop, if_neg hlt]; exact base g l hlt hc hp⟩

theorem cut_leaves {E : Edges} {t : T} (h : Valid E t) : Cut t ((leaves t).map fun x => JT.Tree.scan .generic x none) := by
  induction h with
  | scan t => exact .whole
  | join _ _ _ ih1 ih2 => simp only [leaves, List.map_append]; exact .parts ih1 ih2

/-- C146: every join order without cross products is possible. -/
theorem C146_complete (tables : List Nat) (E : Edges) (hg : Graph tables E) (t : T) (ht : Valid E t)
    (hp : (leaves t).Perm tables) : ∃ c, sample c tables E none = some t :=
  loop_complete hg ht tables.length 0 (Gr.ofTables tables E) _ (inv_init hg) (by simp [Gr.ofTables]) (cut_leaves ht)
    (hp.map _)

/-- A chain of three tables and its four (times two orientations per join) join orders. -/
example : Graph [1, 2, 3] [(1, 2), (2, 3)] ∧ Connected [1, 2, 3] [(1, 2), (2, 3)] ∧
    Valid [(1, 2), (2, 3)] (.join .generic (.scan .generic 1 none)
      (.join .generic (.scan .generic 3 none) (.scan .generic 2 none) none) none) := by
  refine ⟨⟨by decide, by decide⟩, ?_, ?_⟩
  · have s12 : Joined [(1, 2), (2, 3)] 1 2 := .inl (by simp)
    have s23 : Joined [(1, 2), (2, 3)] 2 3 := .inl (by simp)
    have key : ∀ a ∈ [1, 2, 3], Relation.ReflTransGen (Joined [(1, 2), (2, 3)]) 2 a ∧
        Relation.ReflTransGen (Joined [(1, 2), (2, 3)]) a 2 := by
      intro a ha
      simp only [List.mem_cons, List.not_mem_nil, or_false] at ha
      rcases ha with rfl | rfl | rfl
      · exact ⟨.single s12.symm, .single s12⟩
      · exact ⟨.refl, .refl⟩
      · exact ⟨.single s23, .single s23.symm⟩
    exact fun a ha b hb => (key a ha).2.trans (key b hb).1
  · refine .join (.scan 1) (.join (.scan 3) (.scan 2) ⟨3, by simp [leaves], 2, by simp [leaves], .inr (by simp)⟩)
      ⟨1, by simp [leaves], 2, by simp [leaves], .inl (by simp)⟩

/-! ### C147 -/

/-- Specification: an order of all tables in which every table but the first is joined with an earlier one. -/
def ConnectedOrder (tables : List Nat) (E : Edges) (l : List Nat) : Prop :=
  l.Perm tables ∧ ∀ a x b, l = a ++ x :: b → a ≠ [] → ∃ v ∈ a, Joined E v x

/-- Specification: the left-deep resp. right-deep join tree that joins the tables in the given order. -/
inductive Linear (left : Bool) : List Nat → T → Prop
  | one (x) : Linear left [x] (.scan .generic x none)
  | next {l t} (x) : Linear left l t → Linear left (l ++ [x])
      (if left then .join .generic t (.scan .generic x none) none else .join .generic (.scan .generic x none) t none)

theorem Linear.notEmpty {left : Bool} {l : List Nat} {t : T} (h : Linear left l t) : t.isEmpty = false := by
  cases h with
  | one => rfl
  | next => cases left <;> rfl

theorem linearTree_spec (left : Bool) (xs : List Nat) : ∀ (l : List Nat) (t : T), Linear left l t →
    ∃ t', linearTree left xs t = some t' ∧ Linear left (l ++ xs) t' := by
  induction xs with
  | nil => intro l t h; exact ⟨t, rfl, by simpa using h⟩
  | cons x xs ih =>
    intro l t h
    obtain ⟨t', h1, h2⟩ := ih _ _ (h.next x)
    refine ⟨t', ?_, by simpa using h2⟩
    rw [← h1]
    have he := h.notEmpty
    cases left <;> simp [linearTree, JT.Tree.joinWith, he, JT.initEmpty]

theorem linearTree_start (left : Bool) (x : Nat) (xs : List Nat) :
    ∃ t, linearTree left (x :: xs) (.empty .generic) = some t ∧ Linear left (x :: xs) t := by
  obtain ⟨t, h1, h2⟩ := linearTree_spec left xs [x] _ (.one x)
  exact ⟨t, h1, h2⟩

theorem Linear.unique {left : Bool} {l : List Nat} {t t' : T} (h : Linear left l t) (h' : Linear left l t') : t = t' := by
  induction h generalizing t' with
  | one x =>
    generalize hl : [x] = l at h'
    cases h' with
    | one y => simp at hl; subst hl; rfl
    | @next l' _ y h =>
      exfalso
      have h1 := congrArg List.length hl
      have hn : l' ≠ [] := by cases h <;> simp
      have h2 := List.length_pos_of_ne_nil hn
      simp only [List.length_append, List.length_cons, List.length_nil] at h1; omega
  | @next l t x h ih =>
    generalize hl : l ++ [x] = m at h'
    cases h' with
    | one y =>
      exfalso
      have h1 := congrArg List.length hl
      have hn : l ≠ [] := by cases h <;> simp
      have h2 := List.length_pos_of_ne_nil hn
      simp only [List.length_append, List.length_cons, List.length_nil] at h1; omega
    | @next l' t' y h2 =>
      obtain ⟨rfl, h3⟩ := List.append_inj' hl rfl
      simp at h3; subst h3
      rw [ih h2]

theorem Linear.leaves {left : Bool} {l : List Nat} {t : T} (h : Linear left l t) :
    RandomizedProps.leaves t = if left then l else l.reverse := by
  induction h with
  | one x => cases left <;> rfl
  | next x _ ih => cases left <;> simp_all [RandomizedProps.leaves]

/-- C147: a linear tree over a connected order contains no cross product and every table exactly once. -/
theorem C147_valid (left : Bool) (tables : List Nat) (E : Edges) (l : List Nat) (t : T) (h : Linear left l t)
    (ho : ConnectedOrder tables E l) : Valid E t ∧ (leaves t).Perm tables := by
  constructor
  · have key : ∀ (l : List Nat) (t : T), Linear left l t →
        (∀ a x b, l = a ++ x :: b → a ≠ [] → ∃ v ∈ a, Joined E v x) → Valid E t := by
      intro l t h
      induction h with
      | one x => intro _; exact .scan x
      | @next l t x h ih =>
        intro hc
        have hv := ih fun a y b e ha => hc a y (b ++ [x]) (by simp [e]) ha
        obtain ⟨v, hvm, hj⟩ := hc l x [] rfl (by cases h <;> simp)
        have hvl : v ∈ RandomizedProps.leaves t := by
          rw [h.leaves]; cases left <;> simpa using hvm
        cases left
        · exact .join (.scan x) hv ⟨x, by simp [RandomizedProps.leaves], v, hvl, hj.symm⟩
        · exact .join hv (.scan x) ⟨v, hvl, x, by simp [RandomizedProps.leaves], hj⟩
    exact key l t h ho.2
  · rw [h.leaves]
    cases left
    · exact (List.reverse_perm l).trans ho.1
    · exact ho.1

theorem wf_walk {tables : List Nat} {E : Edges} (hg : Graph tables E) :
    WalkProps.WFGraph ⟨tables, neighbours E⟩ := by
  refine ⟨hg.nodup, fun x y hy => ?_⟩
  rcases mem_neighbours E x y hy with h | h
  · exact (hg.ends _ h).2.1
  · exact (hg.ends _ h).1

/-- C147: for a connected join graph and all random choices, the linear generator produces the left-deep resp.
right-deep tree of a connected order, which begins with the base table. -/
theorem C147_linear (left : Bool) (tables : List Nat) (E : Edges) (hg : Graph tables E) (hc : Connected tables E)
    (hne : tables ≠ []) (pick : Nat → List Nat → Nat) (hp : ∀ k l, l ≠ [] → pick k l ∈ l) (base : Option Nat)
    (hb : ∀ b, base = some b → b ∈ tables) :
    ∃ l t, linear left tables E pick base = some t ∧ Linear left l t ∧ ConnectedOrder tables E l ∧
      ∀ b, base = some b → l.head? = some b := by
  obtain ⟨⟨h1, h2⟩, h3⟩ := WalkProps.C15_random_walk ⟨tables, neighbours E⟩ (wf_walk hg) hne pick hp base hb
  have hd : ∃ x xs, Walk.randomWalk ⟨tables, neighbours E⟩ pick base = x :: xs := ⟨_, _, rfl⟩
  obtain ⟨x, xs, hxs⟩ := hd
  rw [hxs] at h1 h2 h3
  obtain ⟨t, ht, hlin⟩ := linearTree_start left x xs
  refine ⟨x :: xs, t, by rw [linear, hxs]; exact ht, hlin, ⟨h1, ?_⟩, h3⟩
  intro a y b hl ha
  rcases h2 a y b hl ha with ⟨v, hv, hy⟩ | hno
  · exact ⟨v, hv, mem_neighbours E v y hy⟩
  · exfalso
    apply hno
    obtain ⟨v0, hv0⟩ := List.exists_mem_of_ne_nil a ha
    have hnd : (a ++ y :: b).Nodup := by rw [← hl]; exact h1.nodup_iff.2 hg.nodup
    have hya : y ∉ a := by
      rw [List.nodup_append] at hnd
      intro h; exact hnd.2.2 y h y (by simp) rfl
    have hv0t : v0 ∈ tables := h1.mem_iff.1 (by rw [hl]; simp [hv0])
    have hyt : y ∈ tables := h1.mem_iff.1 (by rw [hl]; simp)
    obtain ⟨c, d, hca, hda, hcd⟩ := path_leaves (P := fun z => z ∈ a) (hc v0 hv0t y hyt) hv0 hya
    exact ⟨c, hca, d, neighbours_mem hg hcd, hda⟩

/-- The choices that lead to the order `l`. -/
def pickOrder (l : List Nat) (k : Nat) (opts : List Nat) : Nat :=
  match l[l.length - k]? with
  | some x => if x ∈ opts then x else opts.headD 0
  | none => opts.headD 0

theorem pickOrder_mem (l : List Nat) (k : Nat) (opts : List Nat) (h : opts ≠ []) : pickOrder l k opts ∈ opts := by
  have hh : opts.headD 0 ∈ opts := by cases opts <;> simp_all
  unfold pickOrder
  split
  · split
    · assumption
    · exact hh
  · exact hh

theorem pickOrder_eq {l a b : List Nat} {x : Nat} (hl : l = a ++ x :: b) {opts : List Nat} (hx : x ∈ opts) :
    pickOrder l (b.length + 1) opts = x := by
  have : l[l.length - (b.length + 1)]? = some x := by
    subst hl
    have : (a ++ x :: b).length - (b.length + 1) = a.length := by simp
    rw [this]; simp
  simp [pickOrder, this, hx]

theorem walk_complete {tables : List Nat} {E : Edges} (hg : Graph tables E) {l : List Nat}
    (ho : ConnectedOrder tables E l) : ∀ (rest visited shell : List Nat) (current : Nat),
    l = visited ++ rest → visited ≠ [] →
    (∀ v ∈ visited, v ≠ current → ∀ y ∈ neighbours E v, y ∉ visited → y ∈ shell) →
    Walk.randomLoop ⟨tables, neighbours E⟩ (pickOrder l) (rest.length + 1) visited shell current = rest := by
  have hnd : l.Nodup := ho.1.nodup_iff.2 hg.nodup
  have hlen : l.length = tables.length := ho.1.length_eq
  intro rest
  induction rest with
  | nil =>
    intro visited shell current hl hv _
    have : ¬ visited.length < tables.length := by rw [← hlen, hl]; simp
    simp [Walk.randomLoop, this]
  | cons x rest ih =>
    intro visited shell current hl hv hs
    have hlt : visited.length < tables.length := by rw [← hlen, hl]; simp
    have hxv : x ∉ visited := by
      rw [hl, List.nodup_append] at hnd
      intro h; exact hnd.2.2 x h x (by simp) rfl
    obtain ⟨v, hvm, hj⟩ := ho.2 visited x rest hl hv
    have hmem : ∀ y, y ∈ Walk.unionSet shell ((neighbours E current).filter (· ∉ visited)) ↔
        y ∈ shell ∨ y ∈ neighbours E current ∧ y ∉ visited := by
      intro y
      rw [WalkProps.mem_unionSet, List.mem_filter]
      simp
    have hxs : x ∈ Walk.unionSet shell ((neighbours E current).filter (· ∉ visited)) := by
      rw [hmem]
      by_cases e : v = current
      · exact .inr ⟨neighbours_mem hg (e ▸ hj), hxv⟩
      · exact .inl (hs v hvm e x (neighbours_mem hg hj) hxv)
    have hpick : pickOrder l (rest.length + 1) (Walk.unionSet shell ((neighbours E current).filter (· ∉ visited))) = x :=
      pickOrder_eq hl hxs
    rw [List.length_cons, Walk.randomLoop]
    simp only
    rw [if_pos hlt, if_neg (List.ne_nil_of_mem hxs), hpick, WalkProps.addSet_new hxv]
    congr 1
    refine ih (visited ++ [x]) _ x (by simp [hl]) (by simp) ?_
    intro w hw hwx y hy hyv
    have hw' : w ∈ visited := by
      rcases List.mem_append.1 hw with h | h
      · exact h
      · simp at h; exact absurd h hwx
    simp only [List.mem_append, List.mem_singleton, not_or] at hyv
    rw [List.mem_filter]
    refine ⟨(hmem y).2 ?_, by simpa using hyv.2⟩
    by_cases e : w = current
    · exact .inr ⟨e ▸ hy, hyv.1⟩
    · exact .inl (hs w hw' e y hy hyv.1)

/-- C147: every connected order is possible. -/
theorem C147_complete (left : Bool) (tables : List Nat) (E : Edges) (hg : Graph tables E) (l : List Nat) (t : T)
    (hlin : Linear left l t) (ho : ConnectedOrder tables E l) :
    ∃ pick : Nat → List Nat → Nat, (∀ k l, l ≠ [] → pick k l ∈ l) ∧ linear left tables E pick none = some t := by
  refine ⟨pickOrder l, fun k o h => pickOrder_mem l k o h, ?_⟩
  have hln : l ≠ [] := by cases hlin <;> simp
  obtain ⟨x, xs, rfl⟩ := List.exists_cons_of_ne_nil hln
  have hlen : tables.length = xs.length + 1 := by have := ho.1.length_eq; simpa using this.symm
  have h0 : pickOrder (x :: xs) (xs.length + 1) tables = x :=
    pickOrder_eq (a := []) rfl (ho.1.mem_iff.1 (by simp))
  have hw : Walk.randomWalk ⟨tables, neighbours E⟩ (pickOrder (x :: xs)) none = x :: xs := by
    unfold Walk.randomWalk
    simp only [hlen, h0]
    congr 1
    refine walk_complete hg ho xs [x] [] x rfl (by simp) ?_
    intro v hv hvx
    simp at hv; exact absurd hv hvx
  obtain ⟨t', ht', hlin'⟩ := linearTree_start left x xs
  rw [linear, hw, ht', hlin'.unique hlin]

example : ConnectedOrder [1, 2, 3] [(1, 2), (2, 3)] [2, 3, 1] ∧
    Linear true [2, 3, 1] (.join .generic (.join .generic (.scan .generic 2 none) (.scan .generic 3 none) none)
      (.scan .generic 1 none) none) := by
  refine ⟨⟨by decide, ?_⟩, ((Linear.one 2).next 3).next 1⟩
  intro a x b h ha
  match a, ha, h with
  | [y], _, h =>
    simp at h
    obtain ⟨rfl, rfl, _⟩ := h
    exact ⟨2, by simp, .inl (by simp)⟩
  | [y, z], _, h =>
    simp at h
    obtain ⟨rfl, rfl, rfl, _⟩ := h
    exact ⟨2, by simp, .inr (by simp)⟩
  | y :: z :: w :: a, _, h =>
    have := congrArg List.length h
    simp at this

/-! ### C148 -/

theorem yielded_spec {α H : Type} [DecidableEq H] (hash : α → H) (l : List α) : ∀ seen : List H,
    ((yielded hash true seen l).Pairwise fun a b => hash a ≠ hash b) ∧
    (∀ a ∈ yielded hash true seen l, hash a ∉ seen) ∧
    (yielded hash true seen l).Sublist l ∧
    (∀ a ∈ l, hash a ∈ seen ∨ ∃ b ∈ yielded hash true seen l, hash b = hash a) := by
  induction l with
  | nil => intro seen; simp [yielded]
  | cons s l ih =>
    intro seen
    by_cases h : hash s ∈ seen
    · obtain ⟨h1, h2, h3, h4⟩ := ih seen
      simp only [yielded, h, if_true]
      refine ⟨h1, h2, h3.cons _, ?_⟩
      intro a ha
      rcases List.mem_cons.1 ha with rfl | ha
      · exact .inl h
      · exact h4 a ha
    · obtain ⟨h1, h2, h3, h4⟩ := ih (seen ++ [hash s])
      simp only [yielded, h, if_true, if_false]
      refine ⟨List.pairwise_cons.2 ⟨?_, h1⟩, ?_, h3.cons_cons _, ?_⟩
      · intro b hb e
        exact h2 b hb (by simp [e])
      · intro a ha
        rcases List.mem_cons.1 ha with rfl | ha
        · exact h
        · intro hs; exact h2 a ha (by simp [hs])
      · intro a ha
        rcases List.mem_cons.1 ha with rfl | ha
        · exact .inr ⟨_, by simp, rfl⟩
        · rcases h4 a ha with hh | ⟨b, hb, e⟩
          · rcases List.mem_append.1 hh with hh | hh
            · exact .inl hh
            · simp at hh; exact .inr ⟨s, by simp, hh.symm⟩
          · exact .inr ⟨b, by simp [hb], e⟩

theorem valid_hash {E : Edges} {s t : T} (hs : Valid E s) (ht : Valid E t) (h : s.hashKey = t.hashKey) : s = t := by
  induction hs generalizing t with
  | scan a => cases ht <;> simp_all [JT.Tree.hashKey]
  | join h1 h2 _ ih1 ih2 =>
    cases ht with
    | scan b => simp [JT.Tree.hashKey] at h
    | join g1 g2 _ =>
      simp only [JT.Tree.hashKey, JT.HashKey.pair.injEq] at h
      rw [ih1 g1 h.1, ih2 g2 h.2]

/-- C148 (partial: at least two tables): if duplicates are eliminated, the join orders are pairwise different, and none
of the sampled ones is lost; otherwise all samples are yielded. -/
theorem C148_unique_partial (tables : List Nat) (E : Edges) (samples : List T) (n : Nat) (h2 : 1 < tables.length)
    (hs : ∀ t ∈ samples, Valid E t) :
    (∃ l, joinOrders true tables true samples n = .yields l ∧ l.Nodup ∧ l.Sublist samples ∧ ∀ t ∈ samples, t ∈ l) ∧
    joinOrders false tables true samples n = .yields samples := by
  match tables, h2 with
  | a :: b :: l, _ =>
    constructor
    · obtain ⟨h1, _, h3, h4⟩ := yielded_spec (H := JT.HashKey) JT.Tree.hashKey samples []
      refine ⟨_, rfl, ?_, h3, ?_⟩
      · exact h1.imp fun h e => h (by rw [e])
      · intro t ht
        rcases h4 t ht with h | ⟨b, hb, e⟩
        · cases h
        · rw [← valid_hash (hs b (h3.subset hb)) (hs t ht) e]; exact hb
    · have : ∀ (s : List JT.HashKey) (l : List T), yielded JT.Tree.hashKey false s l = l := by
        intro s l
        induction l with
        | nil => rfl
        | cons x l ih => simp [yielded, ih]
      simp [joinOrders, this]

example : ∀ t ∈ ([.join .generic (.scan .generic 1 none) (.scan .generic 2 none) none] : List T), Valid [(1, 2)] t := by
  intro t ht
  simp at ht; subst ht
  exact .join (.scan 1) (.scan 2) ⟨1, by simp [leaves], 2, by simp [leaves], .inl (by simp)⟩

/-- C148, violation: for a single table, the same join order is yielded again and again, although duplicates should be
eliminated. -/
theorem C148_single_violated (t : Nat) (c : Bool) (samples : List T) (n : Nat) :
    ∃ l, joinOrders true [t] c samples (n + 2) = .yields l ∧ l.length = n + 2 ∧ ¬ l.Nodup := by
  refine ⟨_, rfl, by simp, ?_⟩
  intro h
  simp [List.replicate_succ] at h

/-- C146: a disconnected join graph of several tables is rejected. -/
theorem C146_cross (e : Bool) (tables : List Nat) (samples : List T) (n : Nat) (h : 1 < tables.length) :
    joinOrders e tables false samples n = .valueError := by
  match tables, h with
  | a :: b :: l, _ => simp [joinOrders]

/-- C146, violation: cross products are only recognised among the tables of the join graph, which are the tables of the
predicates (C86). If only one table occurs in the predicates, join orders are yielded that lack all other tables of the
query; if there are no predicates, nothing is yielded. -/
theorem C146_cross_violated (e c : Bool) (t u : Nat) (samples : List T) (n : Nat) (h : u ≠ t) :
    (∃ l, joinOrders e [t] c samples n = .yields l ∧ l.length = n ∧ ∀ o ∈ l, u ∉ leaves o) ∧
    joinOrders e [] c samples n = .yields [] := by
  refine ⟨⟨_, rfl, by simp, ?_⟩, rfl⟩
  intro o ho
  rw [List.mem_replicate] at ho
  rw [ho.2]
  simpa [leaves] using h

/-! ### C149 -/

/-- Specification: the joins of a tree by their tables. -/
def IsJoinOf (t : T) (s : Finset Nat) : Prop :=
  ∃ c o i a, Sub (.join c o i a) t ∧ s = (leaves o ++ leaves i).toFinset

theorem tables_leaves (t : T) : t.tables = (leaves t).toFinset := by
  induction t with
  | empty c => rfl
  | scan c x a => simp [JT.Tree.tables, leaves]
  | join c o i a h1 h2 => simp [JT.Tree.tables, leaves, h1, h2]

theorem iterjoins_spec (t : T) (s : Finset Nat) : s ∈ t.iterjoins.map JT.Tree.tables ↔ IsJoinOf t s := by
  induction t with
  | empty c =>
    simp only [JT.Tree.iterjoins, List.map_nil, List.not_mem_nil, false_iff]
    rintro ⟨c', o, i, a, h, _⟩; cases h
  | scan c x a =>
    simp only [JT.Tree.iterjoins, List.map_nil, List.not_mem_nil, false_iff]
    rintro ⟨c', o, i, a, h, _⟩; cases h
  | join c o i a h1 h2 =>
    simp only [JT.Tree.iterjoins, List.map_append, List.mem_append, h1, h2, List.map_cons, List.map_nil,
      List.mem_singleton]
    constructor
    · rintro ((⟨c', o', i', a', h, e⟩ | ⟨c', o', i', a', h, e⟩) | e)
      · exact ⟨c', o', i', a', .outer h, e⟩
      · exact ⟨c', o', i', a', .inner h, e⟩
      · exact ⟨c, o, i, a, .refl, by rw [e, tables_leaves]; rfl⟩
    · rintro ⟨c', o', i', a', h, e⟩
      cases h with
      | refl => exact .inr (by rw [e, tables_leaves]; rfl)
      | outer h => exact .inl (.inl ⟨c', o', i', a', h, e⟩)
      | inner h => exact .inl (.inr ⟨c', o', i', a', h, e⟩)

theorem assignJoins_spec (c : Nat → Nat) (ops : List JoinOp) (js : List (Finset Nat)) (h : ops ≠ [] ∨ js = []) :
    ∀ (k : Nat) (a : OpAssign), ∃ a', assignJoins c ops k js a = some a' ∧ a'.scans = a.scans ∧ a'.inters = a.inters ∧
      a'.globals = a.globals ∧ (∀ s ∈ js, ∃ o ∈ ops, Dict.get? a'.joins s = some ⟨o, s, none, none⟩) ∧
      ∀ s, s ∉ js → Dict.get? a'.joins s = Dict.get? a.joins s := by
  induction js with
  | nil => intro k a; exact ⟨a, rfl, rfl, rfl, rfl, by simp, by simp⟩
  | cons j js ih =>
    intro k a
    have hops : ops ≠ [] := by simpa using h
    obtain ⟨o, ho, hc⟩ := choose_mem hops (c k)
    obtain ⟨a', h1, h2, h3, h4, h5, h6⟩ := ih (.inl hops) (k + 1) (a.setJoin ⟨o, j, none, none⟩)
    refine ⟨a', by rw [assignJoins, hc, Option.bind_some]; exact h1, h2, h3, h4, ?_, ?_⟩
    · intro s hs
      by_cases hm : s ∈ js
      · exact h5 s hm
      · rcases List.mem_cons.1 hs with rfl | hs
        · exact ⟨o, ho, by rw [h6 s hm]; simp [OpAssign.setJoin, Dict.get?_set]⟩
        · exact absurd hs hm
    · intro s hs
      simp only [List.mem_cons, not_or] at hs
      rw [h6 s hs.2]
      simp [OpAssign.setJoin, Dict.get?_set, Ne.symm hs.1]

theorem assignScans_spec (c : Nat → Nat) (ops : List ScanOp) (ts : List Nat) (h : ops ≠ [] ∨ ts = []) :
    ∀ (k : Nat) (a : OpAssign), ∃ a', assignScans c ops k ts a = some a' ∧ a'.joins = a.joins ∧ a'.inters = a.inters ∧
      a'.globals = a.globals ∧ (∀ t ∈ ts, ∃ o ∈ ops, Dict.get? a'.scans t = some ⟨o, t, none⟩) ∧
      ∀ t, t ∉ ts → Dict.get? a'.scans t = Dict.get? a.scans t := by
  induction ts with
  | nil => intro k a; exact ⟨a, rfl, rfl, rfl, rfl, by simp, by simp⟩
  | cons j ts ih =>
    intro k a
    have hops : ops ≠ [] := by simpa using h
    obtain ⟨o, ho, hc⟩ := choose_mem hops (c k)
    obtain ⟨a', h1, h2, h3, h4, h5, h6⟩ := ih (.inl hops) (k + 1) (a.setScan ⟨o, j, none⟩)
    refine ⟨a', by rw [assignScans, hc, Option.bind_some]; exact h1, h2, h3, h4, ?_, ?_⟩
    · intro s hs
      by_cases hm : s ∈ ts
      · exact h5 s hm
      · rcases List.mem_cons.1 hs with rfl | hs
        · exact ⟨o, ho, by rw [h6 s hm]; simp [OpAssign.setScan, Dict.get?_set]⟩
        · exact absurd hs hm
    · intro s hs
      simp only [List.mem_cons, not_or] at hs
      rw [h6 s hs.2]
      simp [OpAssign.setScan, Dict.get?_set, Ne.symm hs.1]

/-- C149: the usable operators are those that were asked for (all, if none were given) and that the database supports. -/
theorem C149_allowed {O : Type} (given : Option (List O)) (all : List O) (supported : O → Bool) (o : O) :
    o ∈ allowed given all supported ↔ supported o = true ∧
      ((∃ l, given = some l ∧ l ≠ [] ∧ o ∈ l) ∨ (given = none ∨ given = some []) ∧ o ∈ all) := by
  unfold allowed
  rw [List.mem_filter, and_comm]
  match given with
  | none => simp
  | some [] => simp
  | some (x :: l) => simp

/-- C149 (partial: there is a join order and, unless nothing has to be assigned, a usable operator): the assignment
contains exactly one usable operator for each join and each table of the join order, as far as joins and scans are
included, without workers or directions, and nothing else. -/
theorem C149_operators_partial (cj cs : Nat → Nat) (scans : List ScanOp) (joins : List JoinOp) (inclScans inclJoins : Bool)
    (t : T) (tables : List Nat) (ht : ∀ x, x ∈ tables ↔ x ∈ leaves t)
    (hj : inclJoins = true → joins ≠ [] ∨ ∀ s, ¬ IsJoinOf t s) (hs : inclScans = true → scans ≠ [] ∨ leaves t = []) :
    ∃ a, randomOperators cj cs scans joins inclScans inclJoins (some t) tables = some a ∧
      a.globals = [] ∧ a.inters = [] ∧
      (inclJoins = true → ∀ s, IsJoinOf t s → ∃ o ∈ joins, Dict.get? a.joins s = some ⟨o, s, none, none⟩) ∧
      (∀ s, inclJoins = false ∨ ¬ IsJoinOf t s → Dict.get? a.joins s = none) ∧
      (inclScans = true → ∀ x ∈ leaves t, ∃ o ∈ scans, Dict.get? a.scans x = some ⟨o, x, none⟩) ∧
      (∀ x, inclScans = false ∨ x ∉ leaves t → Dict.get? a.scans x = none) := by
  have h1 : ∃ a, (if inclJoins then assignJoins cj joins 0 (t.iterjoins.map JT.Tree.tables) OpAssign.empty
      else some OpAssign.empty) = some a ∧ a.globals = [] ∧ a.inters = [] ∧ a.scans = [] ∧
      (inclJoins = true → ∀ s, IsJoinOf t s → ∃ o ∈ joins, Dict.get? a.joins s = some ⟨o, s, none, none⟩) ∧
      (∀ s, inclJoins = false ∨ ¬ IsJoinOf t s → Dict.get? a.joins s = none) := by
    cases inclJoins with
    | false => exact ⟨OpAssign.empty, rfl, rfl, rfl, rfl, by simp, fun s _ => rfl⟩
    | true =>
      have hcond : joins ≠ [] ∨ t.iterjoins.map JT.Tree.tables = [] := by
        rcases hj rfl with h | h
        · exact .inl h
        · refine .inr (List.eq_nil_iff_forall_not_mem.2 fun s hsm => h s ((iterjoins_spec t s).1 hsm))
      obtain ⟨a, g1, g2, g3, g4, g5, g6⟩ := assignJoins_spec cj joins _ hcond 0 OpAssign.empty
      refine ⟨a, by simpa using g1, g4, g3, g2, fun _ s h => g5 s ((iterjoins_spec t s).2 h), ?_⟩
      intro s h
      have : ¬ IsJoinOf t s := by simpa using h
      rw [g6 s fun hm => this ((iterjoins_spec t s).1 hm)]; rfl
  obtain ⟨a, e, g1, g2, g3, g4, g5⟩ := h1
  simp only [randomOperators, Option.bind_some, e]
  cases inclScans with
  | false => exact ⟨a, by simp, g1, g2, g4, g5, by simp, fun x _ => by rw [g3]; rfl⟩
  | true =>
    have hcond : scans ≠ [] ∨ tables = [] := by
      rcases hs rfl with h | h
      · exact .inl h
      · refine .inr (List.eq_nil_iff_forall_not_mem.2 fun x hx => ?_)
        have := (ht x).1 hx
        rw [h] at this; cases this
    obtain ⟨a', k1, k2, k3, k4, k5, k6⟩ := assignScans_spec cs scans tables hcond 0 a
    refine ⟨a', by simpa using k1, k4.trans g1, k3.trans g2, by rw [k2]; exact g4, by rw [k2]; exact g5,
      fun _ x hx => k5 x ((ht x).2 hx), ?_⟩
    intro x hx
    have : x ∉ leaves t := by simpa using hx
    rw [k6 x fun hm => this ((ht x).1 hm), g3]; rfl

example : IsJoinOf (.join .generic (.scan .generic 1 none) (.scan .generic 2 none) none) {1, 2} :=
  ⟨.generic, _, _, none, .refl, by decide⟩

/-- C149, violation: if no operator can be used (for example, because the database supports none of the requested ones),
the generation fails for every join order with a join resp. a table. -/
theorem C149_empty_violated (cj cs : Nat → Nat) (scans : List ScanOp) (joins : List JoinOp) (inclScans inclJoins : Bool)
    (t : T) (tables : List Nat) :
    (inclJoins = true → joins = [] → (∃ s, IsJoinOf t s) →
      randomOperators cj cs scans joins inclScans inclJoins (some t) tables = none) ∧
    (inclScans = true → scans = [] → tables ≠ [] →
      randomOperators cj cs scans joins inclScans inclJoins (some t) tables = none) := by
  constructor
  · rintro rfl rfl ⟨s, hs⟩
    have hm := (iterjoins_spec t s).2 hs
    cases hl : t.iterjoins.map JT.Tree.tables with
    | nil => rw [hl] at hm; cases hm
    | cons x l => simp [randomOperators, hl, assignJoins, choose]
  · rintro rfl rfl hne
    obtain ⟨x, l, rfl⟩ := List.exists_cons_of_ne_nil hne
    simp only [randomOperators, Option.bind_some]
    cases (if inclJoins then assignJoins cj joins 0 (t.iterjoins.map JT.Tree.tables) OpAssign.empty
      else some OpAssign.empty) <;> simp [assignScans, choose]

/-- C149, violation: without a join order (which pipelines may pass), no operators can be generated. -/
theorem C149_noorder_violated (cj cs : Nat → Nat) (scans : List ScanOp) (joins : List JoinOp) (inclScans inclJoins : Bool)
    (tables : List Nat) : randomOperators cj cs scans joins inclScans inclJoins none tables = none := rfl

/-- C149, violation: random plans cannot be generated at all: the operators are passed to `to_query_plan` as a
positional argument, which it does not accept. -/
theorem C149_plans_violated {P : Type} (build : T → OpAssign → P) (t : Option T) (a : Option OpAssign) :
    randomPlan build t a = none := by
  cases t <;> cases a <;> simp [randomPlan, toQueryPlanCall]

end PB.RandomizedProps
