import Verif.Model.Enumerate
import Verif.Props.EquivClasses
import Mathlib.Data.List.Nodup
import Mathlib.Data.List.Perm.Basic
import Mathlib.Data.List.Flatten

/-! Properties C27 and C97: exhaustive enumeration. -/

set_option linter.unusedSimpArgs false
set_option linter.unusedVariables false
set_option linter.unusedSectionVars false
set_option linter.unnecessarySimpa false

namespace PB.EnumerateProps
open PB PB.Hints PB.Enumerate

variable {A : Type} [DecidableEq A]

/-! ### Specification -/

/-- The tables of a join order from left to right. -/
def leaves : JT.Tree A → List Nat
  | .empty _ => []
  | .scan _ t _ => [t]
  | .join _ o i _ => leaves o ++ leaves i

/-- Some table of `x` can be joined with some table of `y`. -/
def Crosses (R : Nat → Nat → Prop) (x y : JT.Tree A) : Prop := ∃ a ∈ leaves x, ∃ b ∈ leaves y, R a b

/-- Trees without cross products. -/
inductive Free (R : Nat → Nat → Prop) : JT.Tree A → Prop
  | scan (t) : Free R (.scan .generic t none)
  | join {l r} : Free R l → Free R r → Crosses R l r → Free R (.join .generic l r none)

/-- A cross-product free bushy join order over exactly the given tables, each used once. -/
def JoinOrder (tables : List Nat) (R : Nat → Nat → Prop) (T : JT.Tree A) : Prop := Free R T ∧ (leaves T).Perm tables

/-- Two nodes are joined by an edge (edges have no direction). -/
def Joined {α : Type} (es : List (α × α)) (a b : α) : Prop := (a, b) ∈ es ∨ (b, a) ∈ es

/-- The edges are visited in any order and direction. -/
def Visits (ord : LGraph (JT.Tree A) → List (JT.Tree A × JT.Tree A)) : Prop :=
  ∀ g a b, Joined (ord g) a b ↔ Joined g.edges a b

/-! ### Graph operations -/

theorem Joined.symm {α : Type} {es : List (α × α)} {a b : α} (h : Joined es a b) : Joined es b a := Or.symm h

theorem joined_dedup {α : Type} [DecidableEq α] (es : List (α × α)) (a b : α) :
    Joined (dedupEdges es) a b ↔ Joined es a b := by
  induction es with
  | nil => simp [dedupEdges, Joined]
  | cons e es ih =>
    rw [dedupEdges]
    simp only [Joined] at ih ⊢
    split
    · rename_i h
      rw [ih]
      simp only [List.mem_cons]
      constructor
      · rintro (h | h) <;> tauto
      · rintro ((rfl | h') | (rfl | h')) <;> tauto
    · simp only [List.mem_cons]
      tauto

theorem joined_step {α : Type} [DecidableEq α] (g : LGraph α) (u v t : α) (x y : α) :
    Joined ((g.contract u v).relabel u t).edges x y ↔
    ∃ a b, Joined g.edges a b ∧ (if a = v then u else a) ≠ (if b = v then u else b) ∧
      (if (if a = v then u else a) = u then t else (if a = v then u else a)) = x ∧
      (if (if b = v then u else b) = u then t else (if b = v then u else b)) = y := by
  have h1 : ∀ (f : α → α) (es : List (α × α)) x y, Joined (es.map fun e => (f e.1, f e.2)) x y ↔
      ∃ a b, Joined es a b ∧ f a = x ∧ f b = y := by
    intro f es x y
    simp only [Joined, List.mem_map, Prod.mk.injEq, Prod.exists]
    constructor
    · rintro (⟨a, b, h, rfl, rfl⟩ | ⟨a, b, h, rfl, rfl⟩)
      · exact ⟨a, b, .inl h, rfl, rfl⟩
      · exact ⟨b, a, .inr h, rfl, rfl⟩
    · rintro ⟨a, b, h | h, rfl, rfl⟩
      · exact .inl ⟨a, b, h, rfl, rfl⟩
      · exact .inr ⟨b, a, h, rfl, rfl⟩
  have h2 : ∀ (es : List (α × α)) x y, Joined (es.filter fun e => decide (e.1 ≠ e.2)) x y ↔ Joined es x y ∧ x ≠ y := by
    intro es x y
    simp only [Joined, List.mem_filter, decide_eq_true_eq]
    constructor
    · rintro (⟨h, hn⟩ | ⟨h, hn⟩)
      · exact ⟨.inl h, hn⟩
      · exact ⟨.inr h, hn.symm⟩
    · rintro ⟨h | h, hn⟩
      · exact .inl ⟨h, hn⟩
      · exact .inr ⟨h, hn.symm⟩
  rw [LGraph.relabel, LGraph.contract]
  dsimp only
  rw [h1 (fun x => if x = u then t else x)]
  simp only [joined_dedup, h2]
  simp only [h1 (fun x => if x = v then u else x)]
  constructor
  · rintro ⟨a, b, ⟨⟨a', b', h, rfl, rfl⟩, hn⟩, rfl, rfl⟩
    exact ⟨a', b', h, hn, rfl, rfl⟩
  · rintro ⟨a, b, h, hn, rfl, rfl⟩
    exact ⟨_, _, ⟨⟨a, b, h, rfl, rfl⟩, hn⟩, rfl, rfl⟩

/-! ### The invariant -/

/-- The nodes are disjoint cross-product free trees, and two nodes are joined iff some of their tables are. -/
structure Inv (R : Nat → Nat → Prop) (g : LGraph (JT.Tree A)) : Prop where
  nodup : (g.nodes.flatMap leaves).Nodup
  free : ∀ x ∈ g.nodes, Free R x
  nodes : ∀ x y, Joined g.edges x y → x ∈ g.nodes ∧ y ∈ g.nodes ∧ x ≠ y
  adj : ∀ x ∈ g.nodes, ∀ y ∈ g.nodes, x ≠ y → (Joined g.edges x y ↔ Crosses R x y)

theorem Free.leaves_ne {R : Nat → Nat → Prop} {x : JT.Tree A} (h : Free R x) : leaves x ≠ [] := by
  induction h with
  | scan t => simp [leaves]
  | join _ _ _ ih _ => simp [leaves, ih]

theorem nodup_of_flatMap {l : List (JT.Tree A)} (hne : ∀ x ∈ l, leaves x ≠ []) (h : (l.flatMap leaves).Nodup) : l.Nodup := by
  induction l with
  | nil => exact List.nodup_nil
  | cons x l ih =>
    rw [List.flatMap_cons, List.nodup_append] at h
    refine List.nodup_cons.2 ⟨fun hx => ?_, ih (fun y hy => hne y (List.mem_cons_of_mem _ hy)) h.2.1⟩
    obtain ⟨a, ha⟩ := List.exists_mem_of_ne_nil _ (hne x (by simp))
    exact h.2.2 a ha a (List.mem_flatMap.2 ⟨x, hx, ha⟩) rfl

theorem Inv.nodup_nodes {R : Nat → Nat → Prop} {g : LGraph (JT.Tree A)} (h : Inv R g) : g.nodes.Nodup :=
  nodup_of_flatMap (fun x hx => (h.free x hx).leaves_ne) h.nodup

theorem perm_two {α : Type} [DecidableEq α] {l : List α} (hl : l.Nodup) {u v : α} (hu : u ∈ l) (hv : v ∈ l) (hne : u ≠ v) :
    l.Perm (u :: v :: l.filter fun x => decide (x ≠ u ∧ x ≠ v)) := by
  rw [List.perm_ext_iff_of_nodup hl]
  · intro a
    simp only [List.mem_cons, List.mem_filter, decide_eq_true_eq]
    constructor
    · intro h; by_cases h1 : a = u <;> by_cases h2 : a = v <;> simp [*]
    · rintro (rfl | rfl | ⟨h, _⟩) <;> assumption
  · simp only [List.nodup_cons, List.mem_cons, List.mem_filter, decide_eq_true_eq]
    exact ⟨by simp [hne], by simp, hl.filter _⟩

theorem Inv.disjoint {R : Nat → Nat → Prop} {g : LGraph (JT.Tree A)} (h : Inv R g) {x y : JT.Tree A} (hx : x ∈ g.nodes)
    (hy : y ∈ g.nodes) (hne : x ≠ y) : List.Disjoint (leaves x) (leaves y) := by
  have hp := (perm_two h.nodup_nodes hx hy hne).flatMap_right leaves
  have := hp.nodup_iff.1 h.nodup
  simp only [List.flatMap_cons, ← List.append_assoc] at this
  rw [List.nodup_append] at this
  have := List.nodup_append.1 this.1
  intro a ha hb
  exact this.2.2 a ha a hb rfl

/-- Merging two joined nodes. -/
theorem step_inv {R : Nat → Nat → Prop} (hR : ∀ a b, R a b → R b a) {g : LGraph (JT.Tree A)} (h : Inv R g) {u v t : JT.Tree A}
    (he : Joined g.edges u v) (ht : t = mergeNodes u v ∨ t = mergeNodes v u) :
    Inv R ((g.contract u v).relabel u t) ∧
    ((g.contract u v).relabel u t).nodes.Perm (t :: g.nodes.filter fun x => decide (x ≠ u ∧ x ≠ v)) := by
  obtain ⟨hu, hv, huv⟩ := h.nodes u v he
  have hnd := h.nodup_nodes
  have hlt : (leaves t).Perm (leaves u ++ leaves v) := by
    rcases ht with rfl | rfl
    · exact .refl _
    · exact List.perm_append_comm
  have hmem : ∀ a, a ∈ leaves t ↔ a ∈ leaves u ∨ a ∈ leaves v := fun a => by rw [hlt.mem_iff, List.mem_append]
  have hcross : Crosses R u v := (h.adj u hu v hv huv).1 he
  have hcross' : Crosses R v u := by obtain ⟨a, ha, b, hb, hab⟩ := hcross; exact ⟨b, hb, a, ha, hR _ _ hab⟩
  have htf : Free R t := by
    rcases ht with rfl | rfl
    · exact .join (h.free u hu) (h.free v hv) hcross
    · exact .join (h.free v hv) (h.free u hu) hcross'
  have htn : t ∉ g.nodes := by
    intro htm
    have hun := (h.free u hu).leaves_ne
    have hvn := (h.free v hv).leaves_ne
    by_cases e : t = u
    · rw [e] at hlt
      have := hlt.length_eq
      rw [List.length_append] at this
      exact hvn (List.length_eq_zero_iff.1 (by omega))
    · obtain ⟨a, ha⟩ := List.exists_mem_of_ne_nil _ hun
      exact h.disjoint htm hu e ((hmem a).2 (.inl ha)) ha
  -- the nodes
  have hperm : ((g.contract u v).relabel u t).nodes.Perm (t :: g.nodes.filter fun x => decide (x ≠ u ∧ x ≠ v)) := by
    have h1 : (g.nodes.filter fun x => decide (x ≠ v)).Perm (u :: g.nodes.filter fun x => decide (x ≠ u ∧ x ≠ v)) := by
      rw [List.perm_ext_iff_of_nodup (hnd.filter _)]
      · intro a
        simp only [List.mem_cons, List.mem_filter, decide_eq_true_eq]
        constructor
        · rintro ⟨h1, h2⟩; by_cases e : a = u <;> simp [*]
        · rintro (rfl | ⟨h1, h2, h3⟩)
          · exact ⟨hu, huv⟩
          · exact ⟨h1, h3⟩
      · exact List.nodup_cons.2 ⟨by simp, hnd.filter _⟩
    refine (h1.map fun x => if x = u then t else x).trans (.of_eq ?_)
    rw [List.map_cons, if_pos rfl]
    congr 1
    conv_rhs => rw [← List.map_id (List.filter _ _)]
    refine List.map_congr_left fun x hx => ?_
    simp only [List.mem_filter, decide_eq_true_eq] at hx
    rw [if_neg hx.2.1]; rfl
  have hmn : ∀ x, x ∈ ((g.contract u v).relabel u t).nodes ↔ x = t ∨ (x ∈ g.nodes ∧ x ≠ u ∧ x ≠ v) := by
    intro x; rw [hperm.mem_iff, List.mem_cons, List.mem_filter, decide_eq_true_eq]
  -- the edges
  have hj : ∀ x y, Joined ((g.contract u v).relabel u t).edges x y ↔ ∃ a b, Joined g.edges a b ∧
      ¬ ((a = u ∨ a = v) ∧ (b = u ∨ b = v)) ∧ (if a = u ∨ a = v then t else a) = x ∧ (if b = u ∨ b = v then t else b) = y := by
    intro x y
    rw [joined_step]
    refine exists_congr fun a => exists_congr fun b => and_congr_right fun hab => ?_
    have hne := (h.nodes a b hab).2.2
    by_cases h1 : a = v <;> by_cases h2 : a = u <;> by_cases h3 : b = v <;> by_cases h4 : b = u <;> simp_all
    intro _ e e2; exact h4 (e.trans e2.symm)
  have hcr : ∀ y, Crosses R t y ↔ Crosses R u y ∨ Crosses R v y := by
    intro y
    simp only [Crosses, hmem]
    constructor
    · rintro ⟨a, ha | ha, hb⟩
      · exact .inl ⟨a, ha, hb⟩
      · exact .inr ⟨a, ha, hb⟩
    · rintro (⟨a, ha, hb⟩ | ⟨a, ha, hb⟩)
      · exact ⟨a, .inl ha, hb⟩
      · exact ⟨a, .inr ha, hb⟩
  have hcs : ∀ x y : JT.Tree A, Crosses R x y ↔ Crosses R y x := fun x y =>
    ⟨fun ⟨a, ha, b, hb, hab⟩ => ⟨b, hb, a, ha, hR _ _ hab⟩, fun ⟨a, ha, b, hb, hab⟩ => ⟨b, hb, a, ha, hR _ _ hab⟩⟩
  have hjt : ∀ y ∈ g.nodes, y ≠ u → y ≠ v → (Joined ((g.contract u v).relabel u t).edges t y ↔ Crosses R t y) := by
    intro y hy hyu hyv
    rw [hj, hcr, ← h.adj u hu y hy hyu.symm, ← h.adj v hv y hy hyv.symm]
    constructor
    · rintro ⟨a, b, hab, hn, h1, h2⟩
      have hb : b = y := by
        split at h2
        · rw [← h2] at hy; exact absurd hy htn
        · exact h2
      subst hb
      have ha : a = u ∨ a = v := by
        by_contra hna
        rw [if_neg hna] at h1
        exact htn (h1 ▸ (h.nodes a b hab).1)
      rcases ha with rfl | rfl
      · exact .inl hab
      · exact .inr hab
    · rintro (h' | h')
      · exact ⟨u, y, h', by simp [hyu, hyv], by simp, by simp [hyu, hyv]⟩
      · exact ⟨v, y, h', by simp [hyu, hyv], by simp, by simp [hyu, hyv]⟩
  refine ⟨⟨?_, ?_, ?_, ?_⟩, hperm⟩
  · rw [(hperm.flatMap_right leaves).nodup_iff, List.flatMap_cons, (hlt.append_right _).nodup_iff, List.append_assoc]
    have := (perm_two hnd hu hv huv).flatMap_right leaves
    simp only [List.flatMap_cons] at this
    exact this.nodup_iff.1 h.nodup
  · intro x hx
    rw [hmn] at hx
    rcases hx with rfl | hx
    · exact htf
    · exact h.free x hx.1
  · intro x y hxy
    obtain ⟨a, b, hab, hn, rfl, rfl⟩ := (hj x y).1 hxy
    obtain ⟨ha, hb, hne⟩ := h.nodes a b hab
    simp only [hmn]
    by_cases h1 : a = u ∨ a = v
    · have h2 : ¬ (b = u ∨ b = v) := fun h2 => hn ⟨h1, h2⟩
      rw [if_pos h1, if_neg h2]
      refine ⟨.inl rfl, .inr ⟨hb, ?_⟩, fun e => htn (e ▸ hb)⟩
      push Not at h2; exact h2
    · rw [if_neg h1]
      have h1' := h1
      push Not at h1'
      refine ⟨.inr ⟨ha, h1'⟩, ?_⟩
      by_cases h2 : b = u ∨ b = v
      · rw [if_pos h2]; exact ⟨.inl rfl, fun e => htn (e ▸ ha)⟩
      · rw [if_neg h2]
        push Not at h2
        exact ⟨.inr ⟨hb, h2⟩, hne⟩
  · intro x hx y hy hxy
    rw [hmn] at hx hy
    rcases hx with rfl | ⟨hx, hxu, hxv⟩ <;> rcases hy with rfl | ⟨hy, hyu, hyv⟩
    · exact absurd rfl hxy
    · exact hjt y hy hyu hyv
    · rw [hcs, ← hjt x hx hxu hxv]; exact ⟨Joined.symm, Joined.symm⟩
    · rw [← h.adj x hx y hy hxy, hj]
      constructor
      · rintro ⟨a, b, hab, hn, h1, h2⟩
        have ha : a = x := by
          split at h1
          · rw [← h1] at hx; exact absurd hx htn
          · exact h1
        have hb : b = y := by
          split at h2
          · rw [← h2] at hy; exact absurd hy htn
          · exact h2
        rw [← ha, ← hb]; exact hab
      · intro h'
        exact ⟨x, y, h', by simp [hxu, hxv], by simp [hxu, hxv], by simp [hyu, hyv]⟩

/-! ### Soundness -/

theorem enumGraph_sound {R : Nat → Nat → Prop} (hR : ∀ a b, R a b → R b a)
    (ord : LGraph (JT.Tree A) → List (JT.Tree A × JT.Tree A)) (hord : Visits ord) (n : Nat) (g : LGraph (JT.Tree A)) (h : Inv R g)
    (T : JT.Tree A) (hT : T ∈ enumGraph ord n g) : JoinOrder (g.nodes.flatMap leaves) R T := by
  induction n generalizing g with
  | zero => simp [enumGraph] at hT
  | succ n ih =>
    rw [enumGraph] at hT
    split at hT
    · rename_i hl
      obtain ⟨x, hx⟩ := List.length_eq_one_iff.1 hl
      rw [hx, List.mem_singleton] at hT
      subst hT
      rw [hx]
      exact ⟨h.free T (by simp [hx]), by simp⟩
    · obtain ⟨e, he, hT⟩ := List.mem_flatMap.1 hT
      have hj : Joined g.edges e.1 e.2 := (hord g _ _).1 (.inl he)
      obtain ⟨hu, hv, huv⟩ := h.nodes _ _ hj
      have key : ∀ t, (t = mergeNodes e.1 e.2 ∨ t = mergeNodes e.2 e.1) →
          T ∈ enumGraph ord n ((g.contract e.1 e.2).relabel e.1 t) → JoinOrder (g.nodes.flatMap leaves) R T := by
        intro t ht hT
        obtain ⟨hinv, hperm⟩ := step_inv hR h hj ht
        obtain ⟨hf, hp⟩ := ih _ hinv hT
        refine ⟨hf, hp.trans ((hperm.flatMap_right leaves).trans (.trans ?_
          ((perm_two h.nodup_nodes hu hv huv).flatMap_right leaves).symm))⟩
        simp only [List.flatMap_cons, ← List.append_assoc]
        refine List.Perm.append_right _ ?_
        rcases ht with rfl | rfl
        · exact .refl _
        · exact List.perm_append_comm
      rcases List.mem_append.1 hT with hT | hT
      · exact key _ (.inl rfl) hT
      · exact key _ (.inr rfl) hT

/-! ### Completeness -/

/-- `ns` are disjoint subtrees of `T` that cover `T`. -/
inductive Cut : JT.Tree A → List (JT.Tree A) → Prop
  | whole (T) : Cut T [T]
  | split {l r n1 n2} : Cut l n1 → Cut r n2 → Cut (.join .generic l r none) (n1 ++ n2)

theorem Cut.length_pos {T : JT.Tree A} {ns : List (JT.Tree A)} (h : Cut T ns) : 1 ≤ ns.length := by
  induction h with
  | whole => simp
  | split _ _ ih _ => rw [List.length_append]; omega

theorem Cut.one {T : JT.Tree A} {ns : List (JT.Tree A)} (h : Cut T ns) (hl : ns.length = 1) : ns = [T] := by
  cases h with
  | whole => rfl
  | split h1 h2 =>
    have := h1.length_pos
    have := h2.length_pos
    rw [List.length_append] at hl
    omega

/-- Two siblings of a cut can be merged. -/
theorem Cut.merge {R : Nat → Nat → Prop} {T : JT.Tree A} {ns : List (JT.Tree A)} (h : Cut T ns) (hf : Free R T)
    (hl : 2 ≤ ns.length) : ∃ l r rest ns', ns.Perm (l :: r :: rest) ∧ Crosses R l r ∧ Cut T ns' ∧
      ns'.Perm (mergeNodes l r :: rest) := by
  induction h with
  | whole => simp at hl
  | @split l r n1 n2 h1 h2 ih1 ih2 =>
    cases hf with
    | join hfl hfr hc =>
    by_cases hl1 : 2 ≤ n1.length
    · obtain ⟨a, b, rest, ns', hp, hab, hcut, hp'⟩ := ih1 hfl hl1
      exact ⟨a, b, rest ++ n2, ns' ++ n2, hp.append_right n2, hab, .split hcut h2, hp'.append_right n2⟩
    · by_cases hl2 : 2 ≤ n2.length
      · obtain ⟨a, b, rest, ns', hp, hab, hcut, hp'⟩ := ih2 hfr hl2
        refine ⟨a, b, n1 ++ rest, n1 ++ ns', (hp.append_left n1).trans ?_, hab, .split h1 hcut,
          (hp'.append_left n1).trans List.perm_middle⟩
        exact (List.perm_middle.trans (List.Perm.cons _ List.perm_middle))
      · have e1 := h1.one (by have := h1.length_pos; omega)
        have e2 := h2.one (by have := h2.length_pos; omega)
        subst e1; subst e2
        exact ⟨l, r, [], [mergeNodes l r], .refl _, hc, .whole _, .refl _⟩

theorem enumGraph_complete {R : Nat → Nat → Prop} (hR : ∀ a b, R a b → R b a)
    (ord : LGraph (JT.Tree A) → List (JT.Tree A × JT.Tree A)) (hord : Visits ord) (T : JT.Tree A) (hf : Free R T) (n : Nat)
    (g : LGraph (JT.Tree A)) (h : Inv R g) (hn : g.nodes.length ≤ n) (ns : List (JT.Tree A)) (hc : Cut T ns)
    (hp : ns.Perm g.nodes) : T ∈ enumGraph ord n g := by
  induction n generalizing g ns with
  | zero => have := hc.length_pos; have := hp.length_eq; omega
  | succ n ih =>
    rw [enumGraph]
    split
    · rename_i hl
      have := hc.one (by rw [hp.length_eq, hl])
      subst this
      exact hp.mem_iff.1 (by simp)
    · rename_i hl
      obtain ⟨l, r, rest, ns', hp1, hlr, hcut, hp2⟩ := hc.merge hf (by
        have := hc.length_pos; have := hp.length_eq; omega)
      have hgp : g.nodes.Perm (l :: r :: rest) := hp.symm.trans hp1
      have hlm : l ∈ g.nodes := hgp.mem_iff.2 (by simp)
      have hrm : r ∈ g.nodes := hgp.mem_iff.2 (by simp)
      have hnd := hgp.nodup_iff.1 h.nodup_nodes
      have hne : l ≠ r := by rintro rfl; simp at hnd
      have hj : Joined g.edges l r := (h.adj l hlm r hrm hne).2 hlr
      have hrest : (g.nodes.filter fun x => decide (x ≠ l ∧ x ≠ r)).Perm rest := by
        have := (perm_two h.nodup_nodes hlm hrm hne).symm.trans hgp
        exact (List.perm_cons _).1 ((List.perm_cons _).1 this)
      rw [List.mem_flatMap]
      have key : ∀ u v, Joined g.edges u v → (mergeNodes l r = mergeNodes u v ∨ mergeNodes l r = mergeNodes v u) →
          ((u = l ∧ v = r) ∨ (u = r ∧ v = l)) → T ∈ enumGraph ord n ((g.contract u v).relabel u (mergeNodes l r)) := by
        intro u v huv ht hcase
        obtain ⟨hinv, hperm⟩ := step_inv hR h huv ht
        have hrest' : (g.nodes.filter fun x => decide (x ≠ u ∧ x ≠ v)).Perm rest := by
          rcases hcase with ⟨rfl, rfl⟩ | ⟨rfl, rfl⟩
          · exact hrest
          · refine .trans (.of_eq ?_) hrest
            congr 1; funext x; exact decide_eq_decide.2 and_comm
        have hall := hperm.trans (hrest'.cons _)
        refine ih _ hinv ?_ ns' hcut (hp2.trans hall.symm)
        rw [hall.length_eq]
        have := hgp.length_eq
        simp at this ⊢
        omega
      rcases (hord g l r).2 hj with he | he
      · exact ⟨(l, r), he, List.mem_append_left _ (key l r hj (.inl rfl) (.inl ⟨rfl, rfl⟩))⟩
      · exact ⟨(r, l), he, List.mem_append_right _ (key r l hj.symm (.inr rfl) (.inr ⟨rfl, rfl⟩))⟩

/-! ### C27: the join orders of a query -/

theorem skipSeen_sound {H : Type} [DecidableEq H] (hash : JT.Tree A → H) (seen : List H) (ts : List (JT.Tree A)) :
    (∀ t ∈ skipSeen hash seen ts, t ∈ ts ∧ hash t ∉ seen) ∧ ((skipSeen hash seen ts).map hash).Nodup ∧
    ∀ t ∈ ts, hash t ∉ seen → ∃ t' ∈ skipSeen hash seen ts, hash t' = hash t := by
  induction ts generalizing seen with
  | nil => simp [skipSeen]
  | cons t ts ih =>
    rw [skipSeen]
    split
    · rename_i hs
      obtain ⟨h1, h2, h3⟩ := ih seen
      refine ⟨fun x hx => ⟨List.mem_cons_of_mem _ (h1 x hx).1, (h1 x hx).2⟩, h2, fun x hx hxs => ?_⟩
      rcases List.mem_cons.1 hx with rfl | hx
      · exact absurd hs hxs
      · exact h3 x hx hxs
    · rename_i hs
      obtain ⟨h1, h2, h3⟩ := ih (seen ++ [hash t])
      refine ⟨fun x hx => ?_, ?_, fun x hx hxs => ?_⟩
      · rcases List.mem_cons.1 hx with rfl | hx
        · exact ⟨by simp, hs⟩
        · obtain ⟨a, b⟩ := h1 x hx
          exact ⟨List.mem_cons_of_mem _ a, fun c => b (List.mem_append_left _ c)⟩
      · rw [List.map_cons, List.nodup_cons]
        refine ⟨fun hm => ?_, h2⟩
        obtain ⟨x, hx, he⟩ := List.mem_map.1 hm
        exact (h1 x hx).2 (by simp [he])
      · by_cases he : hash x = hash t
        · exact ⟨t, by simp, he.symm⟩
        · rcases List.mem_cons.1 hx with rfl | hx
          · exact absurd rfl he
          · obtain ⟨t', ht', h'⟩ := h3 x hx (by simp [hxs, he])
            exact ⟨t', List.mem_cons_of_mem _ ht', h'⟩

/-- A join graph over tables: no table and no edge endpoint is missing, and no table is joined with itself. -/
structure TableGraph (g : LGraph Nat) : Prop where
  nodup : g.nodes.Nodup
  nodes : ∀ a b, Joined g.edges a b → a ∈ g.nodes ∧ b ∈ g.nodes ∧ a ≠ b

theorem scanGraph_inv (g : LGraph Nat) (hg : TableGraph g) : Inv (A := A) (Joined g.edges) (scanGraph g) := by
  have hj : ∀ x y : JT.Tree A, Joined (scanGraph g : LGraph (JT.Tree A)).edges x y ↔
      ∃ a b, Joined g.edges a b ∧ x = .scan .generic a none ∧ y = .scan .generic b none := by
    intro x y
    simp only [Joined, scanGraph, List.mem_map, Prod.mk.injEq, Prod.exists]
    constructor
    · rintro (⟨a, b, h, rfl, rfl⟩ | ⟨a, b, h, rfl, rfl⟩)
      · exact ⟨a, b, .inl h, rfl, rfl⟩
      · exact ⟨b, a, .inr h, rfl, rfl⟩
    · rintro ⟨a, b, h | h, rfl, rfl⟩
      · exact .inl ⟨a, b, h, rfl, rfl⟩
      · exact .inr ⟨b, a, h, rfl, rfl⟩
  refine ⟨?_, ?_, ?_, ?_⟩
  · have : ((scanGraph g : LGraph (JT.Tree A)).nodes.flatMap leaves) = g.nodes := by
      simp [scanGraph, List.flatMap_map, leaves]
    rw [this]; exact hg.nodup
  · intro x hx
    obtain ⟨t, _, rfl⟩ := List.mem_map.1 hx
    exact .scan t
  · intro x y h
    obtain ⟨a, b, hab, rfl, rfl⟩ := (hj x y).1 h
    obtain ⟨ha, hb, hne⟩ := hg.nodes a b hab
    exact ⟨List.mem_map_of_mem ha, List.mem_map_of_mem hb, by simpa using hne⟩
  · intro x hx y hy hne
    obtain ⟨a, _, rfl⟩ := List.mem_map.1 hx
    obtain ⟨b, _, rfl⟩ := List.mem_map.1 hy
    rw [hj]
    simp [Crosses, leaves]

theorem scan_leaves (g : LGraph Nat) : ((scanGraph g : LGraph (JT.Tree A)).nodes.flatMap leaves) = g.nodes := by
  simp [scanGraph, List.flatMap_map, leaves]

theorem cut_leaves {R : Nat → Nat → Prop} {T : JT.Tree A} (h : Free R T) :
    Cut T ((leaves T).map fun t => .scan .generic t none) := by
  induction h with
  | scan t => exact .whole _
  | join _ _ _ ih1 ih2 => rw [leaves, List.map_append]; exact .split ih1 ih2

/-- The tables of a cross-product free tree are connected. -/
theorem Free.connected {R : Nat → Nat → Prop} (hR : ∀ a b, R a b → R b a) {T : JT.Tree A} (h : Free R T) :
    ∀ a ∈ leaves T, ∀ b ∈ leaves T, Relation.ReflTransGen R a b := by
  induction h with
  | scan t => simp only [leaves, List.mem_singleton]; rintro a rfl b rfl; exact .refl
  | join _ _ hc ih1 ih2 =>
    obtain ⟨x, hx, y, hy, hxy⟩ := hc
    simp only [leaves, List.mem_append]
    rintro a (ha | ha) b (hb | hb)
    · exact ih1 a ha b hb
    · exact ((ih1 a ha x hx).tail hxy).trans (ih2 y hy b hb)
    · exact ((ih2 a ha y hy).tail (hR _ _ hxy)).trans (ih1 x hx b hb)
    · exact ih2 a ha b hb

theorem toNx_adj {α : Type} [DecidableEq α] (g : LGraph α) : g.toNx.Adj = Joined g.edges := by
  funext a b; simp [Nx.Graph.Adj, LGraph.toNx, Joined]

/-- **C27** (partial: bushy trees; distinct join orders have distinct hashes). Enumerating the join orders of a query raises
only if there is none. Otherwise it yields exactly the cross-product free bushy join orders over the tables of the join
graph, each once. -/
theorem C27_bushy_partial {H : Type} [DecidableEq H] (hash : JT.Tree A → H) (hh : Function.Injective hash)
    (ord : LGraph (JT.Tree A) → List (JT.Tree A × JT.Tree A)) (hord : Visits ord) (g : LGraph Nat) (hg : TableGraph g)
    (hne : g.nodes ≠ []) :
    (allJoinOrders hash ord .bushy g = none → ¬ ∃ T : JT.Tree A, JoinOrder g.nodes (Joined g.edges) T) ∧
    ∀ l, allJoinOrders hash ord .bushy g = some l →
      l.Nodup ∧ ∀ T, T ∈ l ↔ JoinOrder g.nodes (Joined g.edges) T := by
  have hR : ∀ a b, Joined g.edges a b → Joined g.edges b a := fun _ _ h => h.symm
  have hmain : ∀ T : JT.Tree A, T ∈ skipSeen hash [] (enumGraph ord g.nodes.length (scanGraph g)) ↔
      JoinOrder g.nodes (Joined g.edges) T := by
    intro T
    obtain ⟨h1, _, h3⟩ := skipSeen_sound hash [] (enumGraph ord g.nodes.length (scanGraph g))
    constructor
    · intro h
      have := enumGraph_sound hR ord hord _ _ (scanGraph_inv g hg) T (h1 T h).1
      rwa [scan_leaves] at this
    · rintro ⟨hf, hp⟩
      have hm := enumGraph_complete hR ord hord T hf g.nodes.length (scanGraph g) (scanGraph_inv g hg) (by simp [scanGraph])
        _ (cut_leaves hf) (hp.map _)
      obtain ⟨T', hT', he⟩ := h3 T hm (by simp)
      rwa [← hh he]
  have hnd := (skipSeen_sound hash [] (enumGraph ord g.nodes.length (scanGraph g))).2.1.of_map
  rw [allJoinOrders, if_neg (by simp)]
  split
  · rename_i he; exact absurd he hne
  · rename_i t ht
    refine ⟨by simp, fun l hl => ?_⟩
    cases hl
    refine ⟨List.nodup_singleton _, fun T => ?_⟩
    rw [List.mem_singleton]
    constructor
    · rintro rfl; exact ⟨.scan t, by simp [leaves, ht]⟩
    · rintro ⟨hf, hp⟩
      rw [ht] at hp
      have hp := List.perm_singleton.1 hp
      cases hf with
      | scan t' => simp [leaves] at hp; rw [hp]
      | join h1 h2 _ =>
        have := congrArg List.length hp
        simp [leaves] at this
        have := List.length_pos_iff.2 h1.leaves_ne
        have := List.length_pos_iff.2 h2.leaves_ne
        omega
  · have hwf : g.toNx.WF := by
      intro e he
      simp only [LGraph.toNx, List.mem_toFinset] at he ⊢
      obtain ⟨h1, h2, _⟩ := hg.nodes e.1 e.2 (.inl he)
      exact ⟨h1, h2⟩
    split
    · exact ⟨by simp, fun l hl => by cases hl; exact ⟨hnd, hmain⟩⟩
    · rename_i hc
      refine ⟨fun _ => ?_, fun l hl => by simp at hl⟩
      rintro ⟨T, hf, hp⟩
      apply hc
      rw [Nx.isConnected_iff hwf]
      refine ⟨by simpa [LGraph.toNx] using hne, fun a ha b hb => ?_⟩
      rw [toNx_adj]
      simp only [LGraph.toNx, List.mem_toFinset] at ha hb
      exact hf.connected hR a (hp.mem_iff.2 ha) b (hp.mem_iff.2 hb)

/-- **C27** (soundness without any assumption on hashes). -/
theorem C27_sound {H : Type} [DecidableEq H] (hash : JT.Tree A → H)
    (ord : LGraph (JT.Tree A) → List (JT.Tree A × JT.Tree A)) (hord : Visits ord) (shape : Shape) (g : LGraph Nat) (hg : TableGraph g)
    (l : List (JT.Tree A)) (hl : allJoinOrders hash ord shape g = some l) (T : JT.Tree A) (hT : T ∈ l) :
    JoinOrder g.nodes (Joined g.edges) T := by
  rw [allJoinOrders] at hl
  split at hl
  · cases hl; simp at hT
  split at hl
  · cases hl; simp at hT
  · rename_i t ht
    cases hl
    rw [List.mem_singleton] at hT
    subst hT
    rw [ht]
    exact ⟨.scan t, by simp [leaves]⟩
  · split at hl
    · cases hl
      obtain ⟨h1, _, _⟩ := skipSeen_sound hash [] (enumGraph ord g.nodes.length (scanGraph g))
      have := enumGraph_sound (fun _ _ h => h.symm) ord hord _ _ (scanGraph_inv g hg) T (h1 T hT).1
      rwa [scan_leaves] at this
    · simp at hl

/-- **C27 is violated** for linear join orders: nothing is produced, whatever the query. -/
theorem C27_linear_violated {H : Type} [DecidableEq H] (hash : JT.Tree A → H)
    (ord : LGraph (JT.Tree A) → List (JT.Tree A × JT.Tree A)) (g : LGraph Nat) :
    allJoinOrders hash ord .leftDeep g = some [] ∧ allJoinOrders hash ord .rightDeep g = some [] := by
  simp [allJoinOrders]

/-- Three tables in a chain. -/
def chain3 : LGraph Nat := ⟨[1, 2, 3], [(1, 2), (2, 3)]⟩

/-- The hypotheses are satisfiable: a chain of three tables has eight join orders. -/
example : TableGraph chain3 ∧ Visits (A := Unit) LGraph.edges ∧
    (allJoinOrders (A := Unit) id LGraph.edges .bushy chain3).map List.length = some 8 := by
  refine ⟨⟨by decide, ?_⟩, fun _ _ _ => Iff.rfl, by decide +kernel⟩
  simp only [Joined, chain3, List.mem_cons, List.not_mem_nil, or_false, Prod.mk.injEq]
  rintro a b ((⟨rfl, rfl⟩ | ⟨rfl, rfl⟩) | (⟨rfl, rfl⟩ | ⟨rfl, rfl⟩)) <;> decide

/-- `g` lists the tables and edges of the join graph of a query without unbound columns. -/
structure Lists (g : LGraph Nat) (G : Nx.Graph (Option Qal.Tab)) : Prop where
  nodup : g.nodes.Nodup
  nodes : ∀ x, x ∈ G.nodes ↔ ∃ t ∈ g.nodes, x = some t
  edges : ∀ a b, Joined g.edges a b ↔ G.Adj (some a) (some b)

open Qal QueryPredsProps ExprProps in
/-- **C27** (partial, as above) for queries: the join orders of a query are the cross-product free trees over the tables of its
predicates, where two tables can be joined if some join predicate compares their columns. -/
theorem C27_query_partial {Q : Type} [DecidableEq Q] (ops : QOps Q) (qp : QueryPreds Q) (hv : qp.Valid ops)
    (hr : ∀ j ∈ qp.joins, Regular j ∧ Typed j) (hself : ∀ j ∈ qp.joins, ∀ a, ¬ Compares j (some a) (some a))
    (G : Nx.Graph (Option Tab)) (hG : qp.joinGraph = some G) (g : LGraph Nat) (hl : Lists g G)
    {H : Type} [DecidableEq H] (hash : JT.Tree A → H) (hh : Function.Injective hash)
    (ord : LGraph (JT.Tree A) → List (JT.Tree A × JT.Tree A)) (hord : Visits ord) (l : List (JT.Tree A))
    (hres : allJoinOrders hash ord .bushy g = some l) (hne : g.nodes ≠ []) (T : JT.Tree A) :
    T ∈ l ↔ Free (fun a b => ∃ j ∈ qp.joins, Compares j (some a) (some b)) T ∧ (leaves T).Nodup ∧
      ∀ t : Tab, t ∈ leaves T ↔ ∃ r, qp.root = some r ∧ t ∈ r.tables ops := by
  obtain ⟨G', hG', hn, _, hadj⟩ := EquivProps.C86_join_graph ops qp hv hr
  rw [hG] at hG'; cases hG'
  have hE : Joined g.edges = fun a b => ∃ j ∈ qp.joins, Compares j (some a) (some b) := by
    funext a b; exact propext ((hl.edges a b).trans (hadj _ _))
  have htg : TableGraph g := by
    refine ⟨hl.nodup, fun a b h => ?_⟩
    have hadj' := (hl.edges a b).1 h
    have hGwf : G.WF := by
      rw [QueryPreds.joinGraph] at hG
      obtain ⟨es, _, rfl⟩ := Option.map_eq_some_iff.1 hG
      intro e he
      simp only [Finset.mem_union, Finset.mem_image]
      exact ⟨.inl (.inr ⟨e, he, rfl⟩), .inr ⟨e, he, rfl⟩⟩
    obtain ⟨h1, h2⟩ := Nx.Adj_nodes hGwf hadj'
    obtain ⟨a', ha, he⟩ := (hl.nodes _).1 h1
    obtain ⟨b', hb, he'⟩ := (hl.nodes _).1 h2
    cases he; cases he'
    refine ⟨ha, hb, ?_⟩
    rintro rfl
    obtain ⟨j, hj, hc⟩ := (hadj _ _).1 hadj'
    exact hself j hj _ hc
  have htab : ∀ t, t ∈ g.nodes ↔ ∃ r, qp.root = some r ∧ t ∈ r.tables ops := by
    intro t
    rw [← hn t, hl.nodes]
    constructor
    · intro h; exact ⟨t, h, rfl⟩
    · rintro ⟨t', h, he⟩; cases he; exact h
  rw [((C27_bushy_partial hash hh ord hord g htg hne).2 l hres).2 T, JoinOrder, hE]
  refine and_congr_right fun hf => ?_
  constructor
  · intro hp
    exact ⟨hp.nodup_iff.2 hl.nodup, fun t => by rw [hp.mem_iff, htab]⟩
  · rintro ⟨h1, h2⟩
    rw [List.perm_ext_iff_of_nodup h1 hl.nodup]
    intro t; rw [h2, htab]

open PredProps in
/-- The hypotheses are satisfiable: the graph of a query with two tables. -/
example : ∃ G, qp1.joinGraph = some G ∧ Lists ⟨[1, 2], [(1, 2)]⟩ G ∧
    allJoinOrders (A := Unit) id LGraph.edges .bushy ⟨[1, 2], [(1, 2)]⟩ =
      some [.join .generic (.scan .generic 1 none) (.scan .generic 2 none) none,
        .join .generic (.scan .generic 2 none) (.scan .generic 1 none) none] := by
  refine ⟨⟨{some 1, some 2}, {(some 1, some 2)}⟩, by decide +kernel, ⟨by decide, ?_, ?_⟩, by decide +kernel⟩
  · intro x; simp
  · intro a b; simp [Joined, Nx.Graph.Adj]

/-! ### C97: the operator assignments of a join order -/

/-- The sets of tables that are joined in a tree. -/
inductive JoinsTables (s : Finset Nat) : JT.Tree A → Prop
  | here {c l r ann} : (∀ t, t ∈ s ↔ t ∈ leaves l ∨ t ∈ leaves r) → JoinsTables s (.join c l r ann)
  | left {c l r ann} : JoinsTables s l → JoinsTables s (.join c l r ann)
  | right {c l r ann} : JoinsTables s r → JoinsTables s (.join c l r ann)

/-- The assignment `a` uses exactly the scan operators `sc` for the tables and the join operators `jo` for the joins of the
tree. -/
structure Assigns (a : OpAssign) (tables : List Nat) (T : JT.Tree A) (sc : Nat → ScanOp) (jo : Finset Nat → JoinOp) : Prop where
  scan : ∀ t ∈ tables, Dict.get? a.scans t = some ⟨sc t, t, none⟩
  noScan : ∀ t, t ∉ tables → Dict.get? a.scans t = none
  join : ∀ s, JoinsTables s T → Dict.get? a.joins s = some ⟨jo s, s, none, none⟩
  noJoin : ∀ s, ¬ JoinsTables s T → Dict.get? a.joins s = none
  globals : a.globals = []
  inters : a.inters = []

theorem mem_tables (T : JT.Tree A) (t : Nat) : t ∈ T.tables ↔ t ∈ leaves T := by
  induction T with
  | empty c => simp [JT.Tree.tables, leaves]
  | scan c t' a => simp [JT.Tree.tables, leaves]
  | join c l r a ih1 ih2 => simp [JT.Tree.tables, leaves, ih1, ih2]

theorem mem_joinSets (T : JT.Tree A) (s : Finset Nat) : s ∈ T.iterjoins.map JT.Tree.tables ↔ JoinsTables s T := by
  induction T with
  | empty c => simp [JT.Tree.iterjoins]; intro h; cases h
  | scan c t a => simp [JT.Tree.iterjoins]; intro h; cases h
  | join c l r a ih1 ih2 =>
    simp only [JT.Tree.iterjoins, List.map_append, List.mem_append, ih1, ih2, List.map_cons, List.map_nil, List.mem_singleton,
      JT.Tree.tables]
    constructor
    · rintro ((h | h) | rfl)
      · exact .left h
      · exact .right h
      · exact .here fun t => by simp [mem_tables]
    · intro h
      cases h with
      | here h => exact .inr (Finset.ext fun t => by rw [h]; simp [mem_tables])
      | left h => exact .inl (.inl h)
      | right h => exact .inl (.inr h)

theorem JoinsTables.sub {T : JT.Tree A} {s : Finset Nat} (h : JoinsTables s T) : ∀ t ∈ s, t ∈ leaves T := by
  induction h with
  | here h => intro t ht; simpa [leaves] using (h t).1 ht
  | left _ ih => intro t ht; simp [leaves, ih t ht]
  | right _ ih => intro t ht; simp [leaves, ih t ht]

theorem JoinsTables.ne {R : Nat → Nat → Prop} {T : JT.Tree A} {s : Finset Nat} (h : JoinsTables s T) (hf : Free R T) : ∃ t, t ∈ s := by
  induction h with
  | here h =>
    cases hf with
    | join h1 _ _ =>
      obtain ⟨a, ha⟩ := List.exists_mem_of_ne_nil _ h1.leaves_ne
      exact ⟨a, (h a).2 (.inl ha)⟩
  | left _ ih => cases hf with | join h1 _ _ => exact ih h1
  | right _ ih => cases hf with | join _ h1 _ => exact ih h1

theorem nodup_joinSets {R : Nat → Nat → Prop} {T : JT.Tree A} (hf : Free R T) (hn : (leaves T).Nodup) :
    (T.iterjoins.map JT.Tree.tables).Nodup := by
  induction hf with
  | scan t => simp [JT.Tree.iterjoins]
  | @join l r h1 h2 _ ih1 ih2 =>
    rw [leaves, List.nodup_append] at hn
    obtain ⟨n1, n2, n3⟩ := hn
    simp only [JT.Tree.iterjoins, List.map_append, List.map_cons, List.map_nil]
    rw [List.nodup_append, List.nodup_append]
    refine ⟨⟨ih1 n1, ih2 n2, ?_⟩, List.nodup_singleton _, ?_⟩
    · rintro a ha b hb rfl
      rw [mem_joinSets] at ha hb
      obtain ⟨t, ht⟩ := ha.ne h1
      exact n3 t (ha.sub t ht) t (hb.sub t ht) rfl
    · rintro a ha b hb rfl
      rw [List.mem_singleton] at hb
      rw [List.mem_append, mem_joinSets, mem_joinSets] at ha
      obtain ⟨x, hx⟩ := List.exists_mem_of_ne_nil _ h1.leaves_ne
      obtain ⟨y, hy⟩ := List.exists_mem_of_ne_nil _ h2.leaves_ne
      have hxa : x ∈ a := by rw [hb]; simp [JT.Tree.tables, mem_tables, hx]
      have hya : y ∈ a := by rw [hb]; simp [JT.Tree.tables, mem_tables, hy]
      rcases ha with ha | ha
      · exact n3 y (ha.sub y hya) y hy rfl
      · exact n3 x hx x (ha.sub x hxa) rfl

theorem mem_product {α : Type} (n : List (List α)) (xs : List α) : xs ∈ product n ↔ List.Forall₂ (· ∈ ·) xs n := by
  induction n generalizing xs with
  | nil => simp [product]
  | cons l ls ih =>
    simp only [product, List.mem_flatMap, List.mem_map, ih]
    constructor
    · rintro ⟨x, hx, ys, hys, rfl⟩; exact .cons hx hys
    · intro h; cases h with | cons hx hys => exact ⟨_, hx, _, hys, rfl⟩

theorem mem_product_const {α β : Type} (ks : List β) (l : List α) (xs : List α) :
    xs ∈ product (ks.map fun _ => l) ↔ xs.length = ks.length ∧ ∀ x ∈ xs, x ∈ l := by
  rw [mem_product]
  induction ks generalizing xs with
  | nil => simp only [List.map_nil, List.forall₂_nil_right_iff, List.length_nil, List.length_eq_zero_iff]
           constructor
           · rintro rfl; simp
           · exact fun h => h.1
  | cons k ks ih =>
    cases xs with
    | nil => simp
    | cons x xs =>
      rw [List.map_cons, List.forall₂_cons, ih]
      simp only [List.length_cons, List.mem_cons, forall_eq_or_imp, Nat.add_right_cancel_iff]
      tauto

theorem nodup_product {α β : Type} (ks : List β) (l : List α) (hl : l.Nodup) : (product (ks.map fun _ => l)).Nodup := by
  induction ks with
  | nil => simp [product]
  | cons k ks ih =>
    rw [List.map_cons, product, List.nodup_flatMap]
    refine ⟨fun x _ => ih.map fun a b h => (List.cons.inj h).2, ?_⟩
    refine hl.imp fun {a b} hab => ?_
    intro xs h1 h2
    obtain ⟨u, _, rfl⟩ := List.mem_map.1 h1
    obtain ⟨w, _, h⟩ := List.mem_map.1 h2
    exact hab (List.cons.inj h).1.symm

theorem scans_fold (ps : List (Nat × ScanOp)) (hn : (ps.map Prod.fst).Nodup) (a : OpAssign) :
    (∀ t, Dict.get? (assignScans a ps).scans t =
      match ps.find? fun p => p.1 == t with
      | some p => some ⟨p.2, p.1, none⟩
      | none => Dict.get? a.scans t) ∧
    (assignScans a ps).joins = a.joins ∧ (assignScans a ps).globals = a.globals ∧ (assignScans a ps).inters = a.inters := by
  induction ps generalizing a with
  | nil => simp [assignScans]
  | cons p ps ih =>
    rw [List.map_cons, List.nodup_cons] at hn
    obtain ⟨h1, h2, h3, h4⟩ := ih hn.2 (a.setScan ⟨p.2, p.1, none⟩)
    refine ⟨fun t => ?_, h2, h3, h4⟩
    have h1 := h1 t
    rw [show assignScans a (p :: ps) = assignScans (a.setScan ⟨p.2, p.1, none⟩) ps from rfl, h1, List.find?_cons]
    by_cases hpt : p.1 = t
    · subst hpt
      have : ps.find? (fun q => q.1 == p.1) = none := by
        rw [List.find?_eq_none]
        intro q hq he
        exact hn.1 (List.mem_map.2 ⟨q, hq, by simpa using he⟩)
      simp [this, OpAssign.setScan, Dict.get?_set]
    · have hpt' : (p.1 == t) = false := by simpa using hpt
      simp only [hpt']
      cases ps.find? fun q => q.1 == t with
      | none => simp [OpAssign.setScan, Dict.get?_set, Ne.symm hpt, hpt]
      | some q => rfl

theorem joins_fold (ps : List (Finset Nat × JoinOp)) (hn : (ps.map Prod.fst).Nodup) (a : OpAssign) :
    (∀ t, Dict.get? (assignJoins a ps).joins t =
      match ps.find? fun p => p.1 == t with
      | some p => some ⟨p.2, p.1, none, none⟩
      | none => Dict.get? a.joins t) ∧
    (assignJoins a ps).scans = a.scans ∧ (assignJoins a ps).globals = a.globals ∧ (assignJoins a ps).inters = a.inters := by
  induction ps generalizing a with
  | nil => simp [assignJoins]
  | cons p ps ih =>
    rw [List.map_cons, List.nodup_cons] at hn
    obtain ⟨h1, h2, h3, h4⟩ := ih hn.2 (a.setJoin ⟨p.2, p.1, none, none⟩)
    refine ⟨fun t => ?_, h2, h3, h4⟩
    have h1 := h1 t
    rw [show assignJoins a (p :: ps) = assignJoins (a.setJoin ⟨p.2, p.1, none, none⟩) ps from rfl, h1, List.find?_cons]
    by_cases hpt : p.1 = t
    · subst hpt
      have : ps.find? (fun q => q.1 == p.1) = none := by
        rw [List.find?_eq_none]
        intro q hq he
        exact hn.1 (List.mem_map.2 ⟨q, hq, by simpa using he⟩)
      simp [this, OpAssign.setJoin, Dict.get?_set]
    · have hpt' : (p.1 == t) = false := by simpa using hpt
      simp only [hpt']
      cases ps.find? fun q => q.1 == t with
      | none => simp [OpAssign.setJoin, Dict.get?_set, Ne.symm hpt, hpt]
      | some q => rfl

theorem find_zip {κ β : Type} [DecidableEq κ] (ks : List κ) (hn : ks.Nodup) (xs : List β) (hl : xs.length = ks.length) (f : κ → β)
    (hf : ks.map f = xs) (k : κ) : (ks.zip xs).find? (fun p => p.1 == k) = if k ∈ ks then some (k, f k) else none := by
  subst hf
  induction ks with
  | nil => simp
  | cons k' ks ih =>
    rw [List.nodup_cons] at hn
    simp only [List.map_cons, List.zip_cons_cons, List.find?_cons]
    by_cases h : k' = k
    · subst h; simp
    · have h' : (k' == k) = false := by simpa using h
      simp only [h']
      rw [ih hn.2 (by simp)]
      simp [Ne.symm h]

theorem exists_choice {κ β : Type} [DecidableEq κ] [Inhabited β] (ks : List κ) (hn : ks.Nodup) (xs : List β) (hl : xs.length = ks.length) :
    ∃ f : κ → β, ks.map f = xs := by
  induction ks generalizing xs with
  | nil => exact ⟨fun _ => default, by simpa using (List.length_eq_zero_iff.1 hl).symm⟩
  | cons k ks ih =>
    cases xs with
    | nil => simp at hl
    | cons x xs =>
      rw [List.nodup_cons] at hn
      obtain ⟨f, hf⟩ := ih hn.2 xs (by simpa using hl)
      refine ⟨fun y => if y = k then x else f y, ?_⟩
      rw [List.map_cons, if_pos rfl, ← hf]
      congr 1
      refine List.map_congr_left fun y hy => if_neg ?_
      rintro rfl; exact hn.1 hy

instance : Inhabited ScanOp := ⟨.seqScan⟩
instance : Inhabited JoinOp := ⟨.nlj⟩

/-- The assignment for two choice functions. -/
theorem assigns_of (tables : List Nat) (hn : tables.Nodup) (T : JT.Tree A) (hj : (T.iterjoins.map JT.Tree.tables).Nodup)
    (sc : Nat → ScanOp) (jo : Finset Nat → JoinOp) :
    Assigns (assignJoins (assignScans OpAssign.empty (tables.zip (tables.map sc)))
      ((T.iterjoins.map JT.Tree.tables).zip ((T.iterjoins.map JT.Tree.tables).map jo))) tables T sc jo := by
  have hz : ((tables.zip (tables.map sc)).map Prod.fst) = tables := by rw [List.map_fst_zip]; simp
  have hz' : (((T.iterjoins.map JT.Tree.tables).zip ((T.iterjoins.map JT.Tree.tables).map jo)).map Prod.fst) =
      T.iterjoins.map JT.Tree.tables := by rw [List.map_fst_zip]; simp
  obtain ⟨s1, s2, s3, s4⟩ := scans_fold (tables.zip (tables.map sc)) (by rw [hz]; exact hn) OpAssign.empty
  obtain ⟨j1, j2, j3, j4⟩ := joins_fold ((T.iterjoins.map JT.Tree.tables).zip ((T.iterjoins.map JT.Tree.tables).map jo))
    (by rw [hz']; exact hj) (assignScans OpAssign.empty (tables.zip (tables.map sc)))
  refine ⟨?_, ?_, ?_, ?_, by rw [j3, s3]; rfl, by rw [j4, s4]; rfl⟩
  · intro t ht; rw [j2, s1, find_zip tables hn _ (by simp) sc rfl, if_pos ht]
  · intro t ht; rw [j2, s1, find_zip tables hn _ (by simp) sc rfl, if_neg ht]; rfl
  · intro s hs
    rw [j1, find_zip _ hj _ (by simp) jo rfl, if_pos ((mem_joinSets T s).2 hs)]
  · intro s hs
    rw [j1, find_zip _ hj _ (by simp) jo rfl, if_neg (fun h => hs ((mem_joinSets T s).1 h)), s2]; rfl

/-- **C97** (partial: scans and joins are both included). For a cross-product free join order, the enumerator yields exactly the
combinations of allowed scan operators for all tables and allowed join operators for all joins. -/
theorem C97_assignments_partial (scans : List ScanOp) (joins : List JoinOp) (tables : List Nat) (hn : tables.Nodup) (R : Nat → Nat → Prop)
    (T : JT.Tree A) (hf : Free R T) (hT : (leaves T).Nodup) :
    (∀ a ∈ allAssignments scans joins true true tables T, ∃ sc jo, (∀ t ∈ tables, sc t ∈ scans) ∧
      (∀ s, JoinsTables s T → jo s ∈ joins) ∧ Assigns a tables T sc jo) ∧
    (∀ sc jo, (∀ t ∈ tables, sc t ∈ scans) → (∀ s, JoinsTables s T → jo s ∈ joins) →
      ∃ a ∈ allAssignments scans joins true true tables T, Assigns a tables T sc jo) ∧
    (scans.Nodup → joins.Nodup → (allAssignments scans joins true true tables T).Nodup) := by
  have hj := nodup_joinSets hf hT
  have hmem : ∀ a, a ∈ allAssignments scans joins true true tables T ↔ ∃ ss, (ss.length = tables.length ∧ ∀ x ∈ ss, x ∈ scans) ∧
      ∃ jo, (jo.length = (T.iterjoins.map JT.Tree.tables).length ∧ ∀ x ∈ jo, x ∈ joins) ∧
        assignJoins (assignScans OpAssign.empty (tables.zip ss)) ((T.iterjoins.map JT.Tree.tables).zip jo) = a := by
    intro a
    simp only [allAssignments, Bool.not_true, Bool.false_eq_true, if_false, List.mem_flatMap, List.mem_map (f := fun jo => _),
      mem_product_const]
  refine ⟨fun a ha => ?_, fun sc jo hsc hjo => ?_, fun hns hnj => ?_⟩
  · obtain ⟨ss, ⟨hl1, hs⟩, js, ⟨hl2, hjs⟩, rfl⟩ := (hmem a).1 ha
    obtain ⟨sc, rfl⟩ := exists_choice tables hn ss hl1
    obtain ⟨jo, rfl⟩ := exists_choice _ hj js hl2
    exact ⟨sc, jo, fun t ht => hs _ (List.mem_map_of_mem ht), fun s hs' => hjs _ (List.mem_map_of_mem ((mem_joinSets T s).2 hs')),
      assigns_of tables hn T hj sc jo⟩
  · refine ⟨_, (hmem _).2 ⟨tables.map sc, ⟨by simp, ?_⟩, (T.iterjoins.map JT.Tree.tables).map jo, ⟨by simp, ?_⟩, rfl⟩,
      assigns_of tables hn T hj sc jo⟩
    · intro x hx; obtain ⟨t, ht, rfl⟩ := List.mem_map.1 hx; exact hsc t ht
    · intro x hx; obtain ⟨s, hs, rfl⟩ := List.mem_map.1 hx; exact hjo s ((mem_joinSets T s).1 hs)
  · simp only [allAssignments, Bool.not_true, Bool.false_eq_true, if_false]
    have hinj : ∀ ss ∈ product (tables.map fun _ => scans), ∀ js ∈ product ((T.iterjoins.map JT.Tree.tables).map fun _ => joins),
        ∀ ss' ∈ product (tables.map fun _ => scans), ∀ js' ∈ product ((T.iterjoins.map JT.Tree.tables).map fun _ => joins),
        assignJoins (assignScans OpAssign.empty (tables.zip ss)) ((T.iterjoins.map JT.Tree.tables).zip js) =
        assignJoins (assignScans OpAssign.empty (tables.zip ss')) ((T.iterjoins.map JT.Tree.tables).zip js') → ss = ss' ∧ js = js' := by
      intro ss h1 js h2 ss' h3 js' h4 he
      rw [mem_product_const] at h1 h2 h3 h4
      obtain ⟨sc, rfl⟩ := exists_choice tables hn ss h1.1
      obtain ⟨jo, rfl⟩ := exists_choice _ hj js h2.1
      obtain ⟨sc', rfl⟩ := exists_choice tables hn ss' h3.1
      obtain ⟨jo', rfl⟩ := exists_choice _ hj js' h4.1
      have a1 := assigns_of tables hn T hj sc jo
      have a2 := assigns_of tables hn T hj sc' jo'
      rw [he] at a1
      refine ⟨List.map_congr_left fun t ht => ?_, List.map_congr_left fun s hs => ?_⟩
      · have := (a1.scan t ht).symm.trans (a2.scan t ht); simpa using this
      · have hs := (mem_joinSets T s).1 hs
        have := (a1.join s hs).symm.trans (a2.join s hs); simpa using this
    rw [List.nodup_flatMap]
    refine ⟨fun ss hss => ?_, ?_⟩
    · refine List.Nodup.map_on (fun js hjs js' hjs' he => (hinj ss hss js hjs ss hss js' hjs' he).2) (nodup_product _ _ hnj)
    · have hp := nodup_product tables scans hns
      refine List.Pairwise.imp_of_mem (fun {ss ss'} h1 h2 hne => ?_) hp
      intro a ha ha'
      obtain ⟨js, hjs, rfl⟩ := List.mem_map.1 ha
      obtain ⟨js', hjs', he⟩ := List.mem_map.1 ha'
      exact hne (hinj ss h1 js hjs ss' h2 js' hjs' he.symm).1

/-- **C97 is violated** if scans or joins are excluded: no assignment is produced at all. -/
theorem C97_excluded_violated (scans : List ScanOp) (joins : List JoinOp) (tables : List Nat) (T : JT.Tree A) :
    allAssignments scans joins false true tables T = [] ∧ allAssignments scans joins true false tables T = [] := by
  simp [allAssignments]

/-- **C97.** The allowed operators are the given ones (all, if none are given) that the hinting backend supports. Excluding
both kinds of operators is rejected. -/
theorem C97_allowed (scanOps : List ScanOp) (joinOps : List JoinOp) (inclScans inclJoins : Bool) (supports : PhysOp → Bool) :
    (allowedOps scanOps joinOps inclScans inclJoins supports = none ↔ inclScans = false ∧ inclJoins = false) ∧
    ∀ ss js, allowedOps scanOps joinOps inclScans inclJoins supports = some (ss, js) →
      ss.Nodup ∧ js.Nodup ∧ (∀ o, o ∈ ss ↔ (scanOps = [] ∨ o ∈ scanOps) ∧ supports (.scan o) = true) ∧
      ∀ o, o ∈ js ↔ (joinOps = [] ∨ o ∈ joinOps) ∧ supports (.join o) = true := by
  constructor
  · cases inclScans <;> cases inclJoins <;> simp [allowedOps]
  · intro ss js h
    rw [allowedOps] at h
    split at h
    · cases h
    obtain ⟨h1, h2⟩ := Prod.mk.inj (Option.some.inj h)
    subst h1; subst h2
    refine ⟨List.nodup_dedup _, List.nodup_dedup _, fun o => ?_, fun o => ?_⟩
    · rw [List.mem_dedup, List.mem_filter]
      cases scanOps with
      | nil => cases o <;> simp
      | cons s ss => simp
    · rw [List.mem_dedup, List.mem_filter]
      cases joinOps with
      | nil => cases o <;> simp
      | cons s ss => simp

example : (allAssignments [.seqScan, .idxScan] [.nlj, .hash, .merge] true true [1, 2]
    (.join .generic (.scan .generic 1 none) (.scan .generic 2 none) none : JT.Tree Unit)).length = 12 := by decide +kernel

/-! ### C98: all plans of a query -/

/-- **C98 is violated**: as soon as a join order has an operator assignment, enumerating the plans of a query raises without
yielding a plan. -/
theorem C98_plans_violated {β : Type} (assignments : JT.Tree A → List OpAssign) (orders : List (JT.Tree A))
    (h : ∃ T ∈ orders, assignments T ≠ []) : allPlans (β := β) assignments orders = .raised [] := by
  induction orders with
  | nil => simp at h
  | cons t ts ih =>
    rw [allPlans]
    split
    · rename_i he
      refine ih ?_
      obtain ⟨T, hT, hne⟩ := h
      rcases List.mem_cons.1 hT with rfl | hT
      · simp at he; exact absurd he hne
      · exact ⟨T, hT, hne⟩
    · rfl

/-- **C98 is violated**: the upper bound on the number of plans is zero for queries over a single table, although there are as
many plans as scan operators. -/
theorem C98_bound_single_violated (scans : List ScanOp) (joins : List JoinOp) (t : Nat) :
    plansBound 1 joins.length scans.length = 0 ∧
    (allAssignments scans joins true true [t] (.scan .generic t none : JT.Tree A)).length = scans.length := by
  constructor
  · simp [plansBound]
  · simp [allAssignments, product, JT.Tree.iterjoins, List.length_flatMap]

/-- **C98 is violated**: for a chain of three tables with the default number of operators the bound is smaller than the number
of join orders times the number of their operator assignments. -/
theorem C98_bound_violated : plansBound 3 3 2 = 180 ∧
    ((allJoinOrders (A := Unit) id LGraph.edges .bushy chain3).map fun l =>
      (l.map fun T => (allAssignments [.seqScan, .idxScan] [.nlj, .hash, .merge] true true [1, 2, 3] T).length).sum) = some 576 := by
  decide +kernel

end PB.EnumerateProps
