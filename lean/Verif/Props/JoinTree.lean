import Verif.Model.JoinTree
import Mathlib.Tactic.Tauto
import Mathlib.Data.List.Nodup
import Mathlib.Data.Finset.Dedup
import Mathlib.Data.Finset.Lattice.Basic

set_option linter.unusedSimpArgs false
set_option linter.unusedVariables false
set_option linter.unusedSectionVars false

/-! Properties C20-C22, C60, C75, C76 (join trees). -/

namespace PB.JTProps
open PB.JT

variable {A : Type}

/-! ### Specification -/

/-- Specification: `s` is a subtree of `t`. -/
inductive Sub : Tree A → Tree A → Prop
  | refl (t) : Sub t t
  | outer {s c o i a} : Sub s o → Sub s (.join c o i a)
  | inner {s c o i a} : Sub s i → Sub s (.join c o i a)

/-- Specification: `s` is a subtree of a child of `t`. -/
inductive ProperSub : Tree A → Tree A → Prop
  | outer {s c o i a} : Sub s o → ProperSub s (.join c o i a)
  | inner {s c o i a} : Sub s i → ProperSub s (.join c o i a)

/-- Specification: `x` is a leaf table of `t`. -/
inductive Leaf : Nat → Tree A → Prop
  | here {c t a} : Leaf t (.scan c t a)
  | outer {x c o i a} : Leaf x o → Leaf x (.join c o i a)
  | inner {x c o i a} : Leaf x i → Leaf x (.join c o i a)

/-- No empty tree occurs below the root. -/
def Solid : Tree A → Prop
  | .empty _ => False
  | .scan _ _ _ => True
  | .join _ o i _ => Solid o ∧ Solid i

/-- No table occurs in two leaves of a join's two inputs, at any join. -/
def NoRepeat : Tree A → Prop
  | .empty _ => True
  | .scan _ _ _ => True
  | .join _ o i _ => NoRepeat o ∧ NoRepeat i ∧ ∀ x, Leaf x o → ¬ Leaf x i

/-- A running example: ((1 ⋈ 2) ⋈ 3). -/
def ex3 : Tree Nat :=
  .join .generic (.join .generic (.scan .generic 1 none) (.scan .generic 2 (some 7)) none) (.scan .generic 3 none) none

example : Solid ex3 ∧ NoRepeat ex3 := by
  refine ⟨by simp [Solid, ex3], ?_⟩
  refine ⟨⟨trivial, trivial, ?_⟩, trivial, ?_⟩
  · intro x h h'; cases h; cases h'
  · intro x h h'; cases h' ; cases h with
    | outer h => cases h
    | inner h => cases h

/-! ### C20 -/

/-- C20: `tables()` is the set of leaves. -/
theorem C20_tables (t : Tree A) (x : Nat) : x ∈ t.tables ↔ Leaf x t := by
  induction t with
  | empty c => simp [Tree.tables]; intro h; cases h
  | scan c t a =>
    simp only [Tree.tables, Finset.mem_singleton]
    constructor
    · rintro rfl; exact .here
    · intro h; cases h; rfl
  | join c o i a iho ihi =>
    simp only [Tree.tables, Finset.mem_union, iho, ihi]
    constructor
    · rintro (h | h)
      · exact .outer h
      · exact .inner h
    · intro h
      cases h with
      | outer h => exact .inl h
      | inner h => exact .inr h

/-- C20: `itertables()` yields the leaves, each of them once if no table is repeated. -/
theorem C20_itertables (t : Tree A) :
    (∀ x, x ∈ t.itertables ↔ Leaf x t) ∧ (NoRepeat t → t.itertables.Nodup) := by
  have hm : ∀ (t : Tree A) x, x ∈ t.itertables ↔ Leaf x t := by
    intro t x
    rw [← C20_tables]
    induction t with
    | empty c => simp [Tree.tables, Tree.itertables]
    | scan c t a => simp [Tree.tables, Tree.itertables]
    | join c o i a iho ihi => simp [Tree.tables, Tree.itertables, iho, ihi]
  refine ⟨hm t, ?_⟩
  induction t with
  | empty c => simp [Tree.itertables]
  | scan c t a => simp [Tree.itertables]
  | join c o i a iho ihi =>
    rintro ⟨h1, h2, h3⟩
    simp only [Tree.itertables, List.nodup_append]
    refine ⟨iho h1, ihi h2, ?_⟩
    intro x hx y hy e
    subst e
    exact h3 x ((hm o x).1 hx) ((hm i x).1 hy)

/-- C20: `len(tree)` is the number of leaves if no table is repeated. -/
theorem C20_len (t : Tree A) (h : NoRepeat t) : t.len = t.itertables.length := by
  have : t.tables = t.itertables.toFinset := by
    ext x
    rw [List.mem_toFinset, C20_tables, (C20_itertables t).1]
  rw [Tree.len, this, List.toFinset_card_of_nodup ((C20_itertables t).2 h)]

theorem sub_trans {a b c : Tree A} (h1 : Sub a b) (h2 : Sub b c) : Sub a c := by
  induction h2 with
  | refl => exact h1
  | outer _ ih => exact .outer ih
  | inner _ ih => exact .inner ih

theorem sub_leaf {s t : Tree A} (h : Sub s t) {x : Nat} (hx : Leaf x s) : Leaf x t := by
  induction h with
  | refl => exact hx
  | outer _ ih => exact .outer ih
  | inner _ ih => exact .inner ih

/-- C20: `iternodes()` yields exactly the non-empty subtrees. -/
theorem C20_iternodes_mem (t s : Tree A) : s ∈ t.iternodes ↔ Sub s t ∧ s.isEmpty = false := by
  induction t with
  | empty c =>
    simp only [Tree.iternodes, List.not_mem_nil, false_iff]
    rintro ⟨h, he⟩; cases h; simp [Tree.isEmpty] at he
  | scan c t a =>
    simp only [Tree.iternodes, List.mem_singleton]
    constructor
    · rintro rfl; exact ⟨.refl _, rfl⟩
    · rintro ⟨h, -⟩; cases h; rfl
  | join c o i a iho ihi =>
    simp only [Tree.iternodes, List.mem_cons, List.mem_append, iho, ihi]
    constructor
    · rintro (rfl | ⟨h, he⟩ | ⟨h, he⟩)
      · exact ⟨.refl _, rfl⟩
      · exact ⟨.outer h, he⟩
      · exact ⟨.inner h, he⟩
    · rintro ⟨h, he⟩
      cases h with
      | refl => exact .inl rfl
      | outer h => exact .inr (.inl ⟨h, he⟩)
      | inner h => exact .inr (.inr ⟨h, he⟩)

/-- Number of nodes. -/
def size : Tree A → Nat
  | .empty _ => 1
  | .scan _ _ _ => 1
  | .join _ o i _ => 1 + size o + size i

theorem sub_size {s t : Tree A} (h : Sub s t) : size s ≤ size t := by
  induction h with
  | refl => exact le_rfl
  | outer _ ih => simp only [size]; omega
  | inner _ ih => simp only [size]; omega

theorem properSub_size {s t : Tree A} (h : ProperSub s t) : size s < size t := by
  cases h with
  | outer h => have := sub_size h; simp only [size]; omega
  | inner h => have := sub_size h; simp only [size]; omega

theorem solid_leaf (t : Tree A) (h : Solid t) : ∃ x, Leaf x t := by
  induction t with
  | empty c => exact h.elim
  | scan c t a => exact ⟨t, .here⟩
  | join c o i a iho _ => obtain ⟨x, hx⟩ := iho h.1; exact ⟨x, .outer hx⟩

theorem sub_solid {s t : Tree A} (h : Sub s t) (ht : Solid t) : Solid s := by
  induction h with
  | refl => exact ht
  | outer _ ih => exact ih ht.1
  | inner _ ih => exact ih ht.2

/-- C20: `iternodes()` yields every node once (if no table is repeated). -/
theorem C20_iternodes_nodup (t : Tree A) (hs : Solid t) (hr : NoRepeat t) : t.iternodes.Nodup := by
  induction t with
  | empty c => simp [Tree.iternodes]
  | scan c t a => simp [Tree.iternodes]
  | join c o i a iho ihi =>
    simp only [Tree.iternodes, List.nodup_cons, List.nodup_append, List.mem_append, not_or]
    refine ⟨⟨?_, ?_⟩, iho hs.1 hr.1, ihi hs.2 hr.2.1, ?_⟩
    · intro h
      have := properSub_size (ProperSub.outer (c := c) (i := i) (a := a) ((C20_iternodes_mem o _).1 h).1)
      omega
    · intro h
      have := properSub_size (ProperSub.inner (c := c) (o := o) (a := a) ((C20_iternodes_mem i _).1 h).1)
      omega
    · intro x hx y hy e
      subst e
      have h1 := ((C20_iternodes_mem o _).1 hx).1
      have h2 := ((C20_iternodes_mem i _).1 hy).1
      obtain ⟨z, hz⟩ := solid_leaf x (sub_solid h1 hs.1)
      exact hr.2.2 z (sub_leaf h1 hz) (sub_leaf h2 hz)

/-- C20: `iternodes()` is a pre-order: the nodes below a node come after it. -/
theorem C20_iternodes_preorder (t s s' : Tree A) (l1 l2 : List (Tree A))
    (h : t.iternodes = l1 ++ s :: l2) (hs : ProperSub s' s) (he : s'.isEmpty = false) : s' ∈ l2 := by
  induction t generalizing l1 l2 with
  | empty c => simp [Tree.iternodes] at h
  | scan c t a =>
    simp only [Tree.iternodes] at h
    cases l1 with
    | nil => simp at h; obtain ⟨rfl, -⟩ := h; cases hs
    | cons x l1 => simp at h
  | join c o i a iho ihi =>
    simp only [Tree.iternodes] at h
    cases l1 with
    | nil =>
      simp only [List.nil_append, List.cons.injEq] at h
      obtain ⟨rfl, rfl⟩ := h
      rw [List.mem_append, C20_iternodes_mem, C20_iternodes_mem]
      cases hs with
      | outer h => exact .inl ⟨h, he⟩
      | inner h => exact .inr ⟨h, he⟩
    | cons x l1 =>
      simp only [List.cons_append, List.cons.injEq] at h
      have h := h.2
      rw [List.append_eq_append_iff] at h
      rcases h with ⟨as, h1, h2⟩ | ⟨bs, h1, h2⟩
      · exact ihi as l2 h2
      · cases bs with
        | nil => simp at h1 h2; exact ihi [] l2 (by simpa using h2.symm)
        | cons b bs =>
          simp only [List.cons_append, List.cons.injEq] at h2
          obtain ⟨rfl, rfl⟩ := h2
          exact List.mem_append_left _ (iho l1 bs h1)

/-- Specification: a proper join node. -/
def IsJoinNode : Tree A → Prop
  | .join _ _ _ _ => True
  | _ => False

/-- C20: `iterjoins()` yields exactly the joins. -/
theorem C20_iterjoins_mem (t s : Tree A) : s ∈ t.iterjoins ↔ Sub s t ∧ IsJoinNode s := by
  induction t with
  | empty c =>
    simp only [Tree.iterjoins, List.not_mem_nil, false_iff]
    rintro ⟨h, he⟩; cases h; exact he
  | scan c t a =>
    simp only [Tree.iterjoins, List.not_mem_nil, false_iff]
    rintro ⟨h, he⟩; cases h; exact he
  | join c o i a iho ihi =>
    simp only [Tree.iterjoins, List.mem_append, List.mem_singleton, iho, ihi]
    constructor
    · rintro ((⟨h, he⟩ | ⟨h, he⟩) | rfl)
      · exact ⟨.outer h, he⟩
      · exact ⟨.inner h, he⟩
      · exact ⟨.refl _, trivial⟩
    · rintro ⟨h, he⟩
      cases h with
      | refl => exact .inr rfl
      | outer h => exact .inl (.inl ⟨h, he⟩)
      | inner h => exact .inl (.inr ⟨h, he⟩)

/-- C20: `iterjoins()` yields every join once (if no table is repeated). -/
theorem C20_iterjoins_nodup (t : Tree A) (hs : Solid t) (hr : NoRepeat t) : t.iterjoins.Nodup := by
  induction t with
  | empty c => simp [Tree.iterjoins]
  | scan c t a => simp [Tree.iterjoins]
  | join c o i a iho ihi =>
    simp only [Tree.iterjoins, List.nodup_append, List.mem_append, List.mem_singleton, List.nodup_singleton]
    refine ⟨⟨iho hs.1 hr.1, ihi hs.2 hr.2.1, ?_⟩, trivial, ?_⟩
    · intro x hx y hy e
      subst e
      have h1 := ((C20_iterjoins_mem o _).1 hx).1
      have h2 := ((C20_iterjoins_mem i _).1 hy).1
      obtain ⟨z, hz⟩ := solid_leaf x (sub_solid h1 hs.1)
      exact hr.2.2 z (sub_leaf h1 hz) (sub_leaf h2 hz)
    · rintro x hx y rfl e
      subst e
      rcases hx with h | h
      · have := properSub_size (ProperSub.outer (c := c) (i := i) (a := a) ((C20_iterjoins_mem o _).1 h).1)
        omega
      · have := properSub_size (ProperSub.inner (c := c) (o := o) (a := a) ((C20_iterjoins_mem i _).1 h).1)
        omega

/-- C20: `iterjoins()` yields a join after all joins below it. -/
theorem C20_iterjoins_postorder (t s s' : Tree A) (l1 l2 : List (Tree A))
    (h : t.iterjoins = l1 ++ s :: l2) (hs : ProperSub s' s) (hj : IsJoinNode s') : s' ∈ l1 := by
  induction t generalizing l1 l2 with
  | empty c => simp [Tree.iterjoins] at h
  | scan c t a => simp [Tree.iterjoins] at h
  | join c o i a iho ihi =>
    simp only [Tree.iterjoins] at h
    rw [List.append_eq_append_iff] at h
    rcases h with ⟨as, h1, h2⟩ | ⟨bs, h1, h2⟩
    · cases as with
      | nil =>
        simp only [List.nil_append, List.cons.injEq] at h2
        obtain ⟨rfl, -⟩ := h2
        simp only [List.append_nil] at h1
        rw [h1, List.mem_append, C20_iterjoins_mem, C20_iterjoins_mem]
        cases hs with
        | outer h => exact .inl ⟨h, hj⟩
        | inner h => exact .inr ⟨h, hj⟩
      | cons b as => simp at h2
    · cases bs with
      | nil =>
        simp only [List.nil_append, List.append_nil, List.cons.injEq] at h1 h2
        obtain ⟨rfl, -⟩ := h2
        rw [← h1, List.mem_append, C20_iterjoins_mem, C20_iterjoins_mem]
        cases hs with
        | outer h => exact .inl ⟨h, hj⟩
        | inner h => exact .inr ⟨h, hj⟩
      | cons b bs =>
        simp only [List.cons_append, List.cons.injEq] at h2
        obtain ⟨rfl, rfl⟩ := h2
        rw [List.append_eq_append_iff] at h1
        rcases h1 with ⟨as, h1, h2⟩ | ⟨cs, h1, h2⟩
        · rw [h1]; exact List.mem_append_right _ (ihi as bs h2)
        · cases cs with
          | nil =>
            simp only [List.nil_append, List.append_nil] at h1 h2
            have := ihi [] bs (by simpa using h2.symm)
            simp at this
          | cons d cs =>
            simp only [List.cons_append, List.cons.injEq] at h2
            obtain ⟨rfl, rfl⟩ := h2
            exact iho l1 cs h1

example : ex3.iterjoins = [] ++ (.join .generic (.scan .generic 1 none) (.scan .generic 2 (some 7)) none) :: [ex3] := by
  decide

theorem sub_tables {s t : Tree A} (h : Sub s t) : s.tables ⊆ t.tables := by
  intro x hx; rw [C20_tables] at hx ⊢; exact sub_leaf h hx

/-- C20: a looked-up tree is a subtree over exactly the requested tables. -/
theorem C20_lookup_sound (t s : Tree A) (n : Finset Nat) (h : t.lookup n = some s) : Sub s t ∧ s.tables = n := by
  induction t with
  | empty c =>
    simp only [Tree.lookup] at h
    split at h
    · cases h; subst n; exact ⟨.refl _, rfl⟩
    · cases h
  | scan c t a =>
    simp only [Tree.lookup] at h
    split at h
    · cases h; subst n; exact ⟨.refl _, rfl⟩
    · cases h
  | join c o i a iho ihi =>
    simp only [Tree.lookup] at h
    split at h
    · cases h; subst n; exact ⟨.refl _, rfl⟩
    · split at h
      · cases h
      · split at h
        · rename_i r hr
          cases h
          exact ⟨.outer (iho hr).1, (iho hr).2⟩
        · exact ⟨.inner (ihi h).1, (ihi h).2⟩

/-- C20: a lookup succeeds whenever some subtree has exactly the requested tables (even with repeated tables). -/
theorem C20_lookup_complete (t s : Tree A) (h : Sub s t) : ∃ r, t.lookup s.tables = some r := by
  induction t with
  | empty c => cases h; simp [Tree.lookup, Tree.tables]
  | scan c t a => cases h; simp [Tree.lookup, Tree.tables]
  | join c o i a iho ihi =>
    simp only [Tree.lookup]
    split
    · exact ⟨_, rfl⟩
    · rename_i hne
      have hsub := sub_tables h
      simp only [Tree.tables] at hsub
      rw [if_neg (by simpa using hsub)]
      cases h with
      | refl => simp [Tree.tables] at hne
      | outer h => obtain ⟨r, hr⟩ := iho h; rw [hr]; exact ⟨_, rfl⟩
      | inner h =>
        split
        · exact ⟨_, rfl⟩
        · exact ihi h

/-- C20: without repeated tables the subtree with the requested tables is unique, so lookup returns it. -/
theorem C20_lookup_exact (t s : Tree A) (hs : Solid t) (hr : NoRepeat t) (n : Finset Nat) :
    t.lookup n = some s ↔ Sub s t ∧ s.tables = n := by
  constructor
  · exact C20_lookup_sound t s n
  · rintro ⟨h, rfl⟩
    obtain ⟨r, hr'⟩ := C20_lookup_complete t s h
    obtain ⟨hrs, hrt⟩ := C20_lookup_sound t r _ hr'
    have uniq : ∀ (t : Tree A), Solid t → NoRepeat t → ∀ a b, Sub a t → Sub b t → a.tables = b.tables → a = b := by
      intro t
      induction t with
      | empty c => intro hs; exact hs.elim
      | scan c t a => intro _ _ x y hx hy _; cases hx; cases hy; rfl
      | join c o i an iho ihi =>
        intro hs hr x y hx hy he
        have full : ∀ (z : Tree A), ProperSub z (.join c o i an) →
            z.tables ≠ (Tree.join c o i an).tables := by
          intro z hz hez
          cases hz with
          | outer hz =>
            obtain ⟨w, hw⟩ := solid_leaf i hs.2
            have : w ∈ z.tables := by rw [hez, C20_tables]; exact .inner hw
            rw [C20_tables] at this
            exact hr.2.2 w (sub_leaf hz this) hw
          | inner hz =>
            obtain ⟨w, hw⟩ := solid_leaf o hs.1
            have : w ∈ z.tables := by rw [hez, C20_tables]; exact .outer hw
            rw [C20_tables] at this
            exact hr.2.2 w hw (sub_leaf hz this)
        have cross : ∀ (u v : Tree A), Sub u o → Sub v i → u.tables ≠ v.tables := by
          intro u v hu hv hez
          obtain ⟨w, hw⟩ := solid_leaf u (sub_solid hu hs.1)
          have : w ∈ v.tables := by rw [← hez, C20_tables]; exact hw
          rw [C20_tables] at this
          exact hr.2.2 w (sub_leaf hu hw) (sub_leaf hv this)
        cases hx with
        | refl =>
          cases hy with
          | refl => rfl
          | outer hy => exact (full y (.outer hy) he.symm).elim
          | inner hy => exact (full y (.inner hy) he.symm).elim
        | outer hx =>
          cases hy with
          | refl => exact (full x (.outer hx) he).elim
          | outer hy => exact iho hs.1 hr.1 x y hx hy he
          | inner hy => exact (cross x y hx hy he).elim
        | inner hx =>
          cases hy with
          | refl => exact (full x (.inner hx) he).elim
          | outer hy => exact (cross y x hy hx he.symm).elim
          | inner hy => exact ihi hs.2 hr.2.1 x y hx hy he
    rw [hr', uniq t hs hr r s hrs h hrt]

/-- C20: `table in tree` holds exactly for the leaves. -/
theorem C20_contains (t : Tree A) (x : Nat) : t.contains x = true ↔ Leaf x t := by
  unfold Tree.contains
  constructor
  · intro h
    split at h
    · simp at h
    · rename_i r hr
      obtain ⟨h1, h2⟩ := C20_lookup_sound t r _ hr
      have : x ∈ r.tables := by rw [h2]; simp
      rw [C20_tables] at this
      exact sub_leaf h1 this
  · intro h
    have : ∃ c a, Sub (.scan c x a) t := by
      induction h with
      | here => exact ⟨_, _, .refl _⟩
      | outer _ ih => obtain ⟨c, a, h⟩ := ih; exact ⟨c, a, .outer h⟩
      | inner _ ih => obtain ⟨c, a, h⟩ := ih; exact ⟨c, a, .inner h⟩
    obtain ⟨c, a, hs⟩ := this
    obtain ⟨r, hr⟩ := C20_lookup_complete t _ hs
    simp only [Tree.tables] at hr
    rw [hr]
    obtain ⟨h1, h2⟩ := C20_lookup_sound t r _ hr
    cases r with
    | empty c => simp [Tree.tables] at h2
    | _ => rfl

/-! ### C76 depth and size -/

/-- Specification: a chain of `n` nodes, each a child of the previous one, starting at the root and ending in a leaf. -/
inductive Chain : Tree A → Nat → Prop
  | leaf {c t a} : Chain (.scan c t a) 1
  | outer {c o i a n} : Chain o n → Chain (.join c o i a) (n + 1)
  | inner {c o i a n} : Chain i n → Chain (.join c o i a) (n + 1)

/-- C76: `plan_depth()` is the length of the longest root-to-leaf chain. -/
theorem C76_depth (t : Tree A) (hs : Solid t) :
    Chain t t.planDepth ∧ ∀ n, Chain t n → n ≤ t.planDepth := by
  induction t with
  | empty c => exact hs.elim
  | scan c t a => exact ⟨.leaf, fun n h => by cases h; exact le_rfl⟩
  | join c o i a iho ihi =>
    obtain ⟨h1, h2⟩ := iho hs.1
    obtain ⟨h3, h4⟩ := ihi hs.2
    simp only [Tree.planDepth]
    constructor
    · rcases le_total o.planDepth i.planDepth with h | h
      · rw [max_eq_right h, Nat.add_comm]; exact .inner h3
      · rw [max_eq_left h, Nat.add_comm]; exact .outer h1
    · intro n h
      cases h with
      | outer h => have := h2 _ h; omega
      | inner h => have := h4 _ h; omega

/-- C76: a tree over `n` leaves has `n - 1` joins and `2n - 1` nodes, and depth at most `n`. -/
theorem C76_counts (t : Tree A) (hs : Solid t) :
    t.iterjoins.length + 1 = t.itertables.length ∧ t.iternodes.length + 1 = 2 * t.itertables.length ∧
    t.planDepth ≤ t.itertables.length := by
  induction t with
  | empty c => exact hs.elim
  | scan c t a => simp [Tree.iterjoins, Tree.itertables, Tree.iternodes, Tree.planDepth]
  | join c o i a iho ihi =>
    obtain ⟨h1, h2, h3⟩ := iho hs.1
    obtain ⟨h4, h5, h6⟩ := ihi hs.2
    simp only [Tree.iterjoins, Tree.itertables, Tree.iternodes, Tree.planDepth, List.length_append,
      List.length_cons, List.length_nil]
    refine ⟨by omega, by omega, by omega⟩

example : ex3.planDepth = 3 ∧ Chain ex3 3 := ⟨by decide, .outer (.outer .leaf)⟩

/-! ### C21 -/

/-- The leaves a partner contributes. -/
def partnerTables : Partner A → List Nat
  | .table t => [t]
  | .tree t => t.itertables

/-- The partner as a tree, with the requested annotation if one is given. -/
def PartnerTree (p : Partner A) (ann : Option A) (r : Tree A) : Prop :=
  match p, ann with
  | .table t, ann => r = .scan .generic t ann
  | .tree t, none => r = t
  | .tree (.scan _ t _), some a => r = .scan .generic t (some a)
  | .tree (.join _ o i _), some a => r = .join .generic o i (some a)
  | .tree (.empty _), some _ => False

/-- A partner that is not the empty tree. -/
def PartnerNonEmpty : Partner A → Prop
  | .tree (.empty _) => False
  | _ => True

theorem initEmpty_spec (p : Partner A) (ann : Option A) (hp : PartnerNonEmpty p) :
    ∃ r, initEmpty p ann = some r ∧ PartnerTree p ann r ∧ r.itertables = partnerTables p := by
  rcases p with t | t
  · exact ⟨_, rfl, rfl, rfl⟩
  · cases ann with
    | none => exact ⟨_, rfl, rfl, rfl⟩
    | some a =>
      cases t with
      | empty c => exact hp.elim
      | scan c t a' => exact ⟨_, rfl, rfl, rfl⟩
      | join c o i a' => exact ⟨_, rfl, rfl, rfl⟩

/-- C21: joining a non-empty tree with a non-empty partner yields the join of the two in the requested direction, with
the requested annotations; its leaves are those of both in order. -/
theorem C21_join (self : Tree A) (p : Partner A) (ann pAnn : Option A) (inner : Bool)
    (hs : self.isEmpty = false) (hp : PartnerNonEmpty p) :
    ∃ q r, PartnerTree p pAnn q ∧ self.joinWith p ann pAnn inner = some r ∧
      (if inner then r = .join .generic self q ann else r = .join .generic q self ann) ∧
      r.itertables = if inner then self.itertables ++ partnerTables p else partnerTables p ++ self.itertables := by
  obtain ⟨q, h1, h2, h3⟩ := initEmpty_spec p pAnn hp
  have hj : self.joinWith p ann pAnn inner =
      if inner then some (.join .generic self q ann) else some (.join .generic q self ann) := by
    unfold Tree.joinWith
    split
    · exact hp.elim
    · simp [hs, h1]
  refine ⟨q, if inner then .join .generic self q ann else .join .generic q self ann, h2, ?_, ?_, ?_⟩
  · rw [hj]; cases inner <;> rfl
  · cases inner <;> rfl
  · cases inner <;> simp [Tree.itertables, h3]

/-- C21: joining the empty tree with a partner yields the partner; joining with the empty tree changes nothing. -/
theorem C21_empty (p : Partner A) (c : Cls) (ann pAnn : Option A) (inner : Bool) (hp : PartnerNonEmpty p)
    (self : Tree A) (c' : Cls) :
    (∃ q, (Tree.empty c).joinWith p ann pAnn inner = some q ∧ PartnerTree p pAnn q) ∧
    self.joinWith (.tree (.empty c')) ann pAnn inner = some self := by
  obtain ⟨q, h1, h2, h3⟩ := initEmpty_spec p pAnn hp
  refine ⟨⟨q, ?_, h2⟩, rfl⟩
  unfold Tree.joinWith
  split
  · exact hp.elim
  · simp [Tree.isEmpty, h1]

example : PartnerNonEmpty (.tree ex3) ∧ ex3.isEmpty = false := ⟨trivial, rfl⟩

/-- C21: building a left-deep tree by joining one table after the other yields exactly these leaves in order. -/
theorem C21_linear (c : Cls) (ts : List Nat) :
    ∃ r, ts.foldlM (fun (t : Tree A) x => t.joinWith (.table x) none none true) (.empty c) = some r ∧
      r.itertables = ts := by
  have gen : ∀ (ts : List Nat) (t : Tree A),
      ∃ r, ts.foldlM (fun (t : Tree A) x => t.joinWith (.table x) none none true) t = some r ∧
        r.itertables = t.itertables ++ ts := by
    intro ts
    induction ts with
    | nil => intro t; exact ⟨t, rfl, by simp⟩
    | cons x ts ih =>
      intro t
      have : ∃ t', t.joinWith (.table x) none none true = some t' ∧ t'.itertables = t.itertables ++ [x] := by
        cases t with
        | empty c => exact ⟨_, rfl, rfl⟩
        | scan c t a => exact ⟨_, rfl, rfl⟩
        | join c o i a => exact ⟨_, rfl, rfl⟩
      obtain ⟨t', h1, h2⟩ := this
      obtain ⟨r, h3, h4⟩ := ih t'
      refine ⟨r, ?_, ?_⟩
      · rw [List.foldlM_cons, h1]; exact h3
      · rw [h4, h2, List.append_assoc]; rfl
  obtain ⟨r, h1, h2⟩ := gen ts (.empty c)
  exact ⟨r, h1, by simpa [Tree.itertables] using h2⟩

/-- C21: a nested table sequence becomes the join tree of the same nesting: same leaves in order, one join per pair. -/
theorem C21_sequence (n : Nested) :
    let flat := Nested.rec (motive := fun _ => List Nat) (fun t => [t]) (fun _ _ a b => a ++ b) n
    (fromSequence n : Tree A).itertables = flat ∧ Solid (fromSequence n : Tree A) := by
  intro flat
  induction n with
  | table t => exact ⟨rfl, trivial⟩
  | pair o i iho ihi =>
    exact ⟨by simp only [fromSequence, Tree.itertables, iho.1, ihi.1, flat], iho.2, ihi.2⟩

/-! ### C22 -/

/-- Specification: every join has a base table as at least one input. -/
def Linear (t : Tree A) : Prop :=
  ∀ s, Sub s t → match s with
    | .join _ o i _ => o.isScan = true ∨ i.isScan = true
    | _ => True

/-- C22 violated: a tree with a join of two joins deep inside is reported as linear (and hence not as bushy). -/
theorem C22_linear_violated :
    ∃ t : Tree Nat, Solid t ∧ NoRepeat t ∧ t.isLinear = some true ∧ t.isBushy = some false ∧ ¬ Linear t := by
  let s : Nat → Tree Nat := fun x => .scan .generic x none
  let j : Tree Nat → Tree Nat → Tree Nat := fun o i => .join .generic o i none
  refine ⟨j (s 5) (j (j (s 1) (s 2)) (j (s 3) (s 4))), ?_, ?_, rfl, rfl, ?_⟩
  · exact ⟨trivial, ⟨trivial, trivial⟩, trivial, trivial⟩
  · refine ⟨trivial, ⟨⟨trivial, trivial, ?_⟩, ⟨trivial, trivial, ?_⟩, ?_⟩, ?_⟩ <;>
    · intro x h h'
      rw [← C20_tables] at h h'
      simp [Tree.tables, j, s] at h h'
      omega
  · intro h
    have := h _ (.inner (.refl _))
    simp [j, s, Tree.isScan] at this

/-- C22 partial: a linear tree is never reported as bushy, and if all subtrees are reported as linear, the tree is.
Missing: a tree reported as linear need not be, see above. -/
theorem C22_linear_partial (t : Tree A) (hs : Solid t) :
    (Linear t → t.isLinear = some true ∧ t.isBushy = some false) ∧
    (Linear t ↔ ∀ s, Sub s t → s.isLinear = some true) := by
  have key : Linear t → t.isLinear = some true := by
    intro h
    cases t with
    | empty c => exact hs.elim
    | scan c t a => rfl
    | join c o i a =>
      have := h _ (.refl _)
      simpa [Tree.isLinear] using this
  refine ⟨fun h => ⟨key h, by simp [Tree.isBushy, key h]⟩, ?_⟩
  constructor
  · intro h s hsub
    have hss := sub_solid hsub hs
    have := h s hsub
    cases s with
    | empty c => exact hss.elim
    | scan c t a => rfl
    | join c o i a => simpa [Tree.isLinear] using this
  · intro h s hsub
    have := h s hsub
    cases s with
    | empty c => trivial
    | scan c t a => trivial
    | join c o i a => simpa [Tree.isLinear] using this

/-- C22: `is_base_join` holds exactly for joins of two leaves. -/
theorem C22_baseJoin (t : Tree A) (hs : Solid t) :
    t.isBaseJoin = some true ↔ t.itertables.length = 2 := by
  have hpos : ∀ (t : Tree A), Solid t → 1 ≤ t.itertables.length := by
    intro t h; have := C76_counts t h; omega
  have hone : ∀ (t : Tree A), Solid t → (t.isScan = true ↔ t.itertables.length = 1) := by
    intro t h
    cases t with
    | empty c => exact h.elim
    | scan c t a => simp [Tree.isScan, Tree.itertables]
    | join c o i a =>
      have := hpos o h.1
      have := hpos i h.2
      simp only [Tree.isScan, Tree.itertables, List.length_append, Bool.false_eq_true, false_iff]
      omega
  cases t with
  | empty c => exact hs.elim
  | scan c t a => simp [Tree.isBaseJoin, Tree.itertables]
  | join c o i a =>
    have := hpos o hs.1
    have := hpos i hs.2
    simp only [Tree.isBaseJoin, Option.some.injEq, Bool.and_eq_true, hone o hs.1, hone i hs.2, Tree.itertables,
      List.length_append]
    omega

/-- C22 violated: the empty tree claims to be a join. -/
theorem C22_emptyJoin_violated (c : Cls) : (Tree.empty c : Tree A).isJoin = true ∧ (Tree.empty c : Tree A).iterjoins = [] :=
  ⟨rfl, rfl⟩

/-! ### C75 equality, hash and classes of join trees -/

/-- Specification: same shape, same tables, same classes (annotations are ignored). -/
inductive SameTree : Tree A → Tree A → Prop
  | empty {c} : SameTree (.empty c) (.empty c)
  | scan {c t a b} : SameTree (.scan c t a) (.scan c t b)
  | join {c o i o' i' a b} : SameTree o o' → SameTree i i' → SameTree (.join c o i a) (.join c o' i' b)

/-- C75: equality means same shape, tables and classes; it is an equivalence and equal trees have equal hashes. -/
theorem C75_eq (s t : Tree A) : s.pyEq t = true ↔ SameTree s t := by
  induction s generalizing t with
  | empty c =>
    cases t <;> simp [Tree.pyEq]
    · constructor
      · rintro rfl; exact .empty
      · intro h; cases h; rfl
    · intro h; cases h
    · intro h; cases h
  | scan c x a =>
    cases t <;> simp [Tree.pyEq]
    · intro h; cases h
    · constructor
      · rintro ⟨rfl, rfl⟩; exact .scan
      · intro h; cases h; exact ⟨rfl, rfl⟩
    · intro h; cases h
  | join c o i a iho ihi =>
    cases t <;> simp [Tree.pyEq]
    · intro h; cases h
    · intro h; cases h
    · rw [iho, ihi]
      constructor
      · rintro ⟨⟨rfl, h1⟩, h2⟩; exact .join h1 h2
      · intro h; cases h with
        | join h1 h2 => exact ⟨⟨rfl, h1⟩, h2⟩

theorem C75_equivalence : Equivalence (fun s t : Tree A => s.pyEq t = true) := by
  simp only [C75_eq]
  refine ⟨?_, ?_, ?_⟩
  · intro t
    induction t with
    | empty c => exact .empty
    | scan c t a => exact .scan
    | join c o i a h1 h2 => exact .join h1 h2
  · intro s t h
    induction h with
    | empty => exact .empty
    | scan => exact .scan
    | join _ _ h1 h2 => exact .join h1 h2
  · intro s t u h
    induction h generalizing u with
    | empty => exact id
    | scan => intro h; cases h; exact .scan
    | join _ _ h1 h2 => intro h; cases h with | join g1 g2 => exact .join (h1 g1) (h2 g2)

theorem C75_hash (s t : Tree A) (h : s.pyEq t = true) : s.hashKey = t.hashKey := by
  rw [C75_eq] at h
  induction h with
  | empty => rfl
  | scan => rfl
  | join _ _ h1 h2 => simp [Tree.hashKey, h1, h2]

/-- C75 violated: extending a logical join tree, or updating its annotation, yields a tree of the other class, which
is never equal to the corresponding logical join tree. -/
theorem C75_logical_violated (t : Tree A) (ht : t.isEmpty = false) (x : Nat) (a : A) :
    (∃ r, t.joinWith (.table x) none none true = some r ∧ r.cls = .generic) ∧
    (∃ r, t.updateAnnotation a = some r ∧ r.cls = .generic ∧ (t.cls = .logical → t.pyEq r = false)) := by
  cases t with
  | empty c => simp [Tree.isEmpty] at ht
  | scan c y b =>
    refine ⟨⟨_, rfl, rfl⟩, _, rfl, rfl, ?_⟩
    rintro h; cases (h : c = _); rfl
  | join c o i b =>
    refine ⟨⟨_, rfl, rfl⟩, _, rfl, rfl, ?_⟩
    rintro h; cases (h : c = _); rfl

example : (Tree.scan .logical 1 (some 3) : Tree Nat).isEmpty = false := rfl

/-! ### C60 -/

/-- All nodes are plain `JoinTree` objects. -/
def Generic : Tree A → Prop
  | .empty c => c = .generic
  | .scan c _ _ => c = .generic
  | .join c o i _ => c = .generic ∧ Generic o ∧ Generic i

/-- The tree with all annotations replaced by their JSON documents. -/
def encodeAnn {B : Type} (enc : A → B) : Tree A → Tree B
  | .empty c => .empty c
  | .scan c t a => .scan c t (a.map enc)
  | .join c o i a => .join c (encodeAnn enc o) (encodeAnn enc i) (a.map enc)

/-- C60 partial: a tree of plain nodes without empty subtrees is read back with the same shape, tables and (encoded)
annotations. Missing: empty trees and logical join trees, see below. -/
theorem C60_json_partial {B : Type} (enc : A → B) (t : Tree A) (hs : Solid t) (hg : Generic t) :
    readJson (t.toJson enc) = some (encodeAnn enc t) := by
  induction t with
  | empty c => exact hs.elim
  | scan c t a => cases (hg : c = _); rfl
  | join c o i a iho ihi =>
    obtain ⟨rfl, h1, h2⟩ := hg
    simp [Tree.toJson, readJson, iho hs.1 h1, ihi hs.2 h2, encodeAnn]

/-- C60 partial: if the encoder of annotations is the identity, the tree read back is equal to the original one. -/
theorem C60_json_eq_partial (t : Tree A) (hs : Solid t) (hg : Generic t) :
    ∃ r, readJson (t.toJson id) = some r ∧ t.pyEq r = true ∧ r = t := by
  have e : encodeAnn id t = t := by
    clear hs hg
    induction t with
    | empty c => rfl
    | scan c t a => simp [encodeAnn]
    | join c o i a h1 h2 => simp [encodeAnn, h1, h2]
  exact ⟨t, by rw [C60_json_partial id t hs hg, e], C75_equivalence.refl t, rfl⟩

example : Solid ex3 ∧ Generic ex3 := ⟨⟨⟨trivial, trivial⟩, trivial⟩, rfl, ⟨rfl, rfl, rfl⟩, rfl⟩

/-- C60 violated: the document of an empty tree cannot be read. -/
theorem C60_empty_violated {B : Type} (enc : A → B) (c : Cls) :
    (readJson ((Tree.empty c : Tree A).toJson enc)).isNone := rfl

/-- C60 violated: a logical join tree is never read back as an equal tree. -/
theorem C60_logical_violated (t r : Tree A) (ht : t.cls = .logical) (h : readJson (t.toJson id) = some r) :
    t.pyEq r = false := by
  cases t with
  | empty c => simp [Tree.toJson, readJson] at h
  | scan c x a => cases (ht : c = _); simp [Tree.toJson, readJson] at h; subst h; rfl
  | join c o i a =>
    cases (ht : c = _)
    simp only [Tree.toJson, readJson, Option.bind_eq_bind] at h
    cases ho : readJson (o.toJson id) with
    | none => simp [ho] at h
    | some o' =>
      cases hi : readJson (i.toJson id) with
      | none => simp [ho, hi] at h
      | some i' => simp [ho, hi] at h; subst h; rfl

example : ∃ r, readJson ((Tree.scan .logical 1 (some 3) : Tree Nat).toJson id) = some r := ⟨_, rfl⟩

end PB.JTProps
