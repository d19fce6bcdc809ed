import Verif.Model.RelMutate
import Mathlib.Tactic.Tauto
import Mathlib.Tactic.ByContra

set_option linter.unusedSimpArgs false
set_option linter.unusedVariables false
set_option linter.unusedSectionVars false
set_option linter.unnecessarySimpa false

namespace PB.RelMutateProps
open PB.RelMutate

/-! ## Specification -/

/-- `i` is `r` or an input, an input of an input, ... of `r`. -/
inductive Below (g : Heap) (r : Nat) : Nat → Prop
  | refl : Below g r r
  | step {p c : Nat} : Below g r p → c ∈ g.kids p → Below g r c

/-- The tree (or graph) with the root `r` is in order: inputs are older than the nodes that use them, different nodes
differ in their content, nodes know who uses them, hash values belong to the content. -/
structure Proper (g : Heap) (r : Nat) : Prop where
  root_lt : r < g.objs.length
  older : ∀ i, i < g.objs.length → ∀ c ∈ g.kids i, c < i
  distinct : ∀ i j, i < g.objs.length → j < g.objs.length → g.content i = g.content j → i = j
  users : ∀ i p, p ∈ g.ups i → p < g.objs.length ∧ i ∈ g.kids p
  known : ∀ p, Below g r p → ∀ c ∈ g.kids p, p ∈ g.ups c
  first : ∀ c, g.parent c = none → g.side c = []
  hashed : ∀ i, i < g.objs.length → g.hash i = g.content i

/-- Replace every occurrence of a subtree. -/
def subst (old new : Term) : Term → Term
  | .leaf l => if Term.leaf l = old then new else .leaf l
  | .un l a => if Term.un l a = old then new else .un l (subst old new a)
  | .bin l a b => if Term.bin l a b = old then new else .bin l (subst old new a) (subst old new b)

/-- The value that the caller gives for an attribute. -/
def given (args : List (String × Arg)) (k : String) : Option String :=
  match args.find? (fun e => e.1 == k) with
  | some (_, .val v) => some v
  | _ => none

/-- The attributes with the values that the caller gives. -/
def edited (args : List (String × Arg)) (l : Lab) : Lab :=
  ⟨l.ty, l.fields.map (fun f => (f.1, (given args f.1).getD f.2))⟩

/-- The same node with other attributes. -/
def relabel (l : Lab → Lab) : Term → Term
  | .leaf a => .leaf (l a)
  | .un a x => .un (l a) x
  | .bin a x y => .bin (l a) x y

/-- No argument is a node. -/
def Plain (args : List (String × Arg)) : Prop :=
  (args.map (fun e => e.1)).Nodup ∧ ∀ e ∈ args, ∀ i, e.2 ≠ .node i

/-! ## Basics -/

theorem Below.trans {g : Heap} {a b c : Nat} (h : Below g a b) (h' : Below g b c) : Below g a c := by
  induction h' with
  | refl => exact h
  | step _ hk ih => exact .step ih hk

theorem below_head {g : Heap} {a b : Nat} (h : Below g a b) : a = b ∨ ∃ c ∈ g.kids a, Below g c b := by
  induction h with
  | refl => exact Or.inl rfl
  | @step p c hp hk ih =>
    right
    rcases ih with rfl | ⟨d, hd, hd'⟩
    · exact ⟨c, hk, .refl⟩
    · exact ⟨d, hd, .step hd' hk⟩

def Older (g : Heap) : Prop := ∀ i, i < g.objs.length → ∀ c ∈ g.kids i, c < i

theorem below_le {g : Heap} (o : Older g) {a b : Nat} (ha : a < g.objs.length) (h : Below g a b) :
    b ≤ a ∧ b < g.objs.length := by
  induction h with
  | refl => exact ⟨Nat.le_refl _, ha⟩
  | @step p c _ hk ih =>
    have := o p ih.2 c hk
    omega

theorem map_congr {α β} {f h : α → β} (s : Shape α) (e : ∀ a ∈ s.toList, f a = h a) : s.map f = s.map h := by
  cases s <;> simp_all [Shape.map, Shape.toList]

theorem map_map {α β γ} (f : β → γ) (h : α → β) (s : Shape α) : (s.map h).map f = s.map (fun a => f (h a)) := by
  cases s <;> rfl

theorem contentF_eq {g : Heap} (o : Older g) : ∀ i n, i < g.objs.length → i < n → g.contentF n i = g.content i := by
  intro i
  induction i using Nat.strongRecOn with
  | ind i ih =>
    intro n hi hn
    obtain ⟨m, rfl⟩ : ∃ m, n = m + 1 := ⟨n - 1, by omega⟩
    simp only [Heap.content, Heap.contentF]
    congr 1
    apply map_congr
    intro a ha
    have hlt := o i hi a ha
    rw [ih a hlt m (by omega) (by omega), ih a hlt i (by omega) hlt]

theorem content_eq {g : Heap} (o : Older g) {i : Nat} (hi : i < g.objs.length) :
    g.content i = mkTerm (g.obj i).lab ((g.obj i).kids.map g.content) := by
  simp only [Heap.content, Heap.contentF]
  congr 1
  apply map_congr
  intro a ha
  have hlt := o i hi a ha
  exact contentF_eq o a i (by omega) hlt

def Distinct (g : Heap) : Prop :=
  ∀ i j, i < g.objs.length → j < g.objs.length → g.content i = g.content j → i = j

theorem same_iff {g : Heap} (d : Distinct g) {i j : Nat} (hi : i < g.objs.length) (hj : j < g.objs.length) :
    g.same i j = decide (i = j) := by
  by_cases e : i = j
  · simp [Heap.same, e]
  · have : g.content i ≠ g.content j := fun h => e (d i j hi hj h)
    simp [Heap.same, e, this]

theorem eqv_iff {g : Heap} (d : Distinct g) {i j : Nat} (hi : i < g.objs.length) (hj : j < g.objs.length) :
    g.eqv i j = decide (i = j) := by
  by_cases e : i = j
  · simp [Heap.eqv, e]
  · have : g.content i ≠ g.content j := fun h => e (d i j hi hj h)
    simp [Heap.eqv, e, this]

def Keys (g : Heap) (u : Upd) : Prop := ∀ e ∈ u, e.1 < g.objs.length

theorem keys_put {g : Heap} {u : Upd} (k : Keys g u) {i : Nat} (hi : i < g.objs.length) (c : Clone) :
    Keys g (put g u i c) := by
  unfold put
  split
  · intro e he
    obtain ⟨e', he', rfl⟩ := List.mem_map.mp he
    have := k e' he'
    split <;> exact this
  · intro e he
    rcases List.mem_append.mp he with h | h
    · exact k e h
    · simp at h; subst h; exact hi

theorem lookup_map {g : Heap} (d : Distinct g) {i : Nat} (hi : i < g.objs.length) (c : Clone) (j : Nat)
    (hj : j < g.objs.length) : ∀ (u : Upd), Keys g u →
    lookup g (u.map (fun e => if g.same e.1 i then (e.1, c) else e)) j =
      if j = i then (if u.any (fun e => g.same e.1 i) then some c else none) else lookup g u j := by
  intro u
  induction u with
  | nil => intro _; by_cases e : j = i <;> simp [lookup, e]
  | cons e u ih =>
    intro k
    have he : e.1 < g.objs.length := k e (List.mem_cons_self ..)
    have ih' := ih (fun x hx => k x (List.mem_cons_of_mem _ hx))
    have s1 := same_iff d he hi
    have s2 := same_iff d he hj
    have hcons : ∀ (x : Nat × Clone) (l : Upd), lookup g (x :: l) j = if g.same x.1 j then some x.2 else lookup g l j := by
      intro x l
      simp only [lookup, List.find?_cons]
      cases g.same x.1 j <;> rfl
    rw [List.map_cons, hcons, hcons, List.any_cons, ih']
    by_cases ei : e.1 = i
    · have h1 : g.same e.1 i = true := by rw [s1]; simp [ei]
      simp only [h1, if_true, Bool.true_or]
      by_cases ej : j = i
      · have h2 : g.same e.1 j = true := by rw [s2]; simp [ei, ej]
        subst ej; simp [h2]
      · have h2 : g.same e.1 j = false := by rw [s2]; simp [ei]; exact fun h => ej h.symm
        simp [h2, ej]
    · have h1 : g.same e.1 i = false := by rw [s1]; simp [ei]
      simp only [h1, Bool.false_or]
      by_cases ej : e.1 = j
      · have h2 : g.same e.1 j = true := by rw [s2]; simp [ej]
        have : j ≠ i := fun h => ei (ej.trans h)
        simp [h2, this]
      · have h2 : g.same e.1 j = false := by rw [s2]; simp [ej]
        simp [h2]

theorem lookup_put {g : Heap} (d : Distinct g) {u : Upd} (k : Keys g u) {i j : Nat} (hi : i < g.objs.length)
    (hj : j < g.objs.length) (c : Clone) :
    lookup g (put g u i c) j = if j = i then some c else lookup g u j := by
  unfold put
  split
  · rename_i h
    rw [lookup_map d hi c j hj u k]
    simp [h]
  · rename_i h
    simp only [lookup, List.find?_append]
    have s := same_iff d hi hj
    have h0 : ∀ e ∈ u, ¬ g.same e.1 i = true := by simpa using h
    by_cases e : j = i
    · subst e
      have : List.find? (fun e => g.same e.1 j) u = none := by
        rw [List.find?_eq_none]; exact h0
      simp [this, s]
    · have e' : i ≠ j := fun h => e h.symm
      simp [e, e', s]

/-! ## Attributes -/

def applyLab : List (String × Arg) → Lab → Lab
  | [], l => l
  | (_, .none) :: r, l => applyLab r l
  | (k, .val v) :: r, l => applyLab r (setField l k v)
  | (_, .node _) :: r, l => applyLab r l

def Clone.relab (f : Lab → Lab) : Clone → Clone
  | .leaf l h => .leaf (f l) h
  | .un l h a => .un (f l) h a
  | .bin l h a b => .bin (f l) h a b

theorem perform_plain (g : Heap) (ord : List Nat → List Nat) (n : Nat) : ∀ (args : List (String × Arg)) (u : Upd)
    (c : Clone), (∀ e ∈ args, ∀ i, e.2 ≠ .node i) →
    perform g ord n args u c = .done (u, Clone.relab (applyLab args) c) := by
  intro args
  induction args with
  | nil => intro u c _; cases c <;> rfl
  | cons e r ih =>
    intro u c h
    obtain ⟨k, a⟩ := e
    have h' := fun x hx => h x (List.mem_cons_of_mem _ hx)
    cases a with
    | none => rw [perform, ih u c h']; cases c <;> rfl
    | val v => rw [perform, ih u _ h']; cases c <;> rfl
    | node i => exact absurd rfl (h _ (List.mem_cons_self ..) i)

theorem given_cons_ne {k k' : String} {a : Arg} {r : List (String × Arg)} (h : k ≠ k') :
    given ((k, a) :: r) k' = given r k' := by
  simp [given, List.find?_cons, h]

theorem given_none_of {r : List (String × Arg)} {k : String} (h : k ∉ r.map (fun e => e.1)) : given r k = none := by
  have : r.find? (fun e => e.1 == k) = none := by
    rw [List.find?_eq_none]
    intro e he hk
    simp at hk
    exact h (List.mem_map.mpr ⟨e, he, hk⟩)
  simp [given, this]

theorem applyLab_edited : ∀ (args : List (String × Arg)) (l : Lab), Plain args → applyLab args l = edited args l := by
  intro args
  induction args with
  | nil => intro l _; simp [applyLab, edited, given]
  | cons e r ih =>
    intro l h
    obtain ⟨k, a⟩ := e
    have hnd : k ∉ r.map (fun e => e.1) ∧ (r.map (fun e => e.1)).Nodup := by simpa using h.1
    have hr : Plain r := ⟨hnd.2, fun x hx => h.2 x (List.mem_cons_of_mem _ hx)⟩
    cases a with
    | node i => exact absurd rfl (h.2 _ (List.mem_cons_self ..) i)
    | none =>
      rw [applyLab, ih l hr]
      simp only [edited]
      congr 1
      apply List.map_congr_left
      intro f hf
      by_cases e : k = f.1
      · subst e
        rw [given_none_of hnd.1]
        simp [given]
      · rw [given_cons_ne e]
    | val v =>
      rw [applyLab, ih _ hr]
      simp only [edited, setField, List.map_map]
      congr 1
      apply List.map_congr_left
      intro f hf
      simp only [Function.comp]
      by_cases e : k = f.1
      · subst e
        simp [given_none_of hnd.1]
        simp [given]
      · have e' : f.1 ≠ k := fun h => e h.symm
        rw [given_cons_ne e]
        simp [e']

/-! ## The copies -/

def expF (g : Heap) (I : Nat) (f : Lab → Lab) : Nat → Nat → Clone
  | 0, _ => .leaf ⟨"", []⟩ (.leaf ⟨"", []⟩)
  | n + 1, i =>
    let c := mkClone (g.obj i).lab (g.hash i) ((g.obj i).kids.map (expF g I f n))
    if i = I then Clone.relab f c else c

def exp (g : Heap) (I : Nat) (f : Lab → Lab) (i : Nat) : Clone := expF g I f (i + 1) i

theorem expF_eq {g : Heap} (o : Older g) (I : Nat) (f : Lab → Lab) :
    ∀ i n, i < g.objs.length → i < n → expF g I f n i = exp g I f i := by
  intro i
  induction i using Nat.strongRecOn with
  | ind i ih =>
    intro n hi hn
    obtain ⟨m, rfl⟩ : ∃ m, n = m + 1 := ⟨n - 1, by omega⟩
    have : (g.obj i).kids.map (expF g I f m) = (g.obj i).kids.map (expF g I f i) := by
      apply map_congr
      intro a ha
      have hlt := o i hi a ha
      rw [ih a hlt m (by omega) (by omega), ih a hlt i (by omega) hlt]
    simp only [exp, expF, this]

theorem exp_eq {g : Heap} (o : Older g) (I : Nat) (f : Lab → Lab) {i : Nat} (hi : i < g.objs.length) :
    exp g I f i =
      (if i = I then Clone.relab f (mkClone (g.obj i).lab (g.hash i) ((g.obj i).kids.map (exp g I f)))
       else mkClone (g.obj i).lab (g.hash i) ((g.obj i).kids.map (exp g I f))) := by
  have : (g.obj i).kids.map (expF g I f i) = (g.obj i).kids.map (exp g I f) := by
    apply map_congr
    intro a ha
    have hlt := o i hi a ha
    exact expF_eq o I f a i (by omega) hlt
  simp only [exp, expF, this]

theorem all?_some {α β} {f : α → Option β} {e : α → β} (s : Shape α)
    (hv : ∀ a ∈ s.toList, ∀ b, f a = some b → b = e a) {t : Shape β} (h : s.all? f = some t) :
    t = s.map e ∧ ∀ a ∈ s.toList, (f a).isSome := by
  cases s with
  | leaf => simp [Shape.all?] at h; subst h; simp [Shape.map, Shape.toList]
  | un a =>
    simp only [Shape.all?] at h
    split at h <;> simp_all [Shape.map, Shape.toList]
  | bin a b =>
    simp only [Shape.all?] at h
    split at h <;> simp_all [Shape.map, Shape.toList]

theorem all?_none {α β} {f : α → Option β} (s : Shape α) (h : s.all? f = none) : ∃ a ∈ s.toList, f a = none := by
  cases s with
  | leaf => simp [Shape.all?] at h
  | un a =>
    simp only [Shape.all?] at h
    split at h <;> simp_all [Shape.toList]
  | bin a b =>
    simp only [Shape.all?] at h
    rcases ha : f a with _ | x
    · exact ⟨a, by simp [Shape.toList], ha⟩
    · rcases hb : f b with _ | y
      · exact ⟨b, by simp [Shape.toList], hb⟩
      · simp [ha, hb] at h

/-! ## The loop -/

def wF (g : Heap) : Nat → Nat → Nat
  | 0, _ => 0
  | n + 1, i => 1 + ((g.ups i).map (wF g n)).sum

def w (g : Heap) (i : Nat) : Nat := wF g (g.objs.length - i) i

def Users (g : Heap) : Prop := ∀ i p, p ∈ g.ups i → p < g.objs.length ∧ i ∈ g.kids p

theorem wF_eq {g : Heap} (o : Older g) (us : Users g) : ∀ k i n, i < g.objs.length → g.objs.length - i ≤ k →
    g.objs.length - i ≤ n → wF g n i = w g i := by
  intro k
  induction k with
  | zero => intro i n hi hk; omega
  | succ k ih =>
    intro i n hi hk hn
    obtain ⟨m, rfl⟩ : ∃ m, n = m + 1 := ⟨n - 1, by omega⟩
    obtain ⟨m', hm'⟩ : ∃ m', g.objs.length - i = m' + 1 := ⟨g.objs.length - i - 1, by omega⟩
    simp only [w, hm', wF]
    congr 2
    apply List.map_congr_left
    intro p hp
    obtain ⟨hpl, hik⟩ := us i p hp
    have := o p hpl i hik
    rw [ih p m hpl (by omega) (by omega), ih p m' hpl (by omega) (by omega)]

theorem w_eq {g : Heap} (o : Older g) (us : Users g) {i : Nat} (hi : i < g.objs.length) :
    w g i = 1 + ((g.ups i).map (w g)).sum := by
  obtain ⟨m', hm'⟩ : ∃ m', g.objs.length - i = m' + 1 := ⟨g.objs.length - i - 1, by omega⟩
  simp only [w, hm', wF]
  congr 2
  apply List.map_congr_left
  intro p hp
  obtain ⟨hpl, hik⟩ := us i p hp
  have := o p hpl i hik
  exact wF_eq o us _ p m' hpl (Nat.le_refl _) (by omega)

structure Inv (g : Heap) (r I : Nat) (f : Lab → Lab) (q : List Nat) (u : Upd) : Prop where
  keys : Keys g u
  queue : ∀ i ∈ q, i < g.objs.length
  vals : ∀ i c, i < g.objs.length → lookup g u i = some c → c = exp g I f i
  down : ∀ p, p < g.objs.length → (lookup g u p).isSome → ∀ c ∈ g.kids p, (lookup g u c).isSome
  wit : ∀ t, Below g r t → lookup g u t = none → ∃ j ∈ q, lookup g u j = none ∧ Below g t j

theorem inv_some {g : Heap} {r I : Nat} {f : Lab → Lab} {i : Nat} {q : List Nat} {u : Upd} (P : Proper g r)
    (h : Inv g r I f (i :: q) u) (hs : (lookup g u i).isSome) : Inv g r I f (q ++ g.ups i) u := by
  refine ⟨h.keys, ?_, h.vals, h.down, ?_⟩
  · intro j hj
    rcases List.mem_append.mp hj with hj | hj
    · exact h.queue j (List.mem_cons_of_mem _ hj)
    · exact (P.users i j hj).1
  · intro t ht hn
    obtain ⟨j, hj, hjn, hb⟩ := h.wit t ht hn
    rcases List.mem_cons.mp hj with rfl | hj
    · simp [hjn] at hs
    · exact ⟨j, List.mem_append_left _ hj, hjn, hb⟩

theorem inv_wait {g : Heap} {r I : Nat} {f : Lab → Lab} {i : Nat} {q : List Nat} {u : Upd} (P : Proper g r)
    (h : Inv g r I f (i :: q) u) {k : Nat} (hk : k ∈ g.kids i) (hkn : lookup g u k = none) :
    Inv g r I f (q ++ g.ups i) u := by
  have hi : i < g.objs.length := h.queue i (List.mem_cons_self ..)
  refine ⟨h.keys, ?_, h.vals, h.down, ?_⟩
  · intro j hj
    rcases List.mem_append.mp hj with hj | hj
    · exact h.queue j (List.mem_cons_of_mem _ hj)
    · exact (P.users i j hj).1
  · intro t ht hn
    obtain ⟨j, hj, hjn, hb⟩ := h.wit t ht hn
    rcases List.mem_cons.mp hj with rfl | hj
    · obtain ⟨j', hj', hjn', hb'⟩ := h.wit k (.step (ht.trans hb) hk) hkn
      have hlt := P.older j hi k hk
      have := below_le (P.older) (by omega) hb'
      rcases List.mem_cons.mp hj' with rfl | hj'
      · omega
      · exact ⟨j', List.mem_append_left _ hj', hjn', (Below.step hb hk).trans hb'⟩
    · exact ⟨j, List.mem_append_left _ hj, hjn, hb⟩

theorem inv_put {g : Heap} {r I : Nat} {f : Lab → Lab} {i : Nat} {q : List Nat} {u : Upd} (P : Proper g r)
    (h : Inv g r I f (i :: q) u) (hn : lookup g u i = none) (hk : ∀ k ∈ g.kids i, (lookup g u k).isSome) :
    Inv g r I f (q ++ g.ups i) (put g u i (exp g I f i)) := by
  have hi : i < g.objs.length := h.queue i (List.mem_cons_self ..)
  have lp := fun j (hj : j < g.objs.length) => lookup_put (g := g) P.distinct h.keys hi hj (exp g I f i)
  refine ⟨keys_put h.keys hi _, ?_, ?_, ?_, ?_⟩
  · intro j hj
    rcases List.mem_append.mp hj with hj | hj
    · exact h.queue j (List.mem_cons_of_mem _ hj)
    · exact (P.users i j hj).1
  · intro j c hj e
    rw [lp j hj] at e
    split at e
    · rename_i e'; subst e'; simpa using e.symm
    · exact h.vals j c hj e
  · intro p hp hs c hc
    have hcl := P.older p hp c hc
    rw [lp c (by omega)]
    rw [lp p hp] at hs
    split
    · rfl
    · split at hs
      · rename_i e; subst e; exact hk c hc
      · exact h.down p hp hs c hc
  · intro t ht htn
    have htl := below_le P.older P.root_lt ht
    rw [lp t htl.2] at htn
    split at htn
    · simp at htn
    rename_i hti
    obtain ⟨j, hj, hjn, hb⟩ := h.wit t ht htn
    have hjl := below_le P.older htl.2 hb
    by_cases hji : j = i
    · subst hji
      cases hb with
      | refl => exact absurd rfl hti
      | @step p _ hbp hkp =>
        have hpl := below_le P.older htl.2 hbp
        have hlt := P.older p hpl.2 j hkp
        refine ⟨p, List.mem_append_right _ (P.known p (ht.trans hbp) j hkp), ?_, hbp⟩
        rw [lp p hpl.2, if_neg (by omega)]
        rcases hlp : lookup g u p with _ | c
        · rfl
        · have := h.down p hpl.2 (by simp [hlp]) j hkp
          simp [hn] at this
    · refine ⟨j, List.mem_append_left _ ?_, ?_, hb⟩
      · rcases List.mem_cons.mp hj with e | hj
        · exact absurd e hji
        · exact hj
      · rw [lp j hjl.2, if_neg hji]; exact hjn

theorem sum_step {g : Heap} {r : Nat} (P : Proper g r) {i : Nat} (hi : i < g.objs.length) {q : List Nat} {n : Nat}
    (h : ((i :: q).map (w g)).sum ≤ n + 1) : ((q ++ g.ups i).map (w g)).sum ≤ n := by
  rw [List.map_cons, List.sum_cons, w_eq P.older P.users hi] at h
  rw [List.map_append, List.sum_append]
  omega

theorem loop_all {g : Heap} {r I : Nat} (P : Proper g r) (hI : Below g r I) (ord : List Nat → List Nat) (m : Nat)
    (args : List (String × Arg)) (ha : ∀ e ∈ args, ∀ i, e.2 ≠ .node i) :
    ∀ n q u ur ui, (q.map (w g)).sum ≤ n → Inv g r I (applyLab args) q u →
      ur = lookup g u r → ui = lookup g u I →
      copyLoop g ord m r I false args n q u ur ui =
        .done (some (exp g I (applyLab args) r), some (exp g I (applyLab args) I)) := by
  have hIl := (below_le P.older P.root_lt hI).2
  intro n
  induction n with
  | zero =>
    intro q u ur ui hw h hur hui
    cases q with
    | nil =>
      have hr : ∀ t, Below g r t → lookup g u t = some (exp g I (applyLab args) t) := by
        intro t ht
        rcases e : lookup g u t with _ | c
        · obtain ⟨j, hj, _⟩ := h.wit t ht e; simp at hj
        · rw [h.vals t c (below_le P.older P.root_lt ht).2 e]
      rw [hur, hui, hr r .refl, hr I hI]; simp only [copyLoop]
    | cons i q =>
      have hi := h.queue i (List.mem_cons_self ..)
      rw [List.map_cons, List.sum_cons, w_eq P.older P.users hi] at hw
      omega
  | succ n ih =>
    intro q u ur ui hw h hur hui
    cases q with
    | nil =>
      have hr : ∀ t, Below g r t → lookup g u t = some (exp g I (applyLab args) t) := by
        intro t ht
        rcases e : lookup g u t with _ | c
        · obtain ⟨j, hj, _⟩ := h.wit t ht e; simp at hj
        · rw [h.vals t c (below_le P.older P.root_lt ht).2 e]
      rw [hur, hui, hr r .refl, hr I hI]; simp only [copyLoop]
    | cons i q =>
      have hi := h.queue i (List.mem_cons_self ..)
      have hw' := sum_step P hi hw
      rw [copyLoop]
      rcases hl : lookup g u i with _ | c
      · simp only
        rcases hc : copyNode g u i with _ | c
        · simp only
          simp only [copyNode, Option.map_eq_none_iff] at hc
          obtain ⟨k, hk, hkn⟩ := all?_none _ hc
          exact ih _ _ _ _ hw' (inv_wait P h hk hkn) hur hui
        · simp only
          simp only [copyNode, Option.map_eq_some_iff] at hc
          obtain ⟨t, ht, rfl⟩ := hc
          have hv : ∀ a ∈ (g.obj i).kids.toList, ∀ b, lookup g u a = some b → b = exp g I (applyLab args) a := by
            intro a ha b hb
            have := P.older i hi a ha
            exact h.vals a b (by omega) hb
          obtain ⟨rfl, hks⟩ := all?_some _ hv ht
          have hput := inv_put P h hl hks
          have lp := fun j (hj : j < g.objs.length) =>
            lookup_put (g := g) P.distinct h.keys hi hj (exp g I (applyLab args) i)
          rw [eqv_iff P.distinct hi hIl, eqv_iff P.distinct hi P.root_lt]
          have ee := exp_eq P.older I (applyLab args) hi
          by_cases e : i = I
          · simp only [e, decide_true, if_true]
            rw [perform_plain g ord m args _ _ ha]
            simp only [Bool.false_eq_true, if_false]
            rw [if_pos e] at ee
            rw [e] at ee hput lp
            rw [← ee]
            rw [e] at hw'
            refine ih _ _ _ _ hw' hput ?_ ?_
            · rw [lp r P.root_lt]
              by_cases e2 : I = r
              · simp [e2]
              · have : r ≠ I := fun h => e2 h.symm
                simp [e2, this, hur]
            · rw [lp I hIl]; simp
          · simp only [e, decide_false, Bool.false_eq_true, if_false]
            rw [if_neg e] at ee
            rw [← ee]
            refine ih _ _ _ _ hw' hput ?_ ?_
            · rw [lp r P.root_lt]
              by_cases e2 : i = r
              · simp [e2]
              · have : r ≠ i := fun h => e2 h.symm
                simp [e2, this, hur]
            · have : I ≠ i := fun h => e h.symm
              rw [lp I hIl, if_neg this]; exact hui
      · simp only
        exact ih _ _ _ _ hw' (inv_some P h (by simp [hl])) hur hui

theorem loop_root {g : Heap} {r I : Nat} (P : Proper g r) (hI : Below g r I) (ord : List Nat → List Nat) (m : Nat)
    (args : List (String × Arg)) (ha : ∀ e ∈ args, ∀ i, e.2 ≠ .node i) :
    ∀ n q u ur ui, (q.map (w g)).sum ≤ n → Inv g r I (applyLab args) q u → lookup g u I = none →
      copyLoop g ord m r I true args n q u ur ui =
        .done (some (exp g I (applyLab args) I), some (exp g I (applyLab args) I)) := by
  have hIl := (below_le P.older P.root_lt hI).2
  intro n
  induction n with
  | zero =>
    intro q u ur ui hw h hui
    obtain ⟨j, hj, _⟩ := h.wit I hI hui
    cases q with
    | nil => simp at hj
    | cons i q =>
      have hi := h.queue i (List.mem_cons_self ..)
      rw [List.map_cons, List.sum_cons, w_eq P.older P.users hi] at hw
      omega
  | succ n ih =>
    intro q u ur ui hw h hui
    cases q with
    | nil => obtain ⟨j, hj, _⟩ := h.wit I hI hui; simp at hj
    | cons i q =>
      have hi := h.queue i (List.mem_cons_self ..)
      have hw' := sum_step P hi hw
      rw [copyLoop]
      rcases hl : lookup g u i with _ | c
      · simp only
        rcases hc : copyNode g u i with _ | c
        · simp only
          simp only [copyNode, Option.map_eq_none_iff] at hc
          obtain ⟨k, hk, hkn⟩ := all?_none _ hc
          exact ih _ _ _ _ hw' (inv_wait P h hk hkn) hui
        · simp only
          simp only [copyNode, Option.map_eq_some_iff] at hc
          obtain ⟨t, ht, rfl⟩ := hc
          have hv : ∀ a ∈ (g.obj i).kids.toList, ∀ b, lookup g u a = some b → b = exp g I (applyLab args) a := by
            intro a ha b hb
            have := P.older i hi a ha
            exact h.vals a b (by omega) hb
          obtain ⟨rfl, hks⟩ := all?_some _ hv ht
          have hput := inv_put P h hl hks
          have lp := fun j (hj : j < g.objs.length) =>
            lookup_put (g := g) P.distinct h.keys hi hj (exp g I (applyLab args) i)
          rw [eqv_iff P.distinct hi hIl]
          have ee := exp_eq P.older I (applyLab args) hi
          by_cases e : i = I
          · simp only [e, decide_true, if_true]
            rw [perform_plain g ord m args _ _ ha]
            simp only [if_true]
            rw [if_pos e] at ee
            rw [e] at ee
            rw [← ee]
          · simp only [e, decide_false, Bool.false_eq_true, if_false, Bool.not_true, Bool.false_and]
            rw [if_neg e] at ee
            rw [← ee]
            refine ih _ _ _ _ hw' hput ?_
            have : I ≠ i := fun h => e h.symm
            rw [lp I hIl, if_neg this]; exact hui
      · simp only
        exact ih _ _ _ _ hw' (inv_some P h (by simp [hl])) hui

/-! ## The start of the loop -/

theorem mem_setAdd {g : Heap} (d : Distinct g) {s : List Nat} (hs : ∀ j ∈ s, j < g.objs.length) {i : Nat}
    (hi : i < g.objs.length) {x : Nat} : x ∈ g.setAdd s i ↔ x ∈ s ∨ x = i := by
  unfold Heap.setAdd
  split
  · rename_i h
    obtain ⟨j, hj, hji⟩ := List.any_eq_true.mp h
    rw [same_iff d (hs j hj) hi] at hji
    simp at hji; subst hji
    constructor
    · exact Or.inl
    · rintro (h | rfl)
      · exact h
      · exact hj
  · simp

theorem mem_foldl_setAdd {g : Heap} (d : Distinct g) : ∀ (t s : List Nat), (∀ j ∈ s, j < g.objs.length) →
    (∀ j ∈ t, j < g.objs.length) → ∀ x, x ∈ t.foldl g.setAdd s ↔ x ∈ s ∨ x ∈ t := by
  intro t
  induction t with
  | nil => intro s _ _ x; simp
  | cons i t ih =>
    intro s hs ht x
    have hi := ht i (List.mem_cons_self ..)
    rw [List.foldl_cons, ih]
    · rw [mem_setAdd d hs hi]; simp; tauto
    · intro j hj
      rcases (mem_setAdd d hs hi).mp hj with h | rfl
      · exact hs j h
      · exact hi
    · exact fun j hj => ht j (List.mem_cons_of_mem _ hj)

theorem mem_leavesF {g : Heap} (d : Distinct g) (o : Older g) : ∀ n i, i < g.objs.length → i < n →
    ∀ x, x ∈ g.leavesF n i ↔ Below g i x ∧ g.kids x = [] := by
  intro n
  induction n with
  | zero => intro i _ h; omega
  | succ n ih =>
    intro i hi hn x
    have ho := o i hi
    rcases hk : (g.obj i).kids with _ | a | ⟨a, b⟩
    · have hki : g.kids i = [] := by simp [Heap.kids, hk, Shape.toList]
      simp only [Heap.leavesF, hk, List.mem_singleton]
      constructor
      · rintro rfl; exact ⟨.refl, hki⟩
      · rintro ⟨h, _⟩
        rcases below_head h with h | ⟨c, hc, _⟩
        · exact h.symm
        · simp [hki] at hc
    · have hki : g.kids i = [a] := by simp [Heap.kids, hk, Shape.toList]
      have hlt := ho a (by simp [hki])
      simp only [Heap.leavesF, hk]
      rw [ih a (by omega) (by omega)]
      constructor
      · rintro ⟨h, h'⟩; exact ⟨(Below.step .refl (by simp [hki])).trans h, h'⟩
      · rintro ⟨h, h'⟩
        refine ⟨?_, h'⟩
        rcases below_head h with rfl | ⟨c, hc, h⟩
        · simp [hki] at h'
        · simp [hki] at hc; subst hc; exact h
    · have hki : g.kids i = [a, b] := by simp [Heap.kids, hk, Shape.toList]
      have hlta := ho a (by simp [hki])
      have hltb := ho b (by simp [hki])
      simp only [Heap.leavesF, hk]
      have ma := ih a (by omega) (by omega)
      have mb := ih b (by omega) (by omega)
      rw [mem_foldl_setAdd d, ma, mb]
      · constructor
        · rintro (⟨h, h'⟩ | ⟨h, h'⟩)
          · exact ⟨(Below.step .refl (by simp [hki])).trans h, h'⟩
          · exact ⟨(Below.step .refl (by simp [hki])).trans h, h'⟩
        · rintro ⟨h, h'⟩
          rcases below_head h with rfl | ⟨c, hc, h⟩
          · simp [hki] at h'
          · simp [hki] at hc
            rcases hc with rfl | rfl
            · exact Or.inl ⟨h, h'⟩
            · exact Or.inr ⟨h, h'⟩
      · intro j hj; exact (below_le o (by omega) ((ma j).mp hj).1).2
      · intro j hj; exact (below_le o (by omega) ((mb j).mp hj).1).2

theorem has_leaf {g : Heap} (o : Older g) : ∀ i, i < g.objs.length → ∃ x, Below g i x ∧ g.kids x = [] := by
  intro i
  induction i using Nat.strongRecOn with
  | ind i ih =>
    intro hi
    rcases hk : g.kids i with _ | ⟨c, l⟩
    · exact ⟨i, .refl, hk⟩
    · have hc : c ∈ g.kids i := by simp [hk]
      have hlt := o i hi c hc
      obtain ⟨x, hx, hx'⟩ := ih c hlt (by omega)
      exact ⟨x, (Below.step .refl hc).trans hx, hx'⟩

theorem inv_init {g : Heap} {r : Nat} (P : Proper g r) (I : Nat) (f : Lab → Lab) {ord : List Nat → List Nat}
    (hord : ∀ l x, x ∈ ord l ↔ x ∈ l) : Inv g r I f (ord (g.leaves r)) [] := by
  have ml := mem_leavesF P.distinct P.older (r + 1) r P.root_lt (Nat.lt_succ_self _)
  refine ⟨?_, ?_, ?_, ?_, ?_⟩
  · intro e he; simp at he
  · intro i hi
    rw [hord] at hi
    exact (below_le P.older P.root_lt ((ml i).mp hi).1).2
  · intro i c _ h; simp [lookup] at h
  · intro p _ h; simp [lookup] at h
  · intro t ht _
    have htl := below_le P.older P.root_lt ht
    obtain ⟨x, hx, hx'⟩ := has_leaf P.older t htl.2
    exact ⟨x, (hord _ _).mpr ((ml x).mpr ⟨ht.trans hx, hx'⟩), by simp [lookup], hx⟩

theorem rootF_below {g : Heap} (us : Users g) : ∀ n i, Below g (g.rootF n i) i := by
  intro n
  induction n with
  | zero => intro i; exact .refl
  | succ n ih =>
    intro i
    rw [Heap.rootF]
    rcases hp : g.parent i with _ | p
    · exact .refl
    · have : p ∈ g.ups i := by simp [Heap.ups, hp]
      exact .step (ih p) (us i p this).2

/-! ## What the copies contain -/

theorem subst_mk (old new : Term) (l : Lab) (s : Shape Term) :
    subst old new (mkTerm l s) = if mkTerm l s = old then new else mkTerm l (s.map (subst old new)) := by
  cases s <;> rfl

theorem term_mk (l : Lab) (h : Term) (s : Shape Clone) : (mkClone l h s).term = mkTerm l (s.map Clone.term) := by
  cases s <;> rfl

theorem term_relab (f : Lab → Lab) (c : Clone) : (Clone.relab f c).term = relabel f c.term := by
  cases c <;> rfl

theorem hash_relab (f : Lab → Lab) (c : Clone) : (Clone.relab f c).hash = c.hash := by
  cases c <;> rfl

theorem hash_mk (l : Lab) (h : Term) (s : Shape Clone) : (mkClone l h s).hash = h := by
  cases s <;> rfl

theorem exp_below {g : Heap} (o : Older g) (I : Nat) (f : Lab → Lab) : ∀ i, i < g.objs.length → i < I →
    (exp g I f i).term = g.content i := by
  intro i
  induction i using Nat.strongRecOn with
  | ind i ih =>
    intro hi hlt
    rw [exp_eq o I f hi, if_neg (by omega), term_mk, map_map, content_eq o hi]
    congr 1
    apply map_congr
    intro a ha
    have := o i hi a ha
    exact ih a this (by omega) (by omega)

theorem exp_init {g : Heap} (o : Older g) (I : Nat) (f : Lab → Lab) (hI : I < g.objs.length) :
    (exp g I f I).term = relabel f (g.content I) := by
  rw [exp_eq o I f hI, if_pos rfl, term_relab, term_mk, map_map, content_eq o hI]
  congr 2
  apply map_congr
  intro a ha
  have := o I hI a ha
  exact exp_below o I f a (by omega) this

theorem exp_term {g : Heap} (o : Older g) (d : Distinct g) (I : Nat) (f : Lab → Lab) (hI : I < g.objs.length) :
    ∀ i, i < g.objs.length → (exp g I f i).term = subst (g.content I) (relabel f (g.content I)) (g.content i) := by
  intro i
  induction i using Nat.strongRecOn with
  | ind i ih =>
    intro hi
    by_cases e : i = I
    · subst e
      rw [exp_init o i f hi]
      generalize relabel f (g.content i) = nw
      rw [content_eq o hi, subst_mk, if_pos rfl]
    · have hne : g.content i ≠ g.content I := fun h => e (d i I hi hI h)
      rw [exp_eq o I f hi, if_neg e, term_mk, map_map, content_eq o hi, subst_mk, if_neg, map_map]
      · congr 1
        apply map_congr
        intro a ha
        have := o i hi a ha
        exact ih a this (by omega)
      · rw [← content_eq o hi]; exact hne

theorem exp_hash {g : Heap} (o : Older g) (I : Nat) (f : Lab → Lab) {i : Nat} (hi : i < g.objs.length) :
    (exp g I f i).hash = g.hash i := by
  rw [exp_eq o I f hi]
  split
  · rw [hash_relab, hash_mk]
  · rw [hash_mk]

theorem rehash_mk (l : Lab) (h : Term) (s : Shape Clone) :
    (mkClone l h s).rehash.hash = mkTerm l (s.map Clone.hash) := by
  cases s <;> rfl

theorem rehash_relab (f : Lab → Lab) (c : Clone) : (Clone.relab f c).rehash.hash = relabel f c.rehash.hash := by
  cases c <;> rfl

theorem term_rehash (c : Clone) : c.rehash.term = c.term := by
  induction c with
  | leaf l h => rfl
  | un l h a ih => simp [Clone.rehash, Clone.term, ih]
  | bin l h a b iha ihb => simp [Clone.rehash, Clone.term, iha, ihb]

theorem exp_rehash {g : Heap} {r : Nat} (P : Proper g r) (I : Nat) (f : Lab → Lab) {i : Nat} (hi : i < g.objs.length) :
    (exp g I f i).rehash.hash = if i = I then relabel f (g.content i) else g.content i := by
  have hm : ((g.obj i).kids.map (exp g I f)).map Clone.hash = (g.obj i).kids.map g.content := by
    rw [map_map]
    apply map_congr
    intro a ha
    have := P.older i hi a ha
    rw [exp_hash P.older I f (by omega), P.hashed a (by omega)]
  rw [exp_eq P.older I f hi]
  split
  · rw [rehash_relab, rehash_mk, hm, ← content_eq P.older hi]
  · rw [rehash_mk, hm, ← content_eq P.older hi]

/-! ## The original tree afterwards -/

theorem content_congr {g h : Heap} (e : g.objs = h.objs) : g.content = h.content := by
  have : ∀ n i, g.contentF n i = h.contentF n i := by
    intro n
    induction n with
    | zero => intro i; rfl
    | succ n ih =>
      intro i
      have hf : g.contentF n = h.contentF n := funext ih
      simp only [Heap.contentF, Heap.obj, e, hf]
  funext i
  exact this _ _

theorem kids_congr {g h : Heap} (e : g.objs = h.objs) : g.kids = h.kids := by
  funext i; simp only [Heap.kids, Heap.obj, e]

theorem below_congr {g h : Heap} (e : g.objs = h.objs) {a b : Nat} (hb : Below g a b) : Below h a b := by
  induction hb with
  | refl => exact .refl
  | step _ hk ih => exact .step ih (by rw [← kids_congr e]; exact hk)

/-- Same nodes and hash values, possibly other links. -/
structure Alike (g h : Heap) : Prop where
  objs : g.objs = h.objs
  hash : g.hash = h.hash

theorem Alike.trans {a b c : Heap} (x : Alike a b) (y : Alike b c) : Alike a c :=
  ⟨x.objs.trans y.objs, x.hash.trans y.hash⟩

theorem foldl_ind {α β} (R : β → Prop) (f : β → α → β) : ∀ (l : List α) (b : β), R b → (∀ b, ∀ a ∈ l, R b → R (f b a)) →
    R (l.foldl f b) := by
  intro l
  induction l with
  | nil => intro b h _; exact h
  | cons a l ih =>
    intro b h hs
    exact ih _ (hs b a (List.mem_cons_self ..) h) (fun b x hx => hs b x (List.mem_cons_of_mem _ hx))

theorem clear_alike : ∀ n i (g : Heap), Alike g (Heap.clearF n i g) := by
  intro n
  induction n with
  | zero => intro i g; exact ⟨rfl, rfl⟩
  | succ n ih =>
    intro i g
    rw [Heap.clearF]
    refine foldl_ind (fun h => Alike g h) _ _ _ ⟨rfl, rfl⟩ ?_
    intro h c _ hh
    exact hh.trans (ih c h)

/-- Clearing touches nothing but removes links. -/
theorem clear_keep : ∀ n i (g : Heap) j, (Heap.clearF n i g).ups j = [] ∨ (Heap.clearF n i g).ups j = g.ups j := by
  intro n
  induction n with
  | zero => intro i g j; exact Or.inr rfl
  | succ n ih =>
    intro i g j
    rw [Heap.clearF]
    refine foldl_ind (fun h : Heap => h.ups j = [] ∨ h.ups j = g.ups j) _ _ _ ?_ ?_
    · by_cases e : j = i
      · left; simp [Heap.ups, Heap.unlink, e]
      · right; simp [Heap.ups, Heap.unlink, e]
    · intro h c _ hh
      rcases ih c h j with h' | h'
      · exact Or.inl h'
      · rw [h']; exact hh

theorem clear_empty (n i : Nat) (g : Heap) {j : Nat} (h : g.ups j = []) : (Heap.clearF n i g).ups j = [] := by
  rcases clear_keep n i g j with h' | h'
  · exact h'
  · rw [h', h]

theorem foldl_clear_empty (n : Nat) (l : List Nat) (g : Heap) {j : Nat} (h : g.ups j = []) :
    (l.foldl (fun g c => Heap.clearF n c g) g).ups j = [] :=
  foldl_ind (fun g : Heap => g.ups j = []) _ _ _ h (fun g c _ hg => clear_empty n c g hg)

theorem clear_below : ∀ n i (g : Heap), Older g → i < g.objs.length → i < n → ∀ j, Below g i j →
    (Heap.clearF n i g).ups j = [] := by
  intro n
  induction n with
  | zero => intro i g _ _ h; omega
  | succ n ih =>
    intro i g o hi hn j hj
    rw [Heap.clearF]
    rcases below_head hj with rfl | ⟨c, hc, hb⟩
    · apply foldl_clear_empty; simp [Heap.ups, Heap.unlink]
    · have hlt := o i hi c hc
      have ho : g.objs = (Heap.unlink i g).objs := rfl
      generalize Heap.unlink i g = g0 at ho ⊢
      obtain ⟨l1, l2, hl⟩ := List.append_of_mem hc
      rw [hl, List.foldl_append, List.foldl_cons]
      apply foldl_clear_empty
      have ha : Alike g0 (l1.foldl (fun g c => Heap.clearF n c g) g0) :=
        foldl_ind (fun h => Alike g0 h) _ _ _ ⟨rfl, rfl⟩ (fun h x _ hh => hh.trans (clear_alike n x h))
      generalize l1.foldl (fun g c => Heap.clearF n c g) g0 = g1 at ha ⊢
      have e1 : g.objs = g1.objs := ho.trans ha.objs
      refine ih c g1 ?_ (by rw [← e1]; omega) (by omega) j (below_congr e1 hb)
      intro x hx k hk
      rw [← kids_congr e1] at hk
      exact o x (by rw [e1]; exact hx) k hk

/-! Linking -/

theorem link_alike (i : Nat) (g : Heap) (c : Nat) : Alike g (Heap.link i g c) := by
  unfold Heap.link; split <;> exact ⟨rfl, rfl⟩

theorem foldl_link_alike (i : Nat) (l : List Nat) (g : Heap) : Alike g (l.foldl (Heap.link i) g) :=
  foldl_ind (fun h => Alike g h) _ _ _ ⟨rfl, rfl⟩ (fun h x _ hh => hh.trans (link_alike i h x))

def Tidy (g : Heap) : Prop := ∀ c, g.parent c = none → g.side c = []

theorem link_tidy (i : Nat) (g : Heap) (c : Nat) (t : Tidy g) : Tidy (Heap.link i g c) := by
  unfold Heap.link
  rcases hp : g.parent c with _ | q
  · intro x h
    by_cases e : x = c
    · subst e; simp at h
    · simp only [e, if_false] at h; exact t x h
  · intro x h
    by_cases e : x = c
    · subst e; simp [hp] at h
    · simp only [e, if_false]; exact t x h

theorem foldl_link_tidy (i : Nat) (l : List Nat) (g : Heap) (t : Tidy g) : Tidy (l.foldl (Heap.link i) g) :=
  foldl_ind (fun h => Tidy h) _ _ _ t (fun h x _ hh => link_tidy i h x hh)

theorem maintain_tidy : ∀ n i (g : Heap), Tidy g → Tidy (Heap.maintainF n i g) := by
  intro n
  induction n with
  | zero => intro i g t; exact t
  | succ n ih =>
    intro i g t
    rw [Heap.maintainF]
    exact foldl_ind (fun h => Tidy h) _ _ _ (foldl_link_tidy i _ g t) (fun h c _ hh => ih c h hh)

theorem clear_tidy : ∀ n i (g : Heap), Tidy g → Tidy (Heap.clearF n i g) := by
  intro n
  induction n with
  | zero => intro i g t; exact t
  | succ n ih =>
    intro i g t
    rw [Heap.clearF]
    refine foldl_ind (fun h => Tidy h) _ _ _ ?_ (fun h c _ hh => ih c h hh)
    intro c h
    by_cases e : c = i
    · simp [Heap.unlink, e]
    · simp only [Heap.unlink, e, if_false] at h ⊢; exact t c h

def Bounded (g : Heap) : Prop := ∀ c p, p ∈ g.ups c → p < g.objs.length

theorem link_mem {i : Nat} {g : Heap} (d : Distinct g) (b : Bounded g) (hi : i < g.objs.length) (c x p : Nat) :
    p ∈ (Heap.link i g c).ups x ↔ p ∈ g.ups x ∨ (x = c ∧ p = i) := by
  unfold Heap.link
  rcases hp : g.parent c with _ | q
  · by_cases e : x = c
    · subst e
      simp only [Heap.ups, hp, if_true, Option.toList, List.mem_append, List.mem_singleton, List.not_mem_nil, true_and]
      tauto
    · simp [Heap.ups, e]
  · by_cases e : x = c
    · subst e
      simp only [Heap.ups, hp, if_true, Option.toList, List.mem_append, List.mem_singleton, true_and]
      have hb : ∀ j ∈ g.side x, j < g.objs.length := fun j hj => b x j (List.mem_append_right _ hj)
      have := mem_setAdd (g := g) d hb hi (x := p)
      rw [this]; tauto
    · simp [Heap.ups, e]

theorem foldl_link_mem {i : Nat} : ∀ (l : List Nat) (g : Heap), Distinct g → Bounded g → i < g.objs.length → ∀ x p,
    (p ∈ (l.foldl (Heap.link i) g).ups x ↔ p ∈ g.ups x ∨ (x ∈ l ∧ p = i)) := by
  intro l
  induction l with
  | nil => intro g _ _ _ x p; simp
  | cons c l ih =>
    intro g d b hi x p
    have e := (link_alike i g c).objs
    rw [List.foldl_cons, ih]
    · rw [link_mem d b hi]; simp; tauto
    · intro a a' h1 h2 h3
      rw [← content_congr e] at h3
      exact d a a' (by rw [e]; exact h1) (by rw [e]; exact h2) h3
    · intro y q hq
      rw [← e]
      rcases (link_mem d b hi c y q).mp hq with h | h
      · exact b y q h
      · rw [h.2]; exact hi
    · rw [← e]; exact hi

theorem maintain_alike : ∀ n i (g : Heap), Alike g (Heap.maintainF n i g) := by
  intro n
  induction n with
  | zero => intro i g; exact ⟨rfl, rfl⟩
  | succ n ih =>
    intro i g
    rw [Heap.maintainF]
    exact foldl_ind (fun h => Alike g h) _ _ _ (foldl_link_alike i _ g) (fun h c _ hh => hh.trans (ih c h))

theorem distinct_congr {g h : Heap} (e : g.objs = h.objs) (d : Distinct g) : Distinct h := by
  intro a a' h1 h2 h3
  rw [← content_congr e] at h3
  exact d a a' (by rw [e]; exact h1) (by rw [e]; exact h2) h3

theorem older_congr {g h : Heap} (e : g.objs = h.objs) (o : Older g) : Older h := by
  intro x hx k hk
  rw [← kids_congr e] at hk
  exact o x (by rw [e]; exact hx) k hk

theorem maintain_mem : ∀ n i (g : Heap), Distinct g → Older g → Bounded g → i < g.objs.length → i < n → ∀ x p,
    (p ∈ (Heap.maintainF n i g).ups x ↔ p ∈ g.ups x ∨ (Below g i p ∧ x ∈ g.kids p)) := by
  intro n
  induction n with
  | zero => intro i g _ _ _ _ h; omega
  | succ n ih =>
    intro i g d o b hi hn
    have aux : ∀ (l : List Nat) (h : Heap), g.objs = h.objs → Bounded h → (∀ c ∈ l, c ∈ g.kids i) → ∀ x p,
        (p ∈ (l.foldl (fun g c => Heap.maintainF n c g) h).ups x ↔
          p ∈ h.ups x ∨ (∃ c ∈ l, Below g c p) ∧ x ∈ g.kids p) := by
      intro l
      induction l with
      | nil => intro h _ _ _ x p; simp
      | cons c l ihl =>
        intro h e bh hl x p
        have hc := hl c (List.mem_cons_self ..)
        have hlt := o i hi c hc
        have m := ih c h (distinct_congr e d) (older_congr e o) bh (by rw [← e]; omega) (by omega)
        have e' := (maintain_alike n c h).objs
        rw [List.foldl_cons, ihl _ (e.trans e') ?_ (fun y hy => hl y (List.mem_cons_of_mem _ hy)), m x p]
        · rw [← kids_congr e]
          constructor
          · rintro ((h1 | ⟨h1, h2⟩) | ⟨⟨y, hy, h1⟩, h2⟩)
            · exact Or.inl h1
            · exact Or.inr ⟨⟨c, List.mem_cons_self .., below_congr e.symm h1⟩, h2⟩
            · exact Or.inr ⟨⟨y, List.mem_cons_of_mem _ hy, h1⟩, h2⟩
          · rintro (h1 | ⟨⟨y, hy, h1⟩, h2⟩)
            · exact Or.inl (Or.inl h1)
            · rcases List.mem_cons.mp hy with rfl | hy
              · exact Or.inl (Or.inr ⟨below_congr e h1, h2⟩)
              · exact Or.inr ⟨⟨y, hy, h1⟩, h2⟩
        · intro y q hq
          rw [← e', ← e]
          rcases (m y q).mp hq with h1 | ⟨h1, _⟩
          · have := bh y q h1; rw [← e] at this; exact this
          · exact (below_le o (by omega) (below_congr e.symm h1)).2
    intro x p
    rw [Heap.maintainF]
    have fm := foldl_link_mem (g.kids i) g d b hi
    have e0 := (foldl_link_alike i (g.kids i) g).objs
    rw [aux _ _ e0 ?_ (fun c hc => hc), fm x p]
    · constructor
      · rintro ((h | ⟨h1, rfl⟩) | ⟨⟨c, hc, h1⟩, h2⟩)
        · exact Or.inl h
        · exact Or.inr ⟨.refl, h1⟩
        · exact Or.inr ⟨(Below.step .refl hc).trans h1, h2⟩
      · rintro (h | ⟨h1, h2⟩)
        · exact Or.inl (Or.inl h)
        · rcases below_head h1 with rfl | ⟨c, hc, h3⟩
          · exact Or.inl (Or.inr ⟨h2, rfl⟩)
          · exact Or.inr ⟨⟨c, hc, h3⟩, h2⟩
    · intro y q hq
      rw [← e0]
      rcases (fm y q).mp hq with h1 | ⟨_, rfl⟩
      · exact b y q h1
      · exact hi

/-! Hashing -/

structure Fixed (g h : Heap) : Prop where
  objs : g.objs = h.objs
  parent : g.parent = h.parent
  side : g.side = h.side
  hash : ∀ i, i < h.objs.length → h.hash i = h.content i

theorem rehash_fixed : ∀ n i (g h : Heap), Older g → i < g.objs.length → Fixed g h → Fixed g (Heap.rehashF n i h) := by
  intro n
  induction n with
  | zero => intro i g h _ _ f; exact f
  | succ n ih =>
    intro i g h o hi f
    have oh := older_congr f.objs o
    have hih : i < h.objs.length := by rw [← f.objs]; exact hi
    rw [Heap.rehashF]
    refine foldl_ind (fun h => Fixed g h) _ _ _ ?_ ?_
    · refine ⟨f.objs, f.parent, f.side, ?_⟩
      intro j hj
      have hj' : j < h.objs.length := hj
      have hc : Heap.content ({ h with hash := fun j => if j = i then mkTerm (h.obj i).lab ((h.obj i).kids.map h.hash) else h.hash j } : Heap) = h.content :=
        content_congr rfl
      rw [hc]
      show (if j = i then mkTerm (h.obj i).lab ((h.obj i).kids.map h.hash) else h.hash j) = h.content j
      split
      · rename_i e; subst e
        rw [content_eq oh hj']
        congr 1
        apply map_congr
        intro a ha
        have := oh j hj' a ha
        exact f.hash a (by omega)
      · exact f.hash j hj'
    · intro h' c hc f'
      have hc' : c ∈ g.kids i := by rw [kids_congr f.objs]; exact hc
      have := o i hi c hc'
      exact ih c g h' o (by omega) f'

theorem refresh_proper {g : Heap} {r : Nat} (P : Proper g r) :
    Proper (g.refresh r) r ∧ (g.refresh r).objs = g.objs ∧
      (∀ c p, p ∈ (g.refresh r).ups c ↔ (Below g r p ∧ c ∈ g.kids p) ∨ (p ∈ g.ups c ∧ ¬ Below g r c)) := by
  have a1 := clear_alike (r + 1) r g
  have hcb := clear_below (r + 1) r g P.older P.root_lt (Nat.lt_succ_self _)
  have hck := clear_keep (r + 1) r g
  have hcn : ∀ j, ¬ Below g r j → (Heap.clearF (r + 1) r g).ups j = g.ups j := by
    have : ∀ n i (h : Heap), g.objs = h.objs → Below g r i → ∀ j, ¬ Below g r j → (Heap.clearF n i h).ups j = h.ups j := by
      intro n
      induction n with
      | zero => intro i h _ _ j _; rfl
      | succ n ih =>
        intro i h e hi j hj
        rw [Heap.clearF]
        have hji : j ≠ i := fun e => hj (e ▸ hi)
        refine (foldl_ind (fun x : Heap => Alike h x ∧ x.ups j = h.ups j) _ _ _ ?_ ?_).2
        · exact ⟨⟨rfl, rfl⟩, by simp [Heap.ups, Heap.unlink, hji]⟩
        · intro x c hc hx
          refine ⟨hx.1.trans (clear_alike n c x), ?_⟩
          rw [ih c x (e.trans hx.1.objs) (.step hi (by rw [kids_congr e]; exact hc)) j hj, hx.2]
    exact this (r + 1) r g rfl .refl
  have t1 := clear_tidy (r + 1) r g P.first
  generalize hg1 : Heap.clearF (r + 1) r g = g1 at t1 a1 hcb hck hcn
  have e1 := a1.objs
  have b1 : Bounded g1 := by
    intro c p hp
    rw [← e1]
    rcases hck c with h | h
    · rw [h] at hp; simp at hp
    · rw [h] at hp; exact (P.users c p hp).1
  have mm := maintain_mem (r + 1) r g1 (distinct_congr e1 P.distinct) (older_congr e1 P.older) b1
    (by rw [← e1]; exact P.root_lt) (Nat.lt_succ_self _)
  have a2 := maintain_alike (r + 1) r g1
  have t2 := maintain_tidy (r + 1) r g1 t1
  generalize hg2 : Heap.maintainF (r + 1) r g1 = g2 at t2 mm a2
  have e2 : g.objs = g2.objs := e1.trans a2.objs
  have f := rehash_fixed (r + 1) r g2 g2 (older_congr e2 P.older) (by rw [← e2]; exact P.root_lt)
    ⟨rfl, rfl, rfl, by
      intro i hi
      have hh : g2.hash = g.hash := (a1.trans a2).hash.symm
      rw [hh, ← content_congr e2]
      exact P.hashed i (by rw [e2]; exact hi)⟩
  have hre : g.refresh r = Heap.rehashF (r + 1) r g2 := by rw [Heap.refresh, hg1, hg2]
  rw [← hre] at f
  have e3 : g.objs = (g.refresh r).objs := e2.trans f.objs
  have hups : ∀ c p, p ∈ (g.refresh r).ups c ↔ (Below g r p ∧ c ∈ g.kids p) ∨ (p ∈ g.ups c ∧ ¬ Below g r c) := by
    intro c p
    have : (g.refresh r).ups c = g2.ups c := by simp only [Heap.ups, f.parent, f.side]
    rw [this, mm c p, ← kids_congr e1]
    constructor
    · rintro (h | ⟨h1, h2⟩)
      · by_cases hb : Below g r c
        · rw [hcb c hb] at h; simp at h
        · rw [hcn c hb] at h; exact Or.inr ⟨h, hb⟩
      · exact Or.inl ⟨below_congr e1.symm h1, h2⟩
    · rintro (⟨h1, h2⟩ | ⟨h1, h2⟩)
      · exact Or.inr ⟨below_congr e1 h1, h2⟩
      · rw [hcn c h2]; exact Or.inl h1
  refine ⟨?_, e3.symm, hups⟩
  refine ⟨by rw [← e3]; exact P.root_lt, older_congr e3 P.older, distinct_congr e3 P.distinct, ?_, ?_, ?_, f.hash⟩
  · intro i p hp
    rw [← kids_congr e3, ← e3]
    rcases (hups i p).mp hp with ⟨h1, h2⟩ | ⟨h1, _⟩
    · exact ⟨(below_le P.older P.root_lt h1).2, h2⟩
    · exact P.users i p h1
  · intro p hp c hc
    rw [← kids_congr e3] at hc
    exact (hups c p).mpr (Or.inl ⟨below_congr e3.symm hp, hc⟩)
  · rw [← f.parent, ← f.side]; exact t2

theorem refresh_root {g : Heap} {r : Nat} (P : Proper g r) {i : Nat} (hi : Below g r i) : (g.refresh r).root i = r := by
  obtain ⟨P', e, hups⟩ := refresh_proper P
  have key : ∀ n j, Below g r j → r - j ≤ n → (g.refresh r).rootF n j = r := by
    intro n
    induction n with
    | zero =>
      intro j hj hn
      have := below_le P.older P.root_lt hj
      simp only [Heap.rootF]; omega
    | succ n ih =>
      intro j hj hn
      have hjl := below_le P.older P.root_lt hj
      rw [Heap.rootF]
      rcases hp : (g.refresh r).parent j with _ | p
      · simp only
        by_contra hne
        have hs := P'.first j hp
        have hu : (g.refresh r).ups j = [] := by simp [Heap.ups, hp, hs]
        cases hj with
        | refl => exact hne rfl
        | @step p _ hb hk =>
          have := (hups j p).mpr (Or.inl ⟨hb, hk⟩)
          rw [hu] at this; simp at this
      · simp only
        have hm : p ∈ (g.refresh r).ups j := by simp [Heap.ups, hp]
        rcases (hups j p).mp hm with ⟨hb, hk⟩ | ⟨_, hn'⟩
        · have hpl := below_le P.older P.root_lt hb
          have := P.older p hpl.2 j hk
          exact ih p hb (by omega)
        · exact absurd hj hn'
  apply key _ i hi
  rw [e]
  have := P.root_lt
  omega

/-! ## Creating nodes -/

/-- All nodes of a heap know who uses them. -/
structure Built (g : Heap) : Prop where
  older : ∀ i, i < g.objs.length → ∀ c ∈ g.kids i, c < i
  distinct : ∀ i j, i < g.objs.length → j < g.objs.length → g.content i = g.content j → i = j
  users : ∀ i p, p ∈ g.ups i ↔ p < g.objs.length ∧ i ∈ g.kids p
  first : ∀ c, g.parent c = none → g.side c = []
  hashed : ∀ i, i < g.objs.length → g.hash i = g.content i

theorem built_proper {g : Heap} (b : Built g) {r : Nat} (h : r < g.objs.length) : Proper g r where
  root_lt := h
  older := b.older
  distinct := b.distinct
  users := fun i p hp => (b.users i p).mp hp
  known := fun p hp c hc => (b.users c p).mpr ⟨(below_le b.older h hp).2, hc⟩
  first := b.first
  hashed := b.hashed

theorem built_empty : Built Heap.empty := by
  refine ⟨?_, ?_, ?_, ?_, ?_⟩ <;> intro i
  · intro h; simp [Heap.empty] at h
  · intro j h; simp [Heap.empty] at h
  · intro p; simp [Heap.empty, Heap.ups]
  · intro _; rfl
  · intro h; simp [Heap.empty] at h

theorem obj_alloc_lt (g : Heap) (o : Obj) {i : Nat} (h : i < g.objs.length) : (g.alloc o).obj i = g.obj i := by
  simp [Heap.obj, Heap.alloc, List.getD, List.getElem?_append_left h]

theorem obj_alloc_new (g : Heap) (o : Obj) : (g.alloc o).obj g.objs.length = o := by
  simp [Heap.obj, Heap.alloc, List.getD]

theorem new_built {g : Heap} (b : Built g) (o : Obj) (hk : ∀ c ∈ o.kids.toList, c < g.objs.length)
    (hn : ∀ j, j < g.objs.length → g.content j ≠ mkTerm o.lab (o.kids.map g.content)) :
    Built (g.new o) ∧ (g.new o).objs = g.objs ++ [o] ∧
      (∀ i, i < g.objs.length → (g.new o).content i = g.content i) ∧
      (g.new o).content g.objs.length = mkTerm o.lab (o.kids.map g.content) := by
  have hlen : (g.alloc o).objs.length = g.objs.length + 1 := by simp [Heap.alloc]
  have kl : ∀ i, i < g.objs.length → (g.alloc o).kids i = g.kids i := by
    intro i hi; simp only [Heap.kids, obj_alloc_lt g o hi]
  have kn : (g.alloc o).kids g.objs.length = o.kids.toList := by
    simp only [Heap.kids, obj_alloc_new]
  have ol : Older (g.alloc o) := by
    intro i hi c hc
    rw [hlen] at hi
    rcases Nat.lt_or_eq_of_le (Nat.le_of_lt_succ hi) with h | h
    · rw [kl i h] at hc; exact b.older i h c hc
    · subst h; rw [kn] at hc; exact hk c hc
  have cl : ∀ i, i < g.objs.length → (g.alloc o).content i = g.content i := by
    intro i
    induction i using Nat.strongRecOn with
    | ind i ih =>
      intro hi
      rw [content_eq ol (by omega), content_eq b.older hi, obj_alloc_lt g o hi]
      congr 1
      apply map_congr
      intro a ha
      have := b.older i hi a ha
      exact ih a this (by omega)
  have cn : (g.alloc o).content g.objs.length = mkTerm o.lab (o.kids.map g.content) := by
    rw [content_eq ol (by omega), obj_alloc_new]
    congr 1
    apply map_congr
    intro a ha
    exact cl a (hk a ha)
  have da : Distinct (g.alloc o) := by
    intro i j hi hj h
    rw [hlen] at hi hj
    rcases Nat.lt_or_eq_of_le (Nat.le_of_lt_succ hi) with h1 | h1 <;>
      rcases Nat.lt_or_eq_of_le (Nat.le_of_lt_succ hj) with h2 | h2
    · rw [cl i h1, cl j h2] at h; exact b.distinct i j h1 h2 h
    · subst h2; rw [cl i h1, cn] at h; exact absurd h (hn i h1)
    · subst h1; rw [cl j h2, cn] at h; exact absurd h.symm (hn j h2)
    · omega
  have noups : ∀ c p, p ∈ (g.alloc o).ups c → p ∈ g.ups c ∧ c ≠ g.objs.length := by
    intro c p hp
    by_cases e : c = g.objs.length
    · simp [Heap.ups, Heap.alloc, e] at hp
    · simp only [Heap.ups, Heap.alloc, e, if_false] at hp
      exact ⟨hp, e⟩
  have ba : Bounded (g.alloc o) := by
    intro c p hp
    have := ((b.users c p).mp (noups c p hp).1).1
    omega
  have fm := foldl_link_mem (i := g.objs.length) o.kids.toList (g.alloc o) da ba (by omega)
  have al := foldl_link_alike g.objs.length o.kids.toList (g.alloc o)
  have e : (g.alloc o).objs = (g.new o).objs := al.objs
  have fa : ∀ c, (g.alloc o).parent c = none → (g.alloc o).side c = [] := by
    intro c h
    by_cases e : c = g.objs.length
    · simp [Heap.alloc, e]
    · simp only [Heap.alloc, e, if_false] at h ⊢; exact b.first c h
  refine ⟨⟨older_congr e ol, distinct_congr e da, ?_, foldl_link_tidy _ _ _ fa, ?_⟩, ?_, ?_, ?_⟩
  · intro i p
    have hm : p ∈ (g.new o).ups i ↔ p ∈ (g.alloc o).ups i ∨ (i ∈ o.kids.toList ∧ p = g.objs.length) := fm i p
    rw [hm, ← kids_congr e, ← e, hlen]
    constructor
    · rintro (h | ⟨h, rfl⟩)
      · have := (b.users i p).mp (noups i p h).1
        exact ⟨by omega, by rw [kl p this.1]; exact this.2⟩
      · exact ⟨by omega, by rw [kn]; exact h⟩
    · rintro ⟨h1, h2⟩
      rcases Nat.lt_or_eq_of_le (Nat.le_of_lt_succ h1) with h | h
      · left
        rw [kl p h] at h2
        have hlt := b.older p h i h2
        have := (b.users i p).mpr ⟨h, h2⟩
        have hne : i ≠ g.objs.length := by omega
        simpa [Heap.ups, Heap.alloc, hne] using this
      · subst h; rw [kn] at h2; exact Or.inr ⟨h2, rfl⟩
  · intro i hi
    have hh : (g.alloc o).hash = (g.new o).hash := al.hash
    rw [← hh, ← content_congr e]
    rw [← e, hlen] at hi
    rcases Nat.lt_or_eq_of_le (Nat.le_of_lt_succ hi) with h | h
    · have hne : i ≠ g.objs.length := by omega
      rw [cl i h, ← b.hashed i h]
      simp [Heap.alloc, hne]
    · subst h
      rw [cn]
      simp only [Heap.alloc, if_true]
      congr 1
      apply map_congr
      intro a ha
      exact b.hashed a (hk a ha)
  · rw [← e]; rfl
  · intro i hi; rw [← content_congr e]; exact cl i hi
  · rw [← content_congr e]; exact cn

/-! ## C232: `mutate` -/

/-- The order in which a set is iterated does not matter. -/
def Iterates (ord : List Nat → List Nat) : Prop := ∀ l x, x ∈ ord l ↔ x ∈ l

theorem mutate_eq {g : Heap} {ord : List Nat → List Nat} {i : Nat} {args : List (String × Arg)}
    (P : Proper g (g.root i)) (ho : Iterates ord) (hp : Plain args) (asRoot : Bool) :
    ∃ n, ∀ fuel, n ≤ fuel → mutate g ord fuel i asRoot args =
      .done ⟨(exp g i (edited args) (if asRoot then i else g.root i)).rehash,
        relabel (edited args) (g.content i), g.refresh (g.root i)⟩ := by
  have hb : Below g (g.root i) i := rootF_below P.users _ i
  have hil := (below_le P.older P.root_lt hb).2
  have hf : applyLab args = edited args := funext (fun l => applyLab_edited args l hp)
  have hin := inv_init P i (applyLab args) ho
  refine ⟨((ord (g.leaves (g.root i))).map (w g)).sum, ?_⟩
  intro fuel hn
  unfold mutate
  simp only []
  cases asRoot with
  | false =>
    rw [loop_all P hb ord fuel args hp.2 fuel _ [] none none hn hin rfl rfl, hf]
    simp [exp_init P.older i (edited args) hil]
  | true =>
    rw [loop_root P hb ord fuel args hp.2 fuel _ [] none none hn hin rfl, hf]
    simp [exp_init P.older i (edited args) hil]

/-- C232: `node.mutate(...)` finishes.  It gives a copy of the whole tree in which the node has the given attribute values
and everything else is as before, and returns the copy of the node. -/
theorem C232_copy_partial {g : Heap} {ord : List Nat → List Nat} {i : Nat} {args : List (String × Arg)}
    (P : Proper g (g.root i)) (ho : Iterates ord) (hp : Plain args) :
    ∃ n, ∀ fuel, n ≤ fuel → ∃ R, mutate g ord fuel i false args = .done R ∧
      R.root.term = subst (g.content i) (relabel (edited args) (g.content i)) (g.content (g.root i)) ∧
      R.init = relabel (edited args) (g.content i) := by
  have hb : Below g (g.root i) i := rootF_below P.users _ i
  have hil := (below_le P.older P.root_lt hb).2
  obtain ⟨n, h⟩ := mutate_eq P ho hp false
  refine ⟨n, fun fuel hn => ⟨_, h fuel hn, ?_, rfl⟩⟩
  rw [term_rehash]
  exact exp_term P.older P.distinct i _ hil _ P.root_lt

/-- C232: with `as_root`, the copy of the node with the given attribute values is the whole copy. -/
theorem C232_as_root_partial {g : Heap} {ord : List Nat → List Nat} {i : Nat} {args : List (String × Arg)}
    (P : Proper g (g.root i)) (ho : Iterates ord) (hp : Plain args) :
    ∃ n, ∀ fuel, n ≤ fuel → ∃ R, mutate g ord fuel i true args = .done R ∧
      R.root.term = relabel (edited args) (g.content i) ∧ R.init = R.root.term := by
  have hb : Below g (g.root i) i := rootF_below P.users _ i
  have hil := (below_le P.older P.root_lt hb).2
  obtain ⟨n, h⟩ := mutate_eq P ho hp true
  refine ⟨n, fun fuel hn => ⟨_, h fuel hn, ?_, ?_⟩⟩
  · rw [term_rehash]; exact exp_init P.older i _ hil
  · rw [term_rehash]; exact (exp_init P.older i _ hil).symm

/-- C232: the original tree keeps its nodes and contents, and its nodes can be mutated again: it is in order, and each
of its nodes leads to its root. -/
theorem C232_again_partial {g : Heap} {ord : List Nat → List Nat} {i : Nat} {args : List (String × Arg)}
    (P : Proper g (g.root i)) (ho : Iterates ord) (hp : Plain args) (asRoot : Bool) :
    ∃ n, ∀ fuel, n ≤ fuel → ∃ R, mutate g ord fuel i asRoot args = .done R ∧
      R.heap.objs = g.objs ∧ (∀ j, R.heap.content j = g.content j) ∧ Proper R.heap (g.root i) ∧
      ∀ j, Below g (g.root i) j → R.heap.root j = g.root i := by
  obtain ⟨n, h⟩ := mutate_eq P ho hp asRoot
  obtain ⟨P', e, _⟩ := refresh_proper P
  refine ⟨n, fun fuel hn => ⟨_, h fuel hn, e, ?_, P', fun j hj => refresh_root P hj⟩⟩
  intro j
  exact congrFun (content_congr e) j

/-- C232: trees that are created node by node, without creating the same node twice, are in order. -/
theorem C232_created {g : Heap} (b : Built g) (o : Obj) (hk : ∀ c ∈ o.kids.toList, c < g.objs.length)
    (hn : ∀ j, j < g.objs.length → g.content j ≠ mkTerm o.lab (o.kids.map g.content)) :
    Built (g.new o) ∧ Proper (g.new o) g.objs.length := by
  obtain ⟨hb, e, _⟩ := new_built b o hk hn
  exact ⟨hb, built_proper hb (by rw [e]; simp)⟩

/-! ### Examples -/

def rel (t : String) : Obj := ⟨⟨"Relation", [("table", t)]⟩, .leaf⟩
def sel (i : Nat) (p : String) : Obj := ⟨⟨"Selection", [("predicate", p)]⟩, .un i⟩
def proj (i : Nat) (t : String) : Obj := ⟨⟨"Projection", [("targets", t)]⟩, .un i⟩
def dedup (i : Nat) : Obj := ⟨⟨"DuplicateElimination", []⟩, .un i⟩
def cross (i j : Nat) : Obj := ⟨⟨"CrossProduct", []⟩, .bin i j⟩

/-- π (σ (R) ⨯ S) -/
def tree : Heap := ((((Heap.empty.new (rel "R")).new (sel 0 "R.a = 1")).new (rel "S")).new (cross 1 2)).new (proj 3 "R.b")

theorem tree_built : Built tree := by
  have b1 := (new_built built_empty (rel "R") (by decide) (by intro j h; simp [Heap.empty] at h)).1
  have b2 := (new_built b1 (sel 0 "R.a = 1") (by decide) (by decide +kernel)).1
  have b3 := (new_built b2 (rel "S") (by decide) (by decide +kernel)).1
  have b4 := (new_built b3 (cross 1 2) (by decide) (by decide +kernel)).1
  exact (new_built b4 (proj 3 "R.b") (by decide) (by decide +kernel)).1

example : tree.root 1 = 4 ∧ Proper tree (tree.root 1) ∧ Iterates id ∧ Plain [("predicate", .val "R.a = 2"), ("input_node", .none)] := by
  have h : tree.root 1 = 4 := by decide
  refine ⟨h, ?_, fun l x => Iff.rfl, ?_⟩
  · rw [h]; exact built_proper tree_built (by decide)
  · refine ⟨by decide, ?_⟩
    intro e he i hi
    simp at he
    rcases he with rfl | rfl <;> simp at hi

/-- What the caller sees. -/
def view : Out Result → Option (Term × Term)
  | .done R => some (R.root.term, R.init)
  | _ => none

def failed : Out Result → Bool
  | .assertion => true
  | _ => false

example : view (mutate tree id 50 1 false [("predicate", .val "R.a = 2")]) =
    some (.un ⟨"Projection", [("targets", "R.b")]⟩ (.bin ⟨"CrossProduct", []⟩
        (.un ⟨"Selection", [("predicate", "R.a = 2")]⟩ (.leaf ⟨"Relation", [("table", "R")]⟩))
        (.leaf ⟨"Relation", [("table", "S")]⟩)),
      .un ⟨"Selection", [("predicate", "R.a = 2")]⟩ (.leaf ⟨"Relation", [("table", "R")]⟩)) := by decide +kernel

/-- π (σ (R)), and two selections on top of R that are to become the input of the selection. -/
def wrap : Heap := ((((Heap.empty.new (rel "R")).new (sel 0 "p")).new (proj 1 "x")).new (sel 0 "q")).new (sel 3 "s")

/-- The same with one more operator at the top. -/
def wrap2 : Heap :=
  (((((Heap.empty.new (rel "R")).new (sel 0 "p")).new (proj 1 "x")).new (dedup 2)).new (sel 0 "q")).new (sel 4 "s")

/-- C232 is violated if an input is replaced: two selections between a node and its input make `mutate` fail with an
`AssertionError`. -/
theorem C232_input_violated :
    wrap.root 1 = 2 ∧ failed (mutate wrap id 20 1 false [("input_node", .node 4)]) := by decide +kernel

/-- C232 is violated: with one more operator on top the copied tree silently lacks the change. -/
theorem C232_lost_violated : wrap2.root 1 = 3 ∧
    view (mutate wrap2 id 20 1 false [("input_node", .node 5)]) =
      some (wrap2.content 3, .un ⟨"Selection", [("predicate", "p")]⟩ (wrap2.content 5)) := by
  decide +kernel

/-- Two equal relations below a cross product. -/
def twice : Heap :=
  ((((Heap.empty.new (rel "R")).new (rel "R")).new (sel 0 "p")).new (sel 1 "q")).new (cross 2 3)

/-- C232 is violated for trees with equal nodes: `mutate` fails with an `AssertionError`. -/
theorem C232_duplicate_violated : failed (mutate twice id 20 4 false []) := by decide +kernel

/-- Two trees that share a relation. -/
def shared : Heap := ((Heap.empty.new (rel "R")).new (sel 0 "p")).new (sel 0 "q")

def heapOf : Out Result → Heap
  | .done R => R.heap
  | _ => Heap.empty

/-- C232 is violated for trees that share nodes: mutating one tree makes it impossible to mutate the other. -/
theorem C232_shared_violated :
    view (mutate shared id 20 2 false []) = some (shared.content 2, shared.content 2) ∧
    failed (mutate (heapOf (mutate shared id 20 1 false [])) id 20 2 false []) := by decide +kernel

/-! ## C233: hash values -/

theorem relabel_ne_below {g : Heap} (o : Older g) (I : Nat) (f : Lab → Lab) (hI : I < g.objs.length)
    (hne : relabel f (g.content I) ≠ g.content I) : ∀ p, p < g.objs.length → Below g p I →
    (exp g I f p).term ≠ g.content p := by
  intro p
  induction p using Nat.strongRecOn with
  | ind p ih =>
    intro hp hb
    by_cases e : p = I
    · subst e; rw [exp_init o p f hp]; exact hne
    · rcases below_head hb with h | ⟨c, hc, hb'⟩
      · exact absurd h e
      · have hlt := o p hp c hc
        have hd := ih c hlt (by omega) hb'
        rw [exp_eq o I f hp, if_neg e, term_mk, map_map, content_eq o hp]
        intro h
        apply hd
        have hc' : c ∈ (g.obj p).kids.toList := hc
        rcases hk : (g.obj p).kids with _ | a | ⟨a, b⟩ <;> rw [hk] at h hc' <;>
          simp [Shape.toList, Shape.map, mkTerm] at h hc'
        · subst hc'; exact h
        · rcases hc' with rfl | rfl
          · exact h.1
          · exact h.2

/-- C233: if the root itself is changed, or the changed node becomes the root, the hash value of the copy is the one that
a new node with the same content gets (see `C233_new`). -/
theorem C233_hash_partial {g : Heap} {ord : List Nat → List Nat} {i : Nat} {args : List (String × Arg)}
    (P : Proper g (g.root i)) (ho : Iterates ord) (hp : Plain args) (asRoot : Bool) (hr : asRoot = true ∨ i = g.root i) :
    ∃ n, ∀ fuel, n ≤ fuel → ∃ R, mutate g ord fuel i asRoot args = .done R ∧ R.root.hash = R.root.term := by
  have hb : Below g (g.root i) i := rootF_below P.users _ i
  have hil := (below_le P.older P.root_lt hb).2
  have e : (if asRoot then i else g.root i) = i := by
    rcases hr with h | h
    · simp [h]
    · cases asRoot
      · simp; exact h.symm
      · simp
  obtain ⟨n, h⟩ := mutate_eq P ho hp asRoot
  refine ⟨n, fun fuel hn => ⟨_, h fuel hn, ?_⟩⟩
  simp only [e]
  rw [term_rehash, exp_init P.older i _ hil, exp_rehash P i _ hil, if_pos rfl]

/-- C233: the hash value of a new node belongs to its content. -/
theorem C233_new {g : Heap} (b : Built g) (o : Obj) (hk : ∀ c ∈ o.kids.toList, c < g.objs.length)
    (hn : ∀ j, j < g.objs.length → g.content j ≠ mkTerm o.lab (o.kids.map g.content)) :
    (g.new o).hash g.objs.length = (g.new o).content g.objs.length := by
  obtain ⟨hb, e, _⟩ := new_built b o hk hn
  exact hb.hashed _ (by rw [e]; simp)

/-- C233 is violated whenever a node below the root is changed: the changed tree has the hash value of the original tree,
which is not the one that an equal new node gets. -/
theorem C233_hash_violated {g : Heap} {ord : List Nat → List Nat} {i : Nat} {args : List (String × Arg)}
    (P : Proper g (g.root i)) (ho : Iterates ord) (hp : Plain args) (hi : i ≠ g.root i)
    (hne : relabel (edited args) (g.content i) ≠ g.content i) :
    ∃ n, ∀ fuel, n ≤ fuel → ∃ R, mutate g ord fuel i false args = .done R ∧
      R.root.hash = g.content (g.root i) ∧ R.root.term ≠ g.content (g.root i) := by
  have hb : Below g (g.root i) i := rootF_below P.users _ i
  have hil := (below_le P.older P.root_lt hb).2
  obtain ⟨n, h⟩ := mutate_eq P ho hp false
  refine ⟨n, fun fuel hn => ⟨_, h fuel hn, ?_, ?_⟩⟩
  · simp only [Bool.false_eq_true, if_false]
    rw [exp_rehash P i _ P.root_lt, if_neg (fun h => hi h.symm)]
  · simp only [Bool.false_eq_true, if_false]
    rw [term_rehash]
    exact relabel_ne_below P.older i _ hil hne _ P.root_lt hb

example : (1 : Nat) ≠ tree.root 1 ∧
    relabel (edited [("predicate", .val "R.a = 2")]) (tree.content 1) ≠ tree.content 1 := by decide +kernel

example : tree.root 4 = 4 := by decide

/-! ## C234: visitors -/

/-- The operators in pre-order. -/
def preorder : Tree → List Op
  | .leaf o => [o]
  | .un o a => o :: preorder a
  | .bin o a b => o :: preorder a ++ preorder b

def SetOp (o : Op) : Prop := o = .union ∨ o = .intersection ∨ o = .difference

theorem visitArg_node {t : Tree} (h : ¬ SetOp t.op) : visitArg t = .node t := by
  unfold visitArg
  split
  · rename_i e; exact absurd (Or.inl e) h
  · rename_i e; exact absurd (Or.inr (Or.inl e)) h
  · rename_i e; exact absurd (Or.inr (Or.inr e)) h
  · rfl

theorem visitArg_set {t : Tree} (h : SetOp t.op) : visitArg t = .visitor := by
  unfold visitArg
  rcases h with h | h | h <;> simp [h]

/-- C234: a recursive visitor reaches all operators of a tree without set operations. -/
theorem C234_visit_partial (t : Tree) (h : ∀ o ∈ preorder t, ¬ SetOp o) : collect t = some (preorder t) := by
  induction t with
  | leaf o =>
    have := visitArg_node (t := .leaf o) (h o (by simp [preorder]))
    simp [collect, this, preorder]
  | un o a ih =>
    have := visitArg_node (t := .un o a) (h o (by simp [preorder]))
    simp [collect, this, preorder, ih (fun x hx => h x (by simp [preorder, hx]))]
  | bin o a b iha ihb =>
    have := visitArg_node (t := .bin o a b) (h o (by simp [preorder]))
    simp [collect, this, preorder, iha (fun x hx => h x (by simp [preorder, hx])),
      ihb (fun x hx => h x (by simp [preorder, hx]))]

/-- C234 is violated for every tree with a union, an intersection or a difference anywhere: the visitor receives itself
instead of the node. -/
theorem C234_visit_violated (t : Tree) (h : ∃ o ∈ preorder t, SetOp o) : collect t = none := by
  induction t with
  | leaf o =>
    obtain ⟨x, hx, hs⟩ := h
    simp [preorder] at hx; subst hx
    simp [collect, visitArg_set (t := .leaf x) hs]
  | un o a ih =>
    by_cases ho : SetOp o
    · simp [collect, visitArg_set (t := .un o a) ho]
    · obtain ⟨x, hx, hs⟩ := h
      have hx' : x ∈ preorder a := by
        simp [preorder] at hx
        rcases hx with rfl | hx
        · exact absurd hs ho
        · exact hx
      simp [collect, visitArg_node (t := .un o a) ho, ih ⟨x, hx', hs⟩]
  | bin o a b iha ihb =>
    by_cases ho : SetOp o
    · simp [collect, visitArg_set (t := .bin o a b) ho]
    · obtain ⟨x, hx, hs⟩ := h
      simp [preorder] at hx
      rcases hx with rfl | hx | hx
      · exact absurd hs ho
      · simp [collect, visitArg_node (t := .bin o a b) ho, iha ⟨x, hx, hs⟩]
      · simp [collect, visitArg_node (t := .bin o a b) ho, ihb ⟨x, hx, hs⟩]

example : ∀ o ∈ preorder (.un .projection (.bin .thetaJoin (.leaf .relation) (.un .selection (.leaf .relation)))),
    ¬ SetOp o := by simp [preorder, SetOp]

example : ∃ o ∈ preorder (.un .sort (.bin .union (.leaf .relation) (.leaf .relation))), SetOp o :=
  ⟨.union, by simp [preorder], Or.inl rfl⟩

end PB.RelMutateProps
