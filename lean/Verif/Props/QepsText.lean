import Verif.Model.QepsText

/-! # C269: the texts of QEP synopses -/

namespace PB.QepsTextProps
open PB.QepsText

/-! ## Vocabulary -/

/-- A node that has neither costs nor children. -/
def Blank : Node → Prop
  | .mk costs kids _ => costs = [] ∧ kids = .nil

mutual
/-- The same synopsis, apart from subqueries that are blank. -/
inductive Same : Node → Node → Prop
  | mk (costs : List (String × String)) {k k' : Kids} {s s' : Sub} : SameKids k k' → SameSub s s' → Same (.mk costs k s) (.mk costs k' s')
inductive SameKids : Kids → Kids → Prop
  | nil : SameKids .nil .nil
  | cons (id : String) {n n' : Node} {k k' : Kids} : Same n n' → SameKids k k' → SameKids (.cons id n k) (.cons id n' k')
inductive SameSub : Sub → Sub → Prop
  | none : SameSub .none .none
  | some {n n' : Node} : ¬ Blank n → ¬ Blank n' → Same n n' → SameSub (.some n) (.some n')
  | blankLeft {n : Node} {s : Sub} : Blank n → SameSub .none s → SameSub (.some n) s
  | blankRight {n : Node} {s : Sub} : Blank n → SameSub s .none → SameSub s (.some n)
end

mutual
/-- The nodes below a node in preorder, with their levels: subqueries before children. -/
def under (level : Nat) : Node → List (Nat × String)
  | .mk _ kids sub => underSub level sub ++ underKids level kids
def underSub (level : Nat) : Sub → List (Nat × String)
  | .none => []
  | .some (.mk [] .nil _) => []
  | .some (.mk _ kids sub) => underSub (level + 1) sub ++ underKids (level + 1) kids
def underKids (level : Nat) : Kids → List (Nat × String)
  | .nil => []
  | .cons id n rest => (level, id) :: (under (level + 1) n ++ underKids level rest)
end

/-- The nodes that a text names, with their indentations. -/
def named : List Line → List (Nat × String)
  | [] => []
  | ⟨d, .node id⟩ :: ls => (d, id) :: named ls
  | _ :: ls => named ls

/-- The next line, if any, is indented less. -/
def Below (d : Nat) (r : List Line) : Prop := ∀ l, r.head? = some l → l.indent < d

/-! ## Lemmas -/

theorem truthy_iff (n : Node) : n.truthy = true ↔ ¬ Blank n := by
  cases n with
  | mk c k s => cases k <;> cases c <;> simp [Node.truthy, Blank]

theorem below_append {d : Nat} {r : List Line} (h : Below d r) (k : Kids) : Below (d + 2) (k.lines false d ++ r) := by
  cases k with
  | nil =>
    intro l hl
    have := h l (by simpa [Kids.lines] using hl)
    omega
  | cons id n rest =>
    intro l hl
    simp [Kids.lines] at hl
    subst hl; simp

theorem below_first (d : Nat) (k : Kids) (r : List Line) : Below (d + 2) (k.lines true d ++ r) := by
  cases k <;> · intro l hl; simp [Kids.lines] at hl; subst hl; simp

theorem kids_head (d : Nat) (k : Kids) (r x : List Line) : k.lines true d ++ r ≠ ⟨d, .subquery⟩ :: x := by
  cases k <;> simp [Kids.lines]

mutual
theorem node_inj : ∀ (n n' : Node) (d : Nat) (r r' : List Line), Below d r → Below d r' → n.lines d ++ r = n'.lines d ++ r' →
    Same n n' ∧ r = r'
  | .mk c k s, .mk c' k' s', d, r, r', hr, hr', h => by
    simp only [Node.lines, List.cons_append, List.cons.injEq, Line.mk.injEq, Body.costs.injEq, true_and, List.append_assoc] at h
    obtain ⟨rfl, h⟩ := h
    obtain ⟨h1, h2⟩ := sub_inj s s' d k k' r r' h
    obtain ⟨h3, h4⟩ := kids_inj k k' true d r r' hr hr' h2
    exact ⟨.mk c h3 h1, h4⟩
theorem sub_inj : ∀ (s s' : Sub) (d : Nat) (k k' : Kids) (r r' : List Line),
    s.lines d ++ (k.lines true d ++ r) = s'.lines d ++ (k'.lines true d ++ r') → SameSub s s' ∧ k.lines true d ++ r = k'.lines true d ++ r'
  | .none, .none, d, k, k', r, r', h => ⟨.none, by simpa [Sub.lines] using h⟩
  | .none, .some n', d, k, k', r, r', h => by
    by_cases hb : Blank n'
    · have ht : n'.truthy = false := by simpa using fun h => (truthy_iff n').1 h hb
      simp only [Sub.lines, ht, Bool.false_eq_true, ↓reduceIte, List.nil_append] at h
      exact ⟨.blankRight hb .none, h⟩
    · simp only [Sub.lines, (truthy_iff n').2 hb, ↓reduceIte, List.nil_append, List.cons_append] at h
      exact absurd h (kids_head _ _ _ _)
  | .some n, .none, d, k, k', r, r', h => by
    by_cases hb : Blank n
    · have ht : n.truthy = false := by simpa using fun h => (truthy_iff n).1 h hb
      simp only [Sub.lines, ht, Bool.false_eq_true, ↓reduceIte, List.nil_append] at h
      exact ⟨.blankLeft hb .none, h⟩
    · simp only [Sub.lines, (truthy_iff n).2 hb, ↓reduceIte, List.nil_append, List.cons_append] at h
      exact absurd h.symm (kids_head _ _ _ _)
  | .some n, .some n', d, k, k', r, r', h => by
    by_cases hb : Blank n <;> by_cases hb' : Blank n'
    · have ht : n.truthy = false := by simpa using fun h => (truthy_iff n).1 h hb
      have ht' : n'.truthy = false := by simpa using fun h => (truthy_iff n').1 h hb'
      simp only [Sub.lines, ht, ht', Bool.false_eq_true, ↓reduceIte, List.nil_append] at h
      exact ⟨.blankLeft hb (.blankRight hb' .none), h⟩
    · have ht : n.truthy = false := by simpa using fun h => (truthy_iff n).1 h hb
      simp only [Sub.lines, ht, (truthy_iff n').2 hb', Bool.false_eq_true, ↓reduceIte, List.nil_append, List.cons_append] at h
      exact absurd h (kids_head _ _ _ _)
    · have ht' : n'.truthy = false := by simpa using fun h => (truthy_iff n').1 h hb'
      simp only [Sub.lines, ht', (truthy_iff n).2 hb, Bool.false_eq_true, ↓reduceIte, List.nil_append, List.cons_append] at h
      exact absurd h.symm (kids_head _ _ _ _)
    · simp only [Sub.lines, (truthy_iff n).2 hb, (truthy_iff n').2 hb', ↓reduceIte, List.cons_append, List.cons.injEq, true_and] at h
      obtain ⟨h1, h2⟩ := node_inj n n' (d + 2) _ _ (below_first d k r) (below_first d k' r') h
      exact ⟨.some hb hb' h1, h2⟩
theorem kids_inj : ∀ (k k' : Kids) (first : Bool) (d : Nat) (r r' : List Line), Below d r → Below d r' →
    k.lines first d ++ r = k'.lines first d ++ r' → SameKids k k' ∧ r = r'
  | .nil, .nil, first, d, r, r', _, _, h => ⟨.nil, by simpa [Kids.lines] using h⟩
  | .nil, .cons id n rest, first, d, r, r', hr, _, h => by
    cases first
    · have := hr ⟨d, .sep⟩ (by simp [Kids.lines] at h; rw [h]; rfl)
      simp at this
    · simp [Kids.lines] at h
  | .cons id n rest, .nil, first, d, r, r', _, hr', h => by
    cases first
    · have := hr' ⟨d, .sep⟩ (by simp [Kids.lines] at h; rw [← h]; rfl)
      simp at this
    · simp [Kids.lines] at h
  | .cons id n rest, .cons id' n' rest', first, d, r, r', hr, hr', h => by
    simp only [Kids.lines, List.cons_append, List.cons.injEq, Line.mk.injEq, Body.node.injEq, true_and, List.append_assoc] at h
    obtain ⟨rfl, h⟩ := h
    obtain ⟨h1, h2⟩ := node_inj n n' (d + 2) _ _ (below_append hr rest) (below_append hr' rest') h
    obtain ⟨h3, h4⟩ := kids_inj rest rest' false d r r' hr hr' h2
    exact ⟨.cons id h1 h3, h4⟩
end

theorem sub_blank {n : Node} (h : Blank n) (d : Nat) : (Sub.some n).lines d = [] := by
  have ht : n.truthy = false := by simpa using fun h2 => (truthy_iff n).1 h2 h
  simp [Sub.lines, ht]

mutual
theorem node_same : ∀ {n n' : Node}, Same n n' → ∀ d, n.lines d = n'.lines d
  | _, _, .mk c hk hs, d => by rw [Node.lines, Node.lines, kids_same hk true d, sub_same hs d]
theorem kids_same : ∀ {k k' : Kids}, SameKids k k' → ∀ first d, k.lines first d = k'.lines first d
  | _, _, .nil, _, _ => rfl
  | _, _, .cons id hn hk, first, d => by rw [Kids.lines, Kids.lines, node_same hn, kids_same hk]
theorem sub_same : ∀ {s s' : Sub}, SameSub s s' → ∀ d, s.lines d = s'.lines d
  | _, _, .none, _ => rfl
  | _, _, .some hb hb' hn, d => by
    rw [Sub.lines, Sub.lines, (truthy_iff _).2 hb, (truthy_iff _).2 hb', node_same hn]
  | _, _, .blankLeft hb hs, d => by rw [sub_blank hb, ← sub_same hs d, Sub.lines]
  | _, _, .blankRight hb hs, d => by rw [sub_blank hb, sub_same hs d, Sub.lines]
end

theorem named_append (a b : List Line) : named (a ++ b) = named a ++ named b := by
  induction a with
  | nil => rfl
  | cons l a ih =>
    obtain ⟨d, body⟩ := l
    cases body <;> simp [named, ih]

/-- Levels as indentations. -/
def ind (x : Nat × String) : Nat × String := (2 * x.1, x.2)

mutual
theorem node_named : ∀ (n : Node) (level : Nat), named (n.lines (2 * level)) = (under level n).map ind
  | .mk c k s, level => by
    simp only [Node.lines, named, named_append, under, List.map_append]
    rw [sub_named s level, kids_named k true level]
theorem sub_named : ∀ (s : Sub) (level : Nat), named (s.lines (2 * level)) = (underSub level s).map ind
  | .none, level => by simp [Sub.lines, named, underSub]
  | .some (.mk c k s), level => by
    have h1 := sub_named s (level + 1)
    have h2 := kids_named k true (level + 1)
    have e : 2 * level + 2 = 2 * (level + 1) := by omega
    have hl : ∀ d, (Node.mk c k s).lines d = ⟨d, .costs c⟩ :: (s.lines d ++ k.lines true d) := fun d => by rw [Node.lines]
    rw [Sub.lines]
    cases k with
    | nil =>
      cases c with
      | nil => simp [Node.truthy, named, underSub]
      | cons x c => simp only [Node.truthy, e, hl]; simp [named, named_append, h1, h2, underSub]
    | cons id n rest => simp only [Node.truthy, e, hl]; simp [named, named_append, h1, h2, underSub]
theorem kids_named : ∀ (k : Kids) (first : Bool) (level : Nat), named (k.lines first (2 * level)) = (underKids level k).map ind
  | .nil, first, level => by cases first <;> simp [Kids.lines, named, underKids]
  | .cons id n rest, first, level => by
    have h1 := node_named n (level + 1)
    have h2 := kids_named rest false level
    have e : 2 * level + 2 = 2 * (level + 1) := by omega
    rw [Kids.lines, underKids, e]
    cases first <;> simp [named, named_append, h1, h2, ind]
end

/-! ## Theorems -/

/-- The text tells synopses apart: two have the same text exactly if they have the same nodes with the same costs in the same places.
Missing: the costs and the subquery of the root and blank subqueries, see `C269_root_violated` and `C269_blank_violated`. -/
theorem C269_faithful_partial (c c' : List (String × String)) (k k' : Kids) (s s' : Sub) :
    inspect (.mk c k s) = inspect (.mk c' k' s') ↔ SameKids k k' := by
  constructor
  rotate_left
  · intro h
    cases h with
    | nil => rfl
    | cons id hn hk => simp only [inspect]; rw [node_same hn, kids_same hk]
  intro h
  have hb : ∀ d, Below d [] := fun d l hl => by simp at hl
  cases k with
  | nil =>
    cases k' with
    | nil => exact .nil
    | cons id' n' rest' => simp [inspect] at h
  | cons id n rest =>
    cases k' with
    | nil => simp [inspect] at h
    | cons id' n' rest' =>
      simp only [inspect, List.cons.injEq, Line.mk.injEq, Body.node.injEq, true_and] at h
      obtain ⟨rfl, h⟩ := h
      have hx : ∀ x : Kids, Below (2 + 2) (x.lines false 2) := fun x => by
        have := below_append (hb 2) x
        simpa using this
      obtain ⟨h1, h2⟩ := node_inj n n' 4 _ _ (hx rest) (hx rest') h
      obtain ⟨h3, -⟩ := kids_inj rest rest' false 2 [] [] (hb 2) (hb 2) (by simpa using h2)
      exact .cons id h1 h3

/-- Every node is named once, in preorder, indented by its level. -/
theorem C269_nodes (c : List (String × String)) (k : Kids) (s : Sub) :
    named (inspect (.mk c k s)) = (underKids 1 k).map fun x => (2 * x.1, x.2) := by
  show _ = (underKids 1 k).map ind
  cases k with
  | nil => simp [inspect, named, underKids]
  | cons id n rest =>
    have h1 := node_named n 2
    have h2 := kids_named rest false 1
    simp only [inspect, named, named_append, underKids, List.map_cons, List.map_append, ind]
    rw [h1, h2]

/-- What belongs to the root itself is not shown: its costs and its subquery. -/
theorem C269_root_violated (c c' : List (String × String)) (k : Kids) (s s' : Sub) : inspect (.mk c k s) = inspect (.mk c' k s') := rfl

/-- A subquery without costs and children is not shown, whatever its own subquery contains. -/
theorem C269_blank_violated (id : String) (c : List (String × String)) (k rest : Kids) (s : Sub) :
    inspect (.mk [] (.cons id (.mk c k (.some (.mk [] .nil s))) rest) .none) = inspect (.mk [] (.cons id (.mk c k .none) rest) .none) := by
  simp [inspect, Node.lines, Sub.lines, Node.truthy]

/-! ## Examples -/

/-- A synopsis with two levels and a subquery. -/
def ex : Node :=
  .mk [] (.cons "r" (.mk [("HashJoin", "4.0")] (.cons "s" (.mk [] .nil .none) .nil) (.some (.mk [] (.cons "t" (.mk [] .nil .none) .nil) .none)))
    (.cons "u" (.mk [] .nil .none) .nil)) .none

example : inspect ex = [⟨0, .root⟩, ⟨2, .node "r"⟩, ⟨4, .costs [("HashJoin", "4.0")]⟩, ⟨4, .subquery⟩, ⟨6, .costs []⟩, ⟨6, .children⟩,
    ⟨6, .node "t"⟩, ⟨8, .costs []⟩, ⟨8, .noChildren⟩, ⟨4, .children⟩, ⟨4, .node "s"⟩, ⟨6, .costs []⟩, ⟨6, .noChildren⟩, ⟨2, .sep⟩,
    ⟨2, .node "u"⟩, ⟨4, .costs []⟩, ⟨4, .noChildren⟩] := by
  simp [inspect, ex, Node.lines, Sub.lines, Kids.lines, Node.truthy]

example : named (inspect ex) = [(2, "r"), (6, "t"), (4, "s"), (2, "u")] := by
  simp [inspect, ex, Node.lines, Sub.lines, Kids.lines, Node.truthy, named]

end PB.QepsTextProps
