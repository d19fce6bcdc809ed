import Verif.Model.Vis
set_option linter.unusedVariables false
set_option linter.unusedSimpArgs false

namespace PB.VisProps
open PB.Vis

variable {T K : Type}

/-! ### What a picture shows -/

/-- The boxes: keys, labels and styles. -/
def boxes : List (Stmt K) → List (K × String × Style)
  | [] => []
  | .box k l s :: g => (k, l, s) :: boxes g
  | .line _ _ _ :: g => boxes g

/-- The lines: both ends, and whether there is an arrow. -/
def lines : List (Stmt K) → List (K × K × Bool)
  | [] => []
  | .box _ _ _ :: g => lines g
  | .line a b d :: g => (a, b, d) :: lines g

/-- Graphviz shows the attributes of the last statement for a key. -/
def Shows (g : List (Stmt K)) (k : K) (l : String) (s : Style) : Prop :=
  ∃ g₁ g₂, g = g₁ ++ .box k l s :: g₂ ∧ ∀ l' s', Stmt.box k l' s' ∉ g₂

theorem boxes_append (a b : List (Stmt K)) : boxes (a ++ b) = boxes a ++ boxes b := by
  induction a with
  | nil => rfl
  | cons x a ih => cases x <;> simp [boxes, ih]

theorem lines_append (a b : List (Stmt K)) : lines (a ++ b) = lines a ++ lines b := by
  induction a with
  | nil => rfl
  | cons x a ih => cases x <;> simp [lines, ih]

theorem mem_boxes (g : List (Stmt K)) (k l s) : (k, l, s) ∈ boxes g ↔ Stmt.box k l s ∈ g := by
  induction g with
  | nil => simp [boxes]
  | cons x g ih => cases x <;> simp [boxes, ih]

/-- With one statement for each key, the picture shows all of them. -/
theorem shows_iff (g : List (Stmt K)) (hn : ((boxes g).map (·.1)).Nodup) (k l s) : Shows g k l s ↔ (k, l, s) ∈ boxes g := by
  constructor
  · rintro ⟨g₁, g₂, rfl, -⟩
    simp [mem_boxes]
  · intro h
    rw [mem_boxes] at h
    obtain ⟨g₁, g₂, rfl⟩ := List.append_of_mem h
    refine ⟨g₁, g₂, rfl, fun l' s' h' => ?_⟩
    rw [boxes_append, List.map_append] at hn
    simp only [boxes, List.map_cons] at hn
    have := (List.nodup_append.1 hn).2.1
    exact (List.nodup_cons.1 this).1 (List.mem_map.2 ⟨(k, l', s'), (mem_boxes _ _ _ _).2 h', rfl⟩)

/-! ### Trees -/

mutual
/-- The objects of a tree, parents first. -/
def objs : Tree T → List T
  | .node o ks => o :: objsAll ks
/-- The objects of several trees. -/
def objsAll : List (Tree T) → List T
  | [] => []
  | k :: ks => objs k ++ objsAll ks
end

/-- `b` is a child of `a` somewhere in the tree. -/
inductive Parent : Tree T → T → T → Prop
  | here (o : T) (ks : List (Tree T)) (k : Tree T) (h : k ∈ ks) : Parent (.node o ks) o k.obj
  | deeper (o : T) (ks : List (Tree T)) (k : Tree T) (a b : T) (h : k ∈ ks) (hp : Parent k a b) : Parent (.node o ks) a b

theorem objs_eq (t : Tree T) : objs t = t.obj :: (objs t).tail := by
  cases t; simp [objs, Tree.obj]

mutual
theorem boxes_plot (key : T → K) (label : T → String × Style) : (t : Tree T) → boxes (plotTree key label t) = (objs t).map fun o => (key o, label o)
  | .node o ks => by
    simp only [plotTree, boxes, objs, List.map_cons]
    rw [boxes_kids]
theorem boxes_kids (key : T → K) (label : T → String × Style) (p : K) :
    (ts : List (Tree T)) → boxes (plotKids key label p ts) = (objsAll ts).map fun o => (key o, label o)
  | [] => rfl
  | k :: ks => by
    simp only [plotKids, boxes, boxes_append, objsAll, List.map_append]
    rw [boxes_plot key label k, boxes_kids key label p ks]
end

mutual
theorem heads_plot (key : T → K) (label : T → String × Style) : (t : Tree T) → (lines (plotTree key label t)).map (·.2.1) = (objs t).tail.map key
  | .node o ks => by
    simp only [plotTree, lines, objs, List.tail_cons]
    exact heads_kids key label _ ks
theorem heads_kids (key : T → K) (label : T → String × Style) (p : K) :
    (ts : List (Tree T)) → (lines (plotKids key label p ts)).map (·.2.1) = (objsAll ts).map key
  | [] => rfl
  | k :: ks => by
    simp only [plotKids, lines, lines_append, objsAll, List.map_append, List.map_cons]
    rw [heads_plot key label k, heads_kids key label p ks, objs_eq k]
    simp
end

mutual
theorem lines_plot (key : T → K) (label : T → String × Style) : (t : Tree T) → ∀ x, x ∈ lines (plotTree key label t) ↔ ∃ a b, Parent t a b ∧ x = (key a, key b, false)
  | .node o ks => by
    intro x
    simp only [plotTree, lines]
    rw [lines_kids key label (key o) ks x]
    constructor
    · rintro (⟨k, hk, rfl⟩ | ⟨k, hk, a, b, hp, rfl⟩)
      · exact ⟨o, k.obj, .here o ks k hk, rfl⟩
      · exact ⟨a, b, .deeper o ks k a b hk hp, rfl⟩
    · rintro ⟨a, b, hp, rfl⟩
      cases hp with
      | here _ _ k h => exact .inl ⟨k, h, rfl⟩
      | deeper _ _ k _ _ h hp => exact .inr ⟨k, h, a, b, hp, rfl⟩
theorem lines_kids (key : T → K) (label : T → String × Style) (p : K) :
    (ts : List (Tree T)) → ∀ x, x ∈ lines (plotKids key label p ts) ↔ (∃ k ∈ ts, x = (p, key k.obj, false)) ∨ ∃ k ∈ ts, ∃ a b, Parent k a b ∧ x = (key a, key b, false)
  | [] => by simp [plotKids, lines]
  | k :: ks => by
    intro x
    simp only [plotKids, lines, lines_append, List.mem_cons, List.mem_append]
    rw [lines_plot key label k x, lines_kids key label p ks x]
    constructor
    · rintro (rfl | ⟨a, b, h, rfl⟩ | ⟨k', h, rfl⟩ | ⟨k', h, a, b, hp, rfl⟩)
      · exact .inl ⟨k, .inl rfl, rfl⟩
      · exact .inr ⟨k, .inl rfl, a, b, h, rfl⟩
      · exact .inl ⟨k', .inr h, rfl⟩
      · exact .inr ⟨k', .inr h, a, b, hp, rfl⟩
    · rintro (⟨k', (rfl | h), rfl⟩ | ⟨k', (rfl | h), a, b, hp, rfl⟩)
      · exact .inl rfl
      · exact .inr (.inr (.inl ⟨k', h, rfl⟩))
      · exact .inr (.inl ⟨a, b, hp, rfl⟩)
      · exact .inr (.inr (.inr ⟨k', h, a, b, hp, rfl⟩))
end

/-- The picture of a tree: one box for each object with its label, the lines are those between parents and children, and each object but the root has one line that leads to it. -/
def Faithful (key : T → K) (label : T → String × Style) (t : Tree T) (g : List (Stmt K)) : Prop :=
  (boxes g).length = (objs t).length ∧ (∀ k l s, Shows g k l s ↔ ∃ o ∈ objs t, key o = k ∧ label o = (l, s)) ∧
  (∀ a b d, (a, b, d) ∈ lines g ↔ d = false ∧ ∃ x y, Parent t x y ∧ key x = a ∧ key y = b) ∧
  (lines g).map (·.2.1) = (objs t).tail.map key ∧ (lines g).Nodup

/-- **C246 (partial).** The picture of a tree shows the tree if its objects have different identifiers. (Missing: objects with equal identifiers, see `C246_self_violated`.) -/
theorem C246_tree_partial (key : T → K) (label : T → String × Style) (t : Tree T) (hn : ((objs t).map key).Nodup) : Faithful key label t (plotTree key label t) := by
  refine ⟨by simp [boxes_plot], fun k l s => ?_, fun a b d => ?_, heads_plot key label t, ?_⟩
  · rw [shows_iff _ (by rw [boxes_plot, List.map_map]; exact hn), boxes_plot]
    simp [List.mem_map, Prod.ext_iff]
  · rw [lines_plot]
    constructor
    · rintro ⟨x, y, hp, h⟩
      simp only [Prod.mk.injEq] at h
      exact ⟨h.2.2, x, y, hp, h.1.symm, h.2.1.symm⟩
    · rintro ⟨rfl, x, y, hp, rfl, rfl⟩
      exact ⟨x, y, hp, rfl⟩
  · refine List.Nodup.of_map (·.2.1) ?_
    rw [heads_plot]
    have := objs_eq t
    rw [this, List.map_cons] at hn
    exact (List.nodup_cons.1 hn).2

/-! ### Hash values -/

mutual
/-- The leaves of a hash value. -/
def leaves : Hash → List (String × String)
  | .node a b ks => match ks with
    | [] => [(a, b)]
    | k :: ks => leaves k ++ leavesAll ks
/-- The leaves of several hash values. -/
def leavesAll : List Hash → List (String × String)
  | [] => []
  | k :: ks => leaves k ++ leavesAll ks
end

mutual
/-- The hash value and those of which it is made. -/
def parts : Hash → List Hash
  | .node a b ks => .node a b ks :: partsAll ks
/-- The parts of several hash values. -/
def partsAll : List Hash → List Hash
  | [] => []
  | k :: ks => parts k ++ partsAll ks
end

mutual
theorem leaves_ne : (h : Hash) → leaves h ≠ []
  | .node a b ks => by
    cases ks with
    | nil => simp [leaves]
    | cons k ks => simp [leaves, leaves_ne k]
end

mutual
theorem parts_leaves : (h : Hash) → ∀ x ∈ parts h, sizeOf x ≤ sizeOf h ∧ ∀ y ∈ leaves x, y ∈ leaves h
  | .node a b ks => by
    intro x hx
    simp only [parts, List.mem_cons] at hx
    rcases hx with rfl | hx
    · exact ⟨le_rfl, fun y h => h⟩
    · have ⟨h1, h2⟩ := partsAll_leaves ks x hx
      refine ⟨?_, fun y hy => ?_⟩
      · simp only [Hash.node.sizeOf_spec]; omega
      · cases ks with
        | nil => simp [partsAll] at hx
        | cons k ks => simpa [leaves, leavesAll] using h2 y hy
theorem partsAll_leaves : (hs : List Hash) → ∀ x ∈ partsAll hs, sizeOf x < sizeOf hs ∧ ∀ y ∈ leaves x, y ∈ leavesAll hs
  | [] => by simp [partsAll]
  | k :: ks => by
    intro x hx
    simp only [partsAll, List.mem_append] at hx
    rcases hx with hx | hx
    · have ⟨h1, h2⟩ := parts_leaves k x hx
      refine ⟨by simp only [List.cons.sizeOf_spec]; omega, fun y hy => by simp [leavesAll, h2 y hy]⟩
    · have ⟨h1, h2⟩ := partsAll_leaves ks x hx
      refine ⟨by simp only [List.cons.sizeOf_spec]; omega, fun y hy => by simp [leavesAll, h2 y hy]⟩
end

mutual
theorem parts_nodup : (h : Hash) → (leaves h).Nodup → (parts h).Nodup
  | .node a b ks => by
    intro hn
    simp only [parts, List.nodup_cons]
    constructor
    · intro hx
      have := (partsAll_leaves ks _ hx).1
      simp only [Hash.node.sizeOf_spec] at this
      omega
    · refine partsAll_nodup ks ?_
      cases ks with
      | nil => simp [leavesAll]
      | cons k ks => simpa [leaves, leavesAll] using hn
theorem partsAll_nodup : (hs : List Hash) → (leavesAll hs).Nodup → (partsAll hs).Nodup
  | [] => by simp [partsAll]
  | k :: ks => by
    intro hn
    simp only [leavesAll] at hn
    obtain ⟨h1, h2, h3⟩ := List.nodup_append.1 hn
    simp only [partsAll]
    refine List.nodup_append.2 ⟨parts_nodup k h1, partsAll_nodup ks h2, ?_⟩
    rintro x hx _ hy rfl
    obtain ⟨y, hz⟩ := List.exists_mem_of_ne_nil _ (leaves_ne x)
    exact h3 y ((parts_leaves k x hx).2 y hz) y ((partsAll_leaves ks x hy).2 y hz) rfl
end

/-! ### Join trees -/

/-- The tables of a join tree. -/
def tables : JTree → List String
  | .scan t _ => [t]
  | .join l r _ => tables l ++ tables r

/-- The join tree and all its parts. -/
inductive Within : JTree → JTree → Prop
  | self (t : JTree) : Within t t
  | outer (l r : JTree) (c : Option String) (t : JTree) (h : Within l t) : Within (.join l r c) t
  | inner (l r : JTree) (c : Option String) (t : JTree) (h : Within r t) : Within (.join l r c) t

/-- The text in the box of a join tree: the table or the join symbol, and the cardinality if there is one. -/
def caption : JTree → String
  | .scan t none => t
  | .scan t (some c) => t ++ "\n Card = " ++ c
  | .join _ _ none => "⋈"
  | .join _ _ (some c) => "⋈\n Card = " ++ c

/-- Boxes of scans are grey, those of joins are bold. -/
def frame : JTree → Style
  | .scan _ _ => ⟨none, some "grey"⟩
  | .join _ _ _ => ⟨some "bold", none⟩

theorem label_frame (t : JTree) : t.label.2 = frame t := by cases t <;> rfl

theorem label_caption (t : JTree) : t.label.1 = caption t := by
  cases t with
  | scan t c => cases c <;> simp [JTree.label, cardText, caption, String.append_assoc]
  | join l r c => 
    cases c with
    | none => simp [JTree.label, cardText, caption]
    | some c => 
      simp only [JTree.label, cardText, caption, ← String.append_assoc]
      rfl

theorem leaves_hash : (t : JTree) → leaves t.hash = (tables t).map fun x => ("", x)
  | .scan t c => by simp [JTree.hash, leaves, tables]
  | .join l r c => by simp [JTree.hash, leaves, leavesAll, tables, leaves_hash l, leaves_hash r]

theorem parts_hash : (t : JTree) → parts t.hash = (objs t.unfold).map JTree.hash
  | .scan t c => by simp [JTree.hash, JTree.unfold, parts, partsAll, objs, objsAll]
  | .join l r c => by simp [JTree.hash, JTree.unfold, parts, partsAll, objs, objsAll, parts_hash l, parts_hash r]

theorem mem_objs_unfold : (t u : JTree) → (u ∈ objs t.unfold ↔ Within t u)
  | .scan t c, u => by
    simp only [JTree.unfold, objs, objsAll, List.mem_cons, List.not_mem_nil, or_false]
    constructor
    · rintro rfl; exact .self _
    · intro h; cases h; rfl
  | .join l r c, u => by
    simp only [JTree.unfold, objs, objsAll, List.mem_cons, List.mem_append, List.not_mem_nil, or_false, mem_objs_unfold l u, mem_objs_unfold r u]
    constructor
    · rintro (rfl | h | h)
      · exact .self _
      · exact .outer _ _ _ _ h
      · exact .inner _ _ _ _ h
    · intro h
      cases h with
      | self => exact .inl rfl
      | outer _ _ _ _ h => exact .inr (.inl h)
      | inner _ _ _ _ h => exact .inr (.inr h)

theorem unfold_obj (t : JTree) : t.unfold.obj = t := by cases t <;> rfl

theorem parent_unfold : (t a b : JTree) → (Parent t.unfold a b ↔ ∃ l r c, Within t (.join l r c) ∧ a = .join l r c ∧ (b = l ∨ b = r))
  | .scan t c, a, b => by
    simp only [JTree.unfold]
    constructor
    · intro h; cases h with
      | here _ _ k h => simp at h
      | deeper _ _ k _ _ h => simp at h
    · rintro ⟨l, r, c', h, -, -⟩; cases h
  | .join l r c, a, b => by
    simp only [JTree.unfold]
    constructor
    · intro h
      cases h with
      | here _ _ k h =>
        simp only [List.mem_cons, List.not_mem_nil, or_false] at h
        exact ⟨l, r, c, .self _, rfl, by rcases h with rfl | rfl <;> simp [unfold_obj]⟩
      | deeper _ _ k _ _ h hp =>
        simp only [List.mem_cons, List.not_mem_nil, or_false] at h
        rcases h with rfl | rfl
        · obtain ⟨l', r', c', h1, h2⟩ := (parent_unfold l a b).1 hp
          exact ⟨l', r', c', .outer _ _ _ _ h1, h2⟩
        · obtain ⟨l', r', c', h1, h2⟩ := (parent_unfold r a b).1 hp
          exact ⟨l', r', c', .inner _ _ _ _ h1, h2⟩
    · rintro ⟨l', r', c', h, rfl, hb⟩
      cases h with
      | self => 
        rcases hb with rfl | rfl
        · have := Parent.here (JTree.join b r c) [b.unfold, r.unfold] b.unfold (by simp)
          rwa [unfold_obj] at this
        · have := Parent.here (JTree.join l b c) [l.unfold, b.unfold] b.unfold (by simp)
          rwa [unfold_obj] at this
      | outer _ _ _ _ h => exact .deeper _ _ l.unfold _ _ (by simp) ((parent_unfold l _ b).2 ⟨l', r', c', h, rfl, hb⟩)
      | inner _ _ _ _ h => exact .deeper _ _ r.unfold _ _ (by simp) ((parent_unfold r _ b).2 ⟨l', r', c', h, rfl, hb⟩)

theorem objs_length : (t : JTree) → (objs t.unfold).length + 1 = 2 * (tables t).length
  | .scan t c => by simp [JTree.unfold, objs, objsAll, tables]
  | .join l r c => by
    have := objs_length l
    have := objs_length r
    simp [JTree.unfold, objs, objsAll, tables]
    omega

/-- **C246 (partial).** The picture of a join tree has a box for each table and each join, with the name of the table or the join symbol and the cardinality, and a line from
each join to both of its inputs, and nothing else. (Missing: join trees that contain a table twice, see `C246_self_violated`.) -/
theorem C246_join_tree_partial (t : JTree) (hn : (tables t).Nodup) :
    (∀ u v, Within t u → Within t v → u.hash = v.hash → u = v) ∧
    (∀ k l s, Shows (plotJoinTree (some t)) k l s ↔ ∃ u, Within t u ∧ u.hash = k ∧ caption u = l ∧ frame u = s) ∧
    (∀ a b d, (a, b, d) ∈ lines (plotJoinTree (some t)) ↔ d = false ∧ ∃ l r c, Within t (.join l r c) ∧ a = (JTree.join l r c).hash ∧ (b = l.hash ∨ b = r.hash)) ∧
    (boxes (plotJoinTree (some t))).length + 1 = 2 * (tables t).length ∧ (lines (plotJoinTree (some t))).length + 1 = (boxes (plotJoinTree (some t))).length ∧
    (lines (plotJoinTree (some t))).Nodup := by
  have hk : ((objs t.unfold).map JTree.hash).Nodup := by
    rw [← parts_hash]
    refine parts_nodup _ ?_
    rw [leaves_hash]
    exact hn.map fun a b h => by simpa using h
  obtain ⟨h1, h2, h3, h4, h5⟩ := C246_tree_partial JTree.hash JTree.label t.unfold hk
  refine ⟨fun u v hu hv h => ?_, fun k l s => ?_, fun a b d => ?_, ?_, ?_, h5⟩
  · exact List.inj_on_of_nodup_map hk ((mem_objs_unfold t u).2 hu) ((mem_objs_unfold t v).2 hv) h
  · constructor
    · intro hs
      obtain ⟨u, hu, rfl, hl⟩ := (h2 k l s).1 hs
      exact ⟨u, (mem_objs_unfold t u).1 hu, rfl, by rw [← label_caption, hl], by rw [← label_frame, hl]⟩
    · rintro ⟨u, hu, rfl, rfl, rfl⟩
      exact (h2 _ _ _).2 ⟨u, (mem_objs_unfold t u).2 hu, rfl, by rw [← label_caption, ← label_frame]⟩
  · rw [show plotJoinTree (some t) = plotTree JTree.hash JTree.label t.unfold from rfl, h3]
    refine and_congr_right fun _ => ⟨?_, ?_⟩
    · rintro ⟨x, y, hp, rfl, rfl⟩
      obtain ⟨l, r, c, h, rfl, hb⟩ := (parent_unfold t x y).1 hp
      exact ⟨l, r, c, h, rfl, by rcases hb with rfl | rfl <;> simp⟩
    · rintro ⟨l, r, c, h, rfl, (rfl | rfl)⟩
      · exact ⟨_, l, (parent_unfold t _ _).2 ⟨l, r, c, h, rfl, .inl rfl⟩, rfl, rfl⟩
      · exact ⟨_, r, (parent_unfold t _ _).2 ⟨l, r, c, h, rfl, .inr rfl⟩, rfl, rfl⟩
  · rw [show plotJoinTree (some t) = plotTree JTree.hash JTree.label t.unfold from rfl, h1]
    exact objs_length t
  · rw [show plotJoinTree (some t) = plotTree JTree.hash JTree.label t.unfold from rfl, h1]
    have := congrArg List.length h4
    simp only [List.length_map, List.length_tail] at this
    have h0 := objs_length t
    have : 0 < (objs t.unfold).length := by rw [objs_eq]; simp
    omega

/-- The hypotheses are met. -/
example : (tables (.join (.join (.scan "R" none) (.scan "S" (some "10")) none) (.scan "T" none) (some "5"))).Nodup := by decide

/-- The empty join tree has an empty picture. -/
theorem C246_empty : plotJoinTree none = [] := rfl

/-- **C246 (violated).** A join of a table with itself (without alias) is drawn with a single box for both scans and two lines to it. -/
theorem C246_self_violated (c d : Option String) :
    let g := plotJoinTree (some (.join (.scan "R" c) (.scan "R" d) none))
    (∀ k, (∃ l s, Shows g k l s) → k = (JTree.scan "R" c).hash ∨ k = (JTree.join (.scan "R" c) (.scan "R" d) none).hash) ∧
      lines g = [((JTree.join (.scan "R" c) (.scan "R" d) none).hash, (JTree.scan "R" c).hash, false), ((JTree.join (.scan "R" c) (.scan "R" d) none).hash, (JTree.scan "R" c).hash, false)] := by
  refine ⟨?_, ?_⟩
  · rintro k ⟨l, s, g₁, g₂, h, -⟩
    have : (k, l, s) ∈ boxes (plotJoinTree (some (.join (.scan "R" c) (.scan "R" d) none))) := by rw [h]; simp [mem_boxes]
    simp [plotJoinTree, boxes_plot, JTree.unfold, objs, objsAll] at this
    rcases this with h | h | h
    · exact .inr h.1
    · exact .inl h.1
    · exact .inl (by rw [h.1]; rfl)
  · simp [plotJoinTree, JTree.unfold, plotTree, plotKids, lines, Tree.obj, JTree.hash]

/-! ### Query plans -/

mutual
/-- All nodes of a plan, parents first, subplans after the children. -/
def everyNode : Plan → List Plan
  | .node i ks s => .node i ks s :: (everyAll ks ++ everySub s)
/-- All nodes of several plans. -/
def everyAll : List Plan → List Plan
  | [] => []
  | k :: ks => everyNode k ++ everyAll ks
/-- All nodes of the subplan. -/
def everySub : Option Plan → List Plan
  | none => []
  | some p => everyNode p
end

/-- Neither join nor scan. -/
def Intermediate (p : Plan) : Prop := p.info.kind ≠ .join ∧ p.info.kind ≠ .scan

instance (p : Plan) : Decidable (Intermediate p) := inferInstanceAs (Decidable (_ ∧ _))

/-- The nodes to show: the root and all others, unless they are to be skipped. -/
def toShow (skip : Bool) (p : Plan) : List Plan := p :: (everyNode p).tail.filter fun q => !(skip && decide (Intermediate q))

/-- A child or the root of the subplan. -/
inductive Direct : Plan → Plan → Prop
  | kid (i : Info) (ks : List Plan) (s : Option Plan) (k : Plan) (h : k ∈ ks) : Direct (.node i ks s) k
  | sub (i : Info) (ks : List Plan) (p : Plan) : Direct (.node i ks (some p)) p

/-- The nodes that are next below a node, when skipped nodes do not count. -/
inductive Next (skip : Bool) : Plan → Plan → Prop
  | direct (a b : Plan) (h : Direct a b) (hb : ¬ (skip = true ∧ Intermediate b)) : Next skip a b
  | via (a m b : Plan) (h : Direct a m) (hs : skip = true) (hm : Intermediate m) (hb : Next skip m b) : Next skip a b

theorem isAux_iff (p : Plan) : p.isAux = true ↔ Intermediate p := by
  unfold Plan.isAux Intermediate
  cases p.info.kind <;> simp

theorem skip_iff (skip : Bool) (p : Plan) : (skip && p.isAux) = true ↔ skip = true ∧ Intermediate p := by
  rw [Bool.and_eq_true, isAux_iff]

/-- The children of each node are those that are supplied. -/
inductive Supplied (f : T → List T) : Tree T → Prop
  | node (o : T) (ks : List (Tree T)) (h : ks.map Tree.obj = f o) (hk : ∀ k ∈ ks, Supplied f k) : Supplied f (.node o ks)

theorem mem_objsAll (a : T) : (ts : List (Tree T)) → (a ∈ objsAll ts ↔ ∃ k ∈ ts, a ∈ objs k)
  | [] => by simp [objsAll]
  | k :: ks => by simp [objsAll, mem_objsAll a ks]

theorem objsAll_append : (a b : List (Tree T)) → objsAll (a ++ b) = objsAll a ++ objsAll b
  | [], b => rfl
  | k :: ks, b => by simp [objsAll, objsAll_append ks b]

theorem parent_supplied (f : T → List T) (t : Tree T) (h : Supplied f t) (a b : T) : Parent t a b ↔ a ∈ objs t ∧ b ∈ f a := by
  induction h with
  | node o ks h hk ih =>
    constructor
    · intro hp
      cases hp with
      | here _ _ k hm => exact ⟨by simp [objs], by rw [← h]; exact List.mem_map_of_mem hm⟩
      | deeper _ _ k _ _ hm hp =>
        have := (ih k hm).1 hp
        exact ⟨by simp only [objs, List.mem_cons, mem_objsAll]; exact .inr ⟨k, hm, this.1⟩, this.2⟩
    · rintro ⟨ha, hb⟩
      simp only [objs, List.mem_cons, mem_objsAll] at ha
      rcases ha with rfl | ⟨k, hm, ha⟩
      · rw [← h] at hb
        obtain ⟨k, hm, rfl⟩ := List.mem_map.1 hb
        exact .here _ _ k hm
      · exact .deeper _ _ k _ _ hm ((ih k hm).2 ⟨ha, hb⟩)

theorem every_eq (p : Plan) : everyNode p = p :: (everyNode p).tail := by cases p; simp [everyNode]

theorem isAux_decide (p : Plan) : p.isAux = decide (Intermediate p) := by
  rw [Bool.eq_iff_iff, isAux_iff, decide_eq_true_iff]

mutual
theorem below_spec (skip : Bool) : (p : Plan) → (below skip p).map Tree.obj = traverse skip p ∧ (∀ k ∈ below skip p, Supplied (traverse skip) k) ∧
    objsAll (below skip p) = (everyNode p).tail.filter fun q => !(skip && decide (Intermediate q))
  | .node i ks s => by
    obtain ⟨a1, a2, a3⟩ := belowAll_spec skip ks
    obtain ⟨b1, b2, b3⟩ := belowSub_spec skip s
    refine ⟨by simp [below, traverse, a1, b1], ?_, by simp [below, everyNode, objsAll_append, a3, b3]⟩
    intro k hk
    simp only [below, List.mem_append] at hk
    exact hk.elim (a2 k) (b2 k)
theorem belowAll_spec (skip : Bool) : (ks : List Plan) → (belowAll skip ks).map Tree.obj = traverseAll skip ks ∧ (∀ k ∈ belowAll skip ks, Supplied (traverse skip) k) ∧
    objsAll (belowAll skip ks) = (everyAll ks).filter fun q => !(skip && decide (Intermediate q))
  | [] => by simp [belowAll, traverseAll, everyAll, objsAll]
  | k :: ks => by
    obtain ⟨a1, a2, a3⟩ := below_spec skip k
    obtain ⟨b1, b2, b3⟩ := belowAll_spec skip ks
    by_cases hs : (skip && k.isAux) = true
    · refine ⟨by simp only [belowAll, traverseAll, if_pos hs, List.map_append, a1, b1], ?_, ?_⟩
      · intro x hx
        simp only [belowAll, if_pos hs, List.mem_append] at hx
        exact hx.elim (a2 x) (b2 x)
      · rw [isAux_decide] at hs
        simp only [belowAll, isAux_decide, if_pos hs, objsAll_append, a3, b3, everyAll, List.filter_append]
        rw [every_eq k, List.filter_cons]
        simp [hs]
    · refine ⟨by simp only [belowAll, traverseAll, if_neg hs, List.map_append, b1]; simp [Tree.obj], ?_, ?_⟩
      · intro x hx
        simp only [belowAll, if_neg hs, List.mem_append, List.mem_singleton] at hx
        rcases hx with rfl | hx
        · exact .node _ _ a1 a2
        · exact b2 x hx
      · rw [isAux_decide] at hs
        simp only [belowAll, isAux_decide, if_neg hs, objsAll_append, b3, everyAll, List.filter_append]
        rw [every_eq k, List.filter_cons]
        simp [hs, objsAll, objs, a3]
theorem belowSub_spec (skip : Bool) : (s : Option Plan) → (belowSub skip s).map Tree.obj = traverseSub skip s ∧ (∀ k ∈ belowSub skip s, Supplied (traverse skip) k) ∧
    objsAll (belowSub skip s) = (everySub s).filter fun q => !(skip && decide (Intermediate q))
  | none => by simp [belowSub, traverseSub, everySub, objsAll]
  | some k => by
    obtain ⟨a1, a2, a3⟩ := below_spec skip k
    by_cases hs : (skip && k.isAux) = true
    · refine ⟨by simp only [belowSub, traverseSub, if_pos hs, a1], ?_, ?_⟩
      · intro x hx
        simp only [belowSub, if_pos hs] at hx
        exact a2 x hx
      · rw [isAux_decide] at hs
        simp only [belowSub, isAux_decide, if_pos hs, a3, everySub]
        rw [every_eq k, List.filter_cons]
        simp [hs]
    · refine ⟨by simp only [belowSub, traverseSub, if_neg hs]; simp [Tree.obj], ?_, ?_⟩
      · intro x hx
        simp only [belowSub, if_neg hs, List.mem_singleton] at hx
        subst hx
        exact .node _ _ a1 a2
      · rw [isAux_decide] at hs
        simp only [belowSub, isAux_decide, if_neg hs, everySub]
        rw [every_eq k, List.filter_cons]
        simp [hs, objsAll, objs, a3]
end

theorem objs_unfold_plan (skip : Bool) (p : Plan) : objs (p.unfold skip) = toShow skip p := by
  simp [Plan.unfold, objs, toShow, (below_spec skip p).2.2]

mutual
theorem mem_traverse (skip : Bool) (b : Plan) : (p : Plan) → (b ∈ traverse skip p ↔ Next skip p b)
  | .node i ks s => by
    simp only [traverse, List.mem_append, mem_traverseAll skip b ks, mem_traverseSub skip b s]
    constructor
    · rintro (⟨k, hk, (⟨h, rfl⟩ | ⟨h1, h2, h3⟩)⟩ | ⟨k, rfl, (⟨h, rfl⟩ | ⟨h1, h2, h3⟩)⟩)
      · exact .direct _ _ (.kid _ _ _ _ hk) h
      · exact .via _ k _ (.kid _ _ _ _ hk) h1 h2 h3
      · exact .direct _ _ (.sub _ _ _) h
      · exact .via _ k _ (.sub _ _ _) h1 h2 h3
    · intro h
      cases h with
      | direct _ _ h hb =>
        cases h with
        | kid _ _ _ _ hk => exact .inl ⟨b, hk, .inl ⟨hb, rfl⟩⟩
        | sub => exact .inr ⟨b, rfl, .inl ⟨hb, rfl⟩⟩
      | via _ m _ h h1 h2 h3 =>
        cases h with
        | kid _ _ _ _ hk => exact .inl ⟨m, hk, .inr ⟨h1, h2, h3⟩⟩
        | sub => exact .inr ⟨m, rfl, .inr ⟨h1, h2, h3⟩⟩
theorem mem_traverseAll (skip : Bool) (b : Plan) : (ks : List Plan) →
    (b ∈ traverseAll skip ks ↔ ∃ k ∈ ks, (¬ (skip = true ∧ Intermediate k) ∧ b = k) ∨ (skip = true ∧ Intermediate k ∧ Next skip k b))
  | [] => by simp [traverseAll]
  | k :: ks => by
    simp only [traverseAll, List.mem_append, mem_traverseAll skip b ks, List.exists_mem_cons_iff]
    refine or_congr ?_ Iff.rfl
    by_cases hs : (skip && k.isAux) = true
    · rw [if_pos hs, mem_traverse skip b k]
      rw [skip_iff] at hs
      simp [hs]
    · rw [if_neg hs, List.mem_singleton]
      rw [skip_iff] at hs
      constructor
      · intro h; exact .inl ⟨hs, h⟩
      · rintro (h | ⟨h1, h2, -⟩)
        · exact h.2
        · exact absurd ⟨h1, h2⟩ hs
theorem mem_traverseSub (skip : Bool) (b : Plan) : (s : Option Plan) →
    (b ∈ traverseSub skip s ↔ ∃ k, s = some k ∧ ((¬ (skip = true ∧ Intermediate k) ∧ b = k) ∨ (skip = true ∧ Intermediate k ∧ Next skip k b)))
  | none => by simp [traverseSub]
  | some k => by
    simp only [traverseSub, Option.some.injEq, exists_eq_left']
    by_cases hs : (skip && k.isAux) = true
    · rw [if_pos hs, mem_traverse skip b k]
      rw [skip_iff] at hs
      simp [hs]
    · rw [if_neg hs, List.mem_singleton]
      rw [skip_iff] at hs
      constructor
      · intro h; exact .inl ⟨hs, h⟩
      · rintro (h | ⟨h1, h2, -⟩)
        · exact h.2
        · exact absurd ⟨h1, h2⟩ hs
end

/-- **C247.** The picture of a plan has one box for each node of the plan and its subplans, without the intermediate nodes below the root if they are to be skipped. It has one line
for each of these nodes but the root, and the lines lead from nodes to those next below them. Boxes are identified by hash values. -/
theorem C247_nodes (ann : Plan → String) (skip : Bool) (p : Plan) :
    (boxes (plotPlan ann skip p)).map (·.1) = (toShow skip p).map Plan.hash ∧
    (lines (plotPlan ann skip p)).map (·.2.1) = (toShow skip p).tail.map Plan.hash ∧
    ∀ x y d, (x, y, d) ∈ lines (plotPlan ann skip p) ↔ d = false ∧ ∃ a b, a ∈ toShow skip p ∧ Next skip a b ∧ x = a.hash ∧ y = b.hash := by
  refine ⟨?_, ?_, fun x y d => ?_⟩
  · rw [plotPlan, boxes_plot, objs_unfold_plan, List.map_map]; rfl
  · rw [plotPlan, heads_plot, objs_unfold_plan]
  · rw [plotPlan, lines_plot]
    have hs : Supplied (traverse skip) (p.unfold skip) := .node _ _ (below_spec skip p).1 (below_spec skip p).2.1
    constructor
    · rintro ⟨a, b, hp, h⟩
      simp only [Prod.mk.injEq] at h
      rw [parent_supplied _ _ hs, objs_unfold_plan, mem_traverse] at hp
      exact ⟨h.2.2, a, b, hp.1, hp.2, h.1, h.2.1⟩
    · rintro ⟨rfl, a, b, ha, hb, rfl, rfl⟩
      refine ⟨a, b, ?_, rfl⟩
      rw [parent_supplied _ _ hs, objs_unfold_plan, mem_traverse]
      exact ⟨ha, hb⟩

mutual
/-- The operators and tables of the nodes without children. -/
def ends : Plan → List (String × String)
  | .node i ks _ => match ks with
    | [] => [(i.nodeType, i.table)]
    | k :: ks => ends k ++ endsAll ks
/-- The same for several plans. -/
def endsAll : List Plan → List (String × String)
  | [] => []
  | k :: ks => ends k ++ endsAll ks
end

/-- No node has a subplan. -/
def NoSubplans (p : Plan) : Prop := ∀ q ∈ everyNode p, ∀ i ks r, q ≠ .node i ks (some r)

mutual
theorem leaves_plan : (p : Plan) → leaves p.hash = ends p
  | .node i ks s => by
    cases ks with
    | nil => simp [Plan.hash, hashAll, leaves, ends]
    | cons k ks => simp [Plan.hash, hashAll, leaves, ends, leaves_plan k, leavesAll_plan ks]
theorem leavesAll_plan : (ps : List Plan) → leavesAll (hashAll ps) = endsAll ps
  | [] => by simp [hashAll, leavesAll, endsAll]
  | k :: ks => by simp [hashAll, leavesAll, endsAll, leaves_plan k, leavesAll_plan ks]
end

mutual
theorem parts_plan : (p : Plan) → NoSubplans p → parts p.hash = (everyNode p).map Plan.hash
  | .node i ks s => by
    intro h
    cases s with
    | some r => exact absurd rfl (h _ (by simp [everyNode]) i ks r)
    | none =>
      have := partsAll_plan ks fun q hq => h q (by simp [everyNode, everySub, hq])
      simp [Plan.hash, parts, everyNode, everySub, this]
theorem partsAll_plan : (ps : List Plan) → (∀ q ∈ everyAll ps, ∀ i ks r, q ≠ .node i ks (some r)) → partsAll (hashAll ps) = (everyAll ps).map Plan.hash
  | [] => by simp [hashAll, partsAll, everyAll]
  | k :: ks => by
    intro h
    have h1 := parts_plan k fun q hq => h q (by simp [everyAll, hq])
    have h2 := partsAll_plan ks fun q hq => h q (by simp [everyAll, hq])
    simp [hashAll, partsAll, everyAll, h1, h2]
end

/-- The text and the look of a node: its operator and its table for scans, joins are bold, scans are grey, others are dashed and grey. -/
def look (i : Info) : String × Style :=
  match i.kind with
  | .join => (i.nodeType, ⟨some "bold", none⟩)
  | .scan => ("<<" ++ i.nodeType ++ ">>\n" ++ i.table, ⟨none, some "grey"⟩)
  | .auxiliary => (i.nodeType, ⟨some "dashed", some "grey"⟩)

/-- The annotation follows in a new line unless it is empty. -/
def annotated (text ann : String) : String := if ann = "" then text else text ++ "\n" ++ ann

/-- **C247 (partial).** The picture of a plan shows the operator (and table) and the annotation of each node, each in a box of its own. (Missing: nodes with subplans, see
`C247_operator_violated`; plans with equal leaves, see `C247_merged_violated`.) -/
theorem C247_labels_partial (ann : Plan → String) (skip : Bool) (p : Plan) (hs : NoSubplans p) (he : (ends p).Nodup) :
    ((toShow skip p).map Plan.hash).Nodup ∧
    ∀ k l s, Shows (plotPlan ann skip p) k l s ↔ ∃ q ∈ toShow skip p, q.hash = k ∧ l = annotated (look q.info).1 (ann q) ∧ s = (look q.info).2 := by
  have hall : ((everyNode p).map Plan.hash).Nodup := by
    rw [← parts_plan p hs]
    exact parts_nodup _ (by rw [leaves_plan]; exact he)
  have hsub : (toShow skip p).Sublist (everyNode p) := by
    rw [every_eq p]
    exact List.Sublist.cons_cons _ List.filter_sublist
  have hn : ((toShow skip p).map Plan.hash).Nodup := hall.sublist (hsub.map _)
  refine ⟨hn, fun k l s => ?_⟩
  obtain ⟨-, h2, -⟩ := C246_tree_partial Plan.hash (planLabel ann "") (p.unfold skip) (by rw [objs_unfold_plan]; exact hn)
  rw [plotPlan, h2, objs_unfold_plan]
  refine exists_congr fun q => and_congr_right fun hq => and_congr_right fun _ => ?_
  have : planLabel ann "" q = (annotated (look q.info).1 (ann q), (look q.info).2) := by
    have hq' := hs q (hsub.subset hq)
    cases q with
    | node i ks s =>
      cases s with
      | some r => exact absurd rfl (hq' i ks r)
      | none =>
        simp only [planLabel, subLabel, plainLabel, look, annotated, Plan.info]
        cases i.kind <;> rfl
  rw [this, Prod.mk.injEq]
  exact ⟨fun h => ⟨h.1.symm, h.2.symm⟩, fun h => ⟨h.1.symm, h.2.symm⟩⟩

/-- Example plan: an aggregation over a join of two tables. -/
def exPlan : Plan := .node ⟨.auxiliary, "Aggregate", "", ""⟩ [.node ⟨.join, "Hash Join", "", ""⟩ [.node ⟨.scan, "Seq Scan", "R", ""⟩ [] none,
  .node ⟨.auxiliary, "Hash", "", ""⟩ [.node ⟨.scan, "Seq Scan", "S", ""⟩ [] none] none] none] none

/-- The hypotheses are met, and skipping leaves four of the five nodes. -/
example : NoSubplans exPlan ∧ (ends exPlan).Nodup ∧ (toShow true exPlan).length = 4 := by
  refine ⟨?_, by decide +kernel, by decide +kernel⟩
  intro q hq i ks r
  simp only [exPlan, everyNode, everyAll, everySub, List.nil_append, List.append_nil, List.mem_cons, List.mem_append, List.not_mem_nil, or_false, List.cons_append] at hq
  rcases hq with rfl | rfl | rfl | rfl | rfl <;> simp

/-- **C247 (violated).** The box of a node with a subplan does not show its operator or table: plans that only differ in them get the same label. -/
theorem C247_operator_violated (i j : Info) (ks : List Plan) (r : Plan) (h : i.target = j.target) :
    planLabel (fun _ => "") "" (.node i ks (some r)) = planLabel (fun _ => "") "" (.node j ks (some r)) := by
  simp [planLabel, subLabel, h]

/-- A scan of a table whose filter needs an aggregate of the same table, in a subplan. -/
def exSub : Plan := .node ⟨.scan, "Seq Scan", "R", "InitPlan 1"⟩ [] (some (.node ⟨.auxiliary, "Aggregate", "", ""⟩ [.node ⟨.scan, "Seq Scan", "R", ""⟩ [] none] none))

/-- **C247 (violated).** Subplans are not part of the identifiers of boxes: for a scan with a subplan over the same table, the picture is a circle of two boxes. -/
theorem C247_merged_violated (ann : Plan → String) : ∃ a b, a ≠ b ∧ (boxes (plotPlan ann false exSub)).map (·.1) = [a, b, a] ∧
    lines (plotPlan ann false exSub) = [(a, b, false), (b, a, false)] := by
  refine ⟨.node "Seq Scan" "R" [], .node "Aggregate" "" [.node "Seq Scan" "R" []], ?_, rfl, rfl⟩
  intro h
  simp at h

/-! ### Join graphs -/

open PB.JoinGraph in
/-- A foreign key join from a column of `a` to a column of `b`: the tables are joined by exactly one pair of columns, that of `a` has a secondary index and that of `b` is the primary key. -/
def KeyJoin (partners : Nat → Nat → Option (List (Col × Col))) (pk secondary : Col → Bool) (e : Nat × Nat) (a b : Nat) : Prop :=
  ∃ c d, c.tab = a ∧ d.tab = b ∧ secondary c = true ∧ pk d = true ∧ (partners e.1 e.2 = some [(c, d)] ∨ partners e.1 e.2 = some [(d, c)])

open PB.JoinGraph in
/-- The pairs of joined columns belong to the two tables. -/
def Proper (partners : Nat → Nat → Option (List (Col × Col))) : Prop :=
  ∀ a b c d, partners a b = some [(c, d)] → (c.tab = a ∧ d.tab = b) ∨ (c.tab = b ∧ d.tab = a)

theorem boxes_map {A : Type} (f : A → K × String × Style) : (l : List A) → boxes (l.map fun a => Stmt.box (f a).1 (f a).2.1 (f a).2.2) = l.map f
  | [] => rfl
  | a :: l => by simp [boxes, boxes_map f l]

theorem lines_of_boxes {A : Type} (f : A → K × String × Style) : (l : List A) → lines (l.map fun a => Stmt.box (f a).1 (f a).2.1 (f a).2.2) = []
  | [] => rfl
  | a :: l => by simp [lines, lines_of_boxes f l]

theorem lines_map {A : Type} (f : A → Stmt K) (h : A → K × K × Bool) (hf : ∀ a, f a = .line (h a).1 (h a).2.1 (h a).2.2) : (l : List A) → lines (l.map f) = l.map h
  | [] => rfl
  | a :: l => by simp [lines, hf, lines_map f h hf l]

theorem boxes_of_lines {A : Type} (f : A → Stmt K) (h : A → K × K × Bool) (hf : ∀ a, f a = .line (h a).1 (h a).2.1 (h a).2.2) : (l : List A) → boxes (l.map f) = []
  | [] => rfl
  | a :: l => by simp [boxes, hf, boxes_of_lines f h hf l]

/-- The label of a table: its name, followed by the annotation if there is one. -/
def tableText (name : Nat → String) (ann : Option (Nat → String)) (t : Nat) : String := (ann.map fun a => name t ++ "\n" ++ a t).getD (name t)

theorem tableLabel_eq (name : Nat → String) (ann : Option (Nat → String)) (t : Nat) : tableLabel name ann t = tableText name ann t := by
  cases ann <;> rfl

open PB.JoinGraph in
theorem queryEdge_cases (name : Nat → String) (partners : Nat → Nat → Option (List (Col × Col))) (pk secondary : Col → Bool) (hp : Proper partners) (e : Nat × Nat) :
    (∃ a b, ((a, b) = e ∨ (b, a) = e) ∧ KeyJoin partners pk secondary e a b ∧ queryEdge name partners pk secondary e.1 e.2 = .line (name a) (name b) true) ∨
    ((∀ a b, ¬ KeyJoin partners pk secondary e a b) ∧ queryEdge name partners pk secondary e.1 e.2 = .line (name e.1) (name e.2) false) := by
  rcases hc : partners e.1 e.2 with _ | l
  · right
    refine ⟨?_, by simp [queryEdge, hc]⟩
    rintro a b ⟨c, d, -, -, -, -, h | h⟩ <;> simp [hc] at h
  · rcases l with _ | ⟨⟨c, d⟩, _ | ⟨y, l⟩⟩
    · right
      refine ⟨?_, by simp [queryEdge, hc]⟩
      rintro a b ⟨c, d, -, -, -, -, h | h⟩ <;> simp [hc] at h
    · by_cases h1 : (pk c && secondary d) = true
      · left
        refine ⟨d.tab, c.tab, ?_, ⟨d, c, rfl, rfl, ?_, ?_, .inr hc⟩, by simp only [queryEdge, hc, if_pos h1]⟩
        · rcases hp _ _ _ _ hc with ⟨h, h'⟩ | ⟨h, h'⟩
          · right; rw [h, h']
          · left; rw [h, h']
        · exact (Bool.and_eq_true _ _ ▸ h1).2
        · exact (Bool.and_eq_true _ _ ▸ h1).1
      · by_cases h2 : (pk d && secondary c) = true
        · left
          refine ⟨c.tab, d.tab, ?_, ⟨c, d, rfl, rfl, ?_, ?_, .inl hc⟩, by simp only [queryEdge, hc, if_neg h1, if_pos h2]⟩
          · rcases hp _ _ _ _ hc with ⟨h, h'⟩ | ⟨h, h'⟩
            · left; rw [h, h']
            · right; rw [h, h']
          · exact (Bool.and_eq_true _ _ ▸ h2).2
          · exact (Bool.and_eq_true _ _ ▸ h2).1
        · right
          refine ⟨?_, by simp only [queryEdge, hc, if_neg h1, if_neg h2]⟩
          rintro a b ⟨c', d', -, -, hs, hk, h | h⟩
          · simp only [hc, Option.some.injEq, List.cons.injEq, Prod.mk.injEq, and_true] at h
            obtain ⟨rfl, rfl⟩ := h
            exact h2 (by simp [hs, hk])
          · simp only [hc, Option.some.injEq, List.cons.injEq, Prod.mk.injEq, and_true] at h
            obtain ⟨rfl, rfl⟩ := h
            exact h1 (by simp [hs, hk])
    · right
      refine ⟨?_, by simp [queryEdge, hc]⟩
      rintro a b ⟨c', d', -, -, -, -, h | h⟩ <;> simp [hc] at h

open PB.JoinGraph in
/-- **C248 (partial).** With primary key/foreign key joins, the picture of the join graph of a query has one box for each table, and one line for each pair of joined tables, in the same order:
an arrow from the foreign key to the primary key if there is such a join, a line without arrow otherwise. (Missing: without them there is no picture, see `C248_query_violated`.) -/
theorem C248_query_partial (name : Nat → String) (ann : Option (Nat → String)) (nodes : List Nat) (edges : List (Nat × Nat))
    (partners : Nat → Nat → Option (List (Col × Col))) (pk secondary : Col → Bool) (hp : Proper partners) :
    ∃ g, plotQueryGraph name ann true nodes edges partners pk secondary = some g ∧
      boxes g = nodes.map (fun t => (name t, tableText name ann t, {})) ∧
      List.Forall₂ (fun e x => (∃ a b, ((a, b) = e ∨ (b, a) = e) ∧ KeyJoin partners pk secondary e a b ∧ x = (name a, name b, true)) ∨
        ((∀ a b, ¬ KeyJoin partners pk secondary e a b) ∧ x = (name e.1, name e.2, false))) edges (lines g) := by
  refine ⟨_, rfl, ?_, ?_⟩
  · rw [boxes_append, boxes_map (fun t => (name t, tableLabel name ann t, {}))]
    have : boxes (edges.map fun e => queryEdge name partners pk secondary e.1 e.2) = [] := by
      induction edges with
      | nil => rfl
      | cons e es ih =>
        rcases queryEdge_cases name partners pk secondary hp e with ⟨a, b, -, -, h⟩ | ⟨-, h⟩ <;> simp [h, boxes, ih]
    simp [this, tableLabel_eq]
  · rw [lines_append, lines_of_boxes (fun t => (name t, tableLabel name ann t, {})), List.nil_append]
    induction edges with
    | nil => exact .nil
    | cons e es ih =>
      rcases queryEdge_cases name partners pk secondary hp e with ⟨a, b, h1, h2, h⟩ | ⟨h1, h⟩
      · rw [List.map_cons, h]
        exact .cons (.inl ⟨a, b, h1, h2, rfl⟩) ih
      · rw [List.map_cons, h]
        exact .cons (.inr ⟨h1, rfl⟩) ih

open PB.JoinGraph in
/-- The hypothesis is met, and an arrow leads from the foreign key to the primary key. -/
example : Proper (fun a b => if (a, b) = (1, 2) then some [(⟨1, 0⟩, ⟨2, 0⟩)] else none) ∧
    (plotQueryGraph (fun t => if t = 1 then "R" else "S") none true [1, 2] [(1, 2)] (fun a b => if (a, b) = (1, 2) then some [(⟨1, 0⟩, ⟨2, 0⟩)] else none)
      (fun c => decide (c.tab = 1)) (fun c => decide (c.tab = 2))).map lines = some [("S", "R", true)] := by
  constructor
  · intro a b c d h
    simp only [] at h
    split_ifs at h with h'
    simp only [Prod.mk.injEq, Option.some.injEq, List.cons.injEq, and_true] at h h'
    obtain ⟨rfl, rfl⟩ := h
    exact .inl ⟨h'.1.symm, h'.2.symm⟩
  · decide

open PB.JoinGraph in
/-- **C248 (violated).** Without primary key/foreign key joins (the default), there is no picture of the join graph of any query with tables in its predicates: the call fails. -/
theorem C248_query_violated (name : Nat → String) (ann : Option (Nat → String)) (nodes : List Nat) (edges : List (Nat × Nat))
    (partners : Nat → Nat → Option (List (Col × Col))) (pk secondary : Col → Bool) (h : nodes ≠ []) :
    plotQueryGraph name ann false nodes edges partners pk secondary = none := by
  simp [plotQueryGraph, h]

open PB.JoinGraph in
/-- A foreign key join in a join graph: some predicate joins an indexed column of `a` and the primary key of `b`; indexes that became invalid do not count. -/
def GraphKey (g : JG) (e : Nat × Nat × Cond) (a b : Nat) : Prop :=
  ∃ j ∈ e.2.2, ∃ c d, ((c = j.1 ∧ d = j.2) ∨ (c = j.2 ∧ d = j.1)) ∧ c.tab = a ∧ d.tab = b ∧ (g.idx c).invalid = false ∧ (g.idx d).invalid = false ∧
    (g.idx c).kind ≠ .none ∧ (g.idx d).kind = .primary

open PB.JoinGraph in
/-- Each pair of tables has one edge, whose predicates join columns of both. -/
def OneEdge (g : JG) : Prop :=
  (∀ e ∈ g.edges, e.1 ≠ e.2.1 ∧ ∀ j ∈ e.2.2, (j.1.tab = e.1 ∧ j.2.tab = e.2.1) ∨ (j.1.tab = e.2.1 ∧ j.2.tab = e.1)) ∧
  ∀ e ∈ g.edges, ∀ f ∈ g.edges, ((e.1 = f.1 ∧ e.2.1 = f.2.1) ∨ (e.1 = f.2.1 ∧ e.2.1 = f.1)) → e = f

open PB.JoinGraph in
theorem edgeCond_of (g : JG) (ho : OneEdge g) (e : Nat × Nat × Cond) (he : e ∈ g.edges) (a b : Nat) (hab : (a = e.1 ∧ b = e.2.1) ∨ (a = e.2.1 ∧ b = e.1)) :
    g.edgeCond a b = some e.2.2 := by
  unfold JG.edgeCond
  have hb : between a b e = true := by
    rcases hab with ⟨rfl, rfl⟩ | ⟨rfl, rfl⟩ <;> simp [between]
  rcases hf : g.edges.find? (between a b) with _ | f
  · rw [List.find?_eq_none] at hf
    exact absurd hb (hf e he)
  · have h1 := List.mem_of_find?_eq_some hf
    have h2 := List.find?_some hf
    have : e = f := by
      refine ho.2 e he f h1 ?_
      simp only [between, Bool.or_eq_true, Bool.and_eq_true, beq_iff_eq] at h2
      rcases hab with ⟨rfl, rfl⟩ | ⟨rfl, rfl⟩ <;> rcases h2 with ⟨h, h'⟩ | ⟨h, h'⟩ <;> simp [h, h']
    simp [this]

open PB.JoinGraph in
theorem isPkFk_iff (g : JG) (ho : OneEdge g) (e : Nat × Nat × Cond) (he : e ∈ g.edges) (a b : Nat) (hab : (a = e.1 ∧ b = e.2.1) ∨ (a = e.2.1 ∧ b = e.1)) :
    g.isPkFk a b = true ↔ GraphKey g e a b := by
  obtain ⟨hne, hj⟩ := ho.1 e he
  simp only [JG.isPkFk, edgeCond_of g ho e he a b hab, List.any_eq_true, Bool.and_eq_true, Index.isIndexed, Index.isPrimary, Index.isSecondary, Bool.or_eq_true,
    Bool.not_eq_true', beq_iff_eq]
  have hab' : a ≠ b := by rcases hab with ⟨rfl, rfl⟩ | ⟨rfl, rfl⟩ <;> [exact hne; exact hne.symm]
  constructor
  · rintro ⟨j, hm, h1, h2⟩
    refine ⟨j, hm, colOf a j, colOf b j, ?_, ?_, ?_, by rcases h1 with h1 | h1 <;> exact h1.1, h2.1, ?_, h2.2⟩
    · rcases hab with ⟨rfl, rfl⟩ | ⟨rfl, rfl⟩ <;> rcases hj j hm with ⟨h, h'⟩ | ⟨h, h'⟩ <;> simp [colOf, h, h', hne, hne.symm]
    · rcases hab with ⟨rfl, rfl⟩ | ⟨rfl, rfl⟩ <;> rcases hj j hm with ⟨h, h'⟩ | ⟨h, h'⟩ <;> simp [colOf, h, h', hne, hne.symm]
    · rcases hab with ⟨rfl, rfl⟩ | ⟨rfl, rfl⟩ <;> rcases hj j hm with ⟨h, h'⟩ | ⟨h, h'⟩ <;> simp [colOf, h, h', hne, hne.symm]
    · rcases h1 with h1 | h1 <;> simp [h1.2]
  · rintro ⟨j, hm, c, d, hcd, rfl, rfl, h1, h2, h3, h4⟩
    have hc : colOf c.tab j = c ∧ colOf d.tab j = d := by
      rcases hcd with ⟨rfl, rfl⟩ | ⟨rfl, rfl⟩ <;> simp [colOf, hab', hab'.symm]
    refine ⟨j, hm, ?_, ?_⟩
    · rw [hc.1]
      cases hk : (g.idx c).kind <;> simp_all
    · rw [hc.2]
      exact ⟨h2, h4⟩

open PB.JoinGraph in
/-- **C248.** The picture of a join graph has one box for each table, black for tables that are still free and blue for those that have been joined, and one line for each join: an arrow
from the foreign key to the primary key if there is such a join, a line without arrow otherwise. -/
theorem C248_graph (name : Nat → String) (ann : Option (Nat → String)) (g : JG) (ho : OneEdge g) (hn : (g.nodes.map (·.1)).Nodup) :
    boxes (plotJoinGraph name ann g) = g.nodes.map (fun x => (name x.1, tableText name ann x.1, ⟨none, some (if x.2 = true then "black" else "blue")⟩)) ∧
      List.Forall₂ (fun e x => (∃ a b, ((a = e.1 ∧ b = e.2.1) ∨ (a = e.2.1 ∧ b = e.1)) ∧ GraphKey g e a b ∧ x = (name a, name b, true)) ∨
        ((∀ a b, ¬ GraphKey g e a b) ∧ x = (name e.1, name e.2.1, false))) g.edges (lines (plotJoinGraph name ann g)) := by
  have key : ∀ es : List (Nat × Nat × Cond), (∀ e ∈ es, e ∈ g.edges) →
      let st := es.map fun e => if g.isPkFk e.1 e.2.1 then Stmt.line (name e.1) (name e.2.1) true
        else if g.isPkFk e.2.1 e.1 then .line (name e.2.1) (name e.1) true else .line (name e.1) (name e.2.1) false
      boxes st = [] ∧ List.Forall₂ (fun e x => (∃ a b, ((a = e.1 ∧ b = e.2.1) ∨ (a = e.2.1 ∧ b = e.1)) ∧ GraphKey g e a b ∧ x = (name a, name b, true)) ∨
        ((∀ a b, ¬ GraphKey g e a b) ∧ x = (name e.1, name e.2.1, false))) es (lines st) := by
    intro es
    induction es with
    | nil => intro _; exact ⟨rfl, .nil⟩
    | cons e es ih =>
      intro hm
      obtain ⟨i1, i2⟩ := ih fun e he => hm e (by simp [he])
      have he := hm e (by simp)
      have k1 := isPkFk_iff g ho e he e.1 e.2.1 (.inl ⟨rfl, rfl⟩)
      have k2 := isPkFk_iff g ho e he e.2.1 e.1 (.inr ⟨rfl, rfl⟩)
      simp only [List.map_cons]
      by_cases h1 : g.isPkFk e.1 e.2.1 = true
      · simp only [if_pos h1, boxes, lines]
        exact ⟨i1, .cons (.inl ⟨e.1, e.2.1, .inl ⟨rfl, rfl⟩, k1.1 h1, rfl⟩) i2⟩
      · by_cases h2 : g.isPkFk e.2.1 e.1 = true
        · simp only [if_neg h1, if_pos h2, boxes, lines]
          exact ⟨i1, .cons (.inl ⟨e.2.1, e.1, .inr ⟨rfl, rfl⟩, k2.1 h2, rfl⟩) i2⟩
        · simp only [if_neg h1, if_neg h2, boxes, lines]
          refine ⟨i1, .cons (.inr ⟨?_, rfl⟩) i2⟩
          intro a b hk
          obtain ⟨j, hj, c, d, hcd, ha, hb, -⟩ := id hk
          have hab : (a = e.1 ∧ b = e.2.1) ∨ (a = e.2.1 ∧ b = e.1) := by
            rcases (ho.1 e he).2 j hj with ⟨x, y⟩ | ⟨x, y⟩ <;> rcases hcd with ⟨rfl, rfl⟩ | ⟨rfl, rfl⟩ <;> subst ha <;> subst hb <;> simp [x, y]
          rcases hab with ⟨rfl, rfl⟩ | ⟨rfl, rfl⟩
          · exact h1 (k1.2 hk)
          · exact h2 (k2.2 hk)
  obtain ⟨k1, k2⟩ := key g.edges fun e he => he
  unfold plotJoinGraph
  rw [boxes_append, lines_append, boxes_map (fun t => (name t, tableLabel name ann t, { color := some (if g.isFree t then "black" else "blue") })),
    lines_of_boxes (fun t => (name t, tableLabel name ann t, { color := some (if g.isFree t then "black" else "blue") })), List.nil_append, k1, List.append_nil]
  refine ⟨?_, k2⟩
  simp only [Dict.keys, List.map_map]
  refine List.map_congr_left fun x hx => ?_
  have : g.isFree x.1 = x.2 := by
    have := Dict.get?_of_mem (d := g.nodes) hn hx
    simp [JG.isFree, this]
  simp [tableLabel_eq, this]

open PB.JoinGraph in
/-- A join graph of three tables: `R.0 = S.0` with the primary key of `R`, and `S.1 = T.1`; `R` has been joined. -/
def exGraph : JG := ⟨[(1, false), (2, true), (3, true)], [(1, 2, [(⟨1, 0⟩, ⟨2, 0⟩)]), (2, 3, [(⟨2, 1⟩, ⟨3, 1⟩)])], [(⟨1, 0⟩, ⟨2, 0⟩), (⟨2, 1⟩, ⟨3, 1⟩)],
  fun c => if c = ⟨1, 0⟩ then ⟨.primary, false⟩ else if c = ⟨2, 0⟩ then ⟨.secondary, false⟩ else ⟨.none, false⟩⟩

/-- The hypotheses are met, and the arrow leads to the primary key. -/
example : OneEdge exGraph ∧ (exGraph.nodes.map (·.1)).Nodup ∧
    lines (plotJoinGraph (fun t => if t = 1 then "R" else if t = 2 then "S" else "T") none exGraph) = [("S", "R", true), ("S", "T", false)] := by
  refine ⟨⟨?_, ?_⟩, by decide, by decide⟩
  · intro e he
    simp only [exGraph, List.mem_cons, List.not_mem_nil, or_false] at he
    rcases he with rfl | rfl <;> simp
  · intro e he f hf
    simp only [exGraph, List.mem_cons, List.not_mem_nil, or_false] at he hf
    rcases he with rfl | rfl <;> rcases hf with rfl | rfl <;> simp

/-! ### Annotations -/

/-- **C248.** The annotation of a table consists of the requested annotations, one in each line and in their order; unknown annotations, and none at all, are rejected. -/
theorem C248_annotations (fns : List (String × (Nat → String))) (names : List String) :
    ((setupAnnotations fns names).isSome ↔ names ≠ [] ∧ ∀ n ∈ names, (fns.lookup n).isSome) ∧
    ∀ f, setupAnnotations fns names = some f → ∃ fs : List (Nat → String), List.Forall₂ (fun n a => fns.lookup n = some a) names fs ∧
      ∀ t, f t = "\n".intercalate (fs.map fun a => a t) := by
  have hm : ∀ ns : List String, (∃ fs : List (Nat → String), (ns.mapM fun n => fns.lookup n) = some fs ∧ List.Forall₂ (fun n a => fns.lookup n = some a) ns fs) ∨
      ((ns.mapM fun n => fns.lookup n) = none ∧ ∃ n ∈ ns, (fns.lookup n) = none) := by
    intro ns
    induction ns with
    | nil => exact .inl ⟨[], rfl, .nil⟩
    | cons n ns ih =>
      rcases hl : fns.lookup n with _ | a
      · exact .inr ⟨by simp [List.mapM_cons, hl], n, by simp, hl⟩
      · rcases ih with ⟨fs, h1, h2⟩ | ⟨h1, m, hm, h2⟩
        · exact .inl ⟨a :: fs, by simp [List.mapM_cons, hl, h1], .cons hl h2⟩
        · exact .inr ⟨by simp [List.mapM_cons, hl, h1], m, by simp [hm], h2⟩
  rcases hm names with ⟨fs, h1, h2⟩ | ⟨h1, m, hm, h2⟩
  · have hall : ∀ n ∈ names, (fns.lookup n).isSome := by
      clear h1 hm
      induction h2 with
      | nil => simp
      | cons h _ ih => 
        intro n hn
        rcases List.mem_cons.1 hn with rfl | hn
        · simp [h]
        · exact ih n hn
    cases h2 with
    | nil => simp [setupAnnotations]
    | cons h hr =>
      refine ⟨?_, ?_⟩
      · simp only [setupAnnotations, h1, Option.isSome_some, true_iff]
        exact ⟨by simp, hall⟩
      · intro f hf
        simp only [setupAnnotations, h1, Option.some.injEq] at hf
        exact ⟨_, .cons h hr, fun t => by rw [← hf]⟩
  · refine ⟨?_, fun f hf => by simp [setupAnnotations, h1] at hf⟩
    simp only [setupAnnotations, h1, Option.isSome_none, Bool.false_eq_true, false_iff, not_and, not_forall]
    exact fun _ => ⟨m, hm, by simp [h2]⟩

/-- Two annotations. -/
example : (setupAnnotations [("a", fun _ => "x"), ("b", fun _ => "y")] ["b", "a"]).map (fun f => f 0) = some "y\nx" := by decide +kernel

/-! ### QEP synopses -/

/-- One step down in a synopsis: to a child of the node, or to a child of its subquery. -/
inductive At1 : QNode → Step → String → QNode → Prop
  | child (c : List (String × String)) (ks : List (String × QNode)) (s : Option QNode) (i : Nat) (id : String) (k : QNode) (h : ks[i]? = some (id, k)) :
      At1 (.node c ks s) (.child i) id k
  | sub (c : List (String × String)) (ks : List (String × QNode)) (c' : List (String × String)) (rs : List (String × QNode)) (s' : Option QNode) (i : Nat) (id : String) (k : QNode)
      (h : rs[i]? = some (id, k)) : At1 (.node c ks (some (.node c' rs s'))) (.sub i) id k

/-- The node with the identifier `id` at a position of the synopsis. -/
inductive At : QNode → List Step → String → QNode → Prop
  | one (q : QNode) (s : Step) (id : String) (k : QNode) (h : At1 q s id k) : At q [s] id k
  | more (q : QNode) (s : Step) (id : String) (k : QNode) (p : List Step) (id' : String) (k' : QNode) (h : At1 q s id k) (h' : At k p id' k') : At q (s :: p) id' k'

/-- The positions inside of subqueries that do not enter another subquery, as they are drawn. -/
inductive AtPlain : QNode → List Step → String → QNode → Prop
  | one (c ks s) (i : Nat) (id : String) (k : QNode) (h : ks[i]? = some (id, k)) : AtPlain (.node c ks s) [.child i] id k
  | more (c ks s) (i : Nat) (id : String) (k : QNode) (p : List Step) (id' : String) (k' : QNode) (h : ks[i]? = some (id, k)) (h' : AtPlain k p id' k') :
      AtPlain (.node c ks s) (.child i :: p) id' k'

/-- The positions that are drawn: subqueries of nodes outside of subqueries. -/
inductive Drawn : QNode → List Step → String → QNode → Prop
  | one (q : QNode) (s : Step) (id : String) (k : QNode) (h : At1 q s id k) : Drawn q [s] id k
  | more (q : QNode) (i : Nat) (id : String) (k : QNode) (p : List Step) (id' : String) (k' : QNode) (h : At1 q (.child i) id k) (h' : Drawn k p id' k') :
      Drawn q (.child i :: p) id' k'
  | inside (q : QNode) (i : Nat) (id : String) (k : QNode) (p : List Step) (id' : String) (k' : QNode) (h : At1 q (.sub i) id k) (h' : AtPlain k p id' k') :
      Drawn q (.sub i :: p) id' k'

/-- The text of a box: the identifier, and the costs of the operators if there are any. -/
def boxText (id : String) : QNode → String
  | .node [] _ _ => id ++ "\n"
  | .node (c :: cs) _ _ => id ++ "\n" ++ ("[" ++ ", ".intercalate ((c :: cs).map fun c => c.1 ++ "=" ++ c.2) ++ "]")

/-- There is a subquery that is not empty. -/
def HasSubquery : QNode → Prop
  | .node _ _ none => False
  | .node _ _ (some (.node c ks _)) => c ≠ [] ∨ ks ≠ []

open Classical in
/-- Boxes of nodes in subqueries and of nodes with a subquery are dashed. -/
noncomputable def boxStyle (p : List Step) (k : QNode) : Style := if (∃ i, Step.sub i ∈ p) ∨ HasSubquery k then ⟨some "dashed", none⟩ else ⟨none, none⟩

theorem hasSub_iff (k : QNode) : hasSub k = true ↔ HasSubquery k := by
  rcases k with ⟨c, ks, _ | ⟨c', ks', s'⟩⟩
  · simp [hasSub, HasSubquery]
  · cases c' <;> cases ks' <;> simp [hasSub, HasSubquery, QNode.truthy]

theorem style_child (i : Nat) (k : QNode) : (if hasSub k then ({ style := some "dashed" } : Style) else {}) = boxStyle [.child i] k := by
  by_cases h : hasSub k = true
  · simp [boxStyle, h, (hasSub_iff k).1 h]
  · simp [boxStyle, h, mt (hasSub_iff k).2 h]

theorem style_more (i : Nat) (p : List Step) (k : QNode) : boxStyle (.child i :: p) k = boxStyle p k := by
  have : (∃ j, Step.sub j ∈ Step.child i :: p) ↔ ∃ j, Step.sub j ∈ p := by simp
  by_cases h : (∃ j, Step.sub j ∈ p) ∨ HasSubquery k
  · rw [boxStyle, boxStyle, if_pos h, if_pos (by rwa [this])]
  · rw [boxStyle, boxStyle, if_neg h, if_neg (by rwa [this])]

theorem style_sub (i : Nat) (p : List Step) (k : QNode) : boxStyle (.sub i :: p) k = { style := some "dashed" } := by
  unfold boxStyle
  rw [if_pos (.inl ⟨i, by simp⟩)]

theorem qLabel_eq (id : String) (n : QNode) : qLabel id n = boxText id n := by
  obtain ⟨c, ks, s⟩ := n
  cases c <;> simp [qLabel, boxText, QNode.costs]

mutual
theorem mem_renderSub (cur : List Step) : (q : QNode) → ∀ x l t, (x, l, t) ∈ boxes (renderSub cur .child q) ↔
    t = { style := some "dashed" } ∧ ∃ p id k, AtPlain q p id k ∧ x = cur ++ p ∧ l = boxText id k
  | .node c ks s => by
    intro x l t
    simp only [renderSub]
    rw [mem_renderSubKids cur .child 0 ks x l t]
    refine and_congr_right fun _ => ?_
    constructor
    · rintro ⟨i, id, k, h, (⟨rfl, rfl⟩ | ⟨p, id', k', hp, rfl, rfl⟩)⟩
      · exact ⟨_, _, _, .one c ks s i id k h, by simp, rfl⟩
      · exact ⟨_, _, _, .more c ks s i id k p id' k' h hp, by simp, rfl⟩
    · rintro ⟨p, id, k, hp, rfl, rfl⟩
      cases hp with
      | one _ _ _ i _ _ h => exact ⟨i, id, k, h, .inl ⟨by simp, rfl⟩⟩
      | more _ _ _ i id' k' p _ _ h hp => exact ⟨i, id', k', h, .inr ⟨p, id, k, hp, by simp, rfl⟩⟩
theorem mem_renderSubKids (cur : List Step) (step : Nat → Step) (n : Nat) : (ks : List (String × QNode)) → ∀ x l t, (x, l, t) ∈ boxes (renderSubKids cur step n ks) ↔
    t = { style := some "dashed" } ∧
    ∃ i id k, ks[i]? = some (id, k) ∧ ((x = cur ++ [step (n + i)] ∧ l = boxText id k) ∨ ∃ p id' k', AtPlain k p id' k' ∧ x = cur ++ [step (n + i)] ++ p ∧ l = boxText id' k')
  | [] => by simp [renderSubKids, boxes]
  | (id, k) :: ks => by
    intro x l t
    have h1 := mem_renderSub (cur ++ [step n]) k x l t
    have h2 := mem_renderSubKids cur step (n + 1) ks x l t
    simp only [renderSubKids, boxes, boxes_append, List.mem_cons, List.mem_append, h1, h2, Prod.mk.injEq, qLabel_eq]
    constructor
    · rintro (⟨rfl, rfl, rfl⟩ | ⟨rfl, p, id', k', hp, rfl, rfl⟩ | ⟨rfl, i, id', k', h, hr⟩)
      · exact ⟨rfl, 0, id, k, rfl, .inl ⟨rfl, rfl⟩⟩
      · exact ⟨rfl, 0, id, k, rfl, .inr ⟨p, id', k', hp, rfl, rfl⟩⟩
      · exact ⟨rfl, i + 1, id', k', by simpa using h, by rwa [show n + (i + 1) = n + 1 + i by omega]⟩
    · rintro ⟨rfl, i, id', k', h, hr⟩
      cases i with
      | zero =>
        simp only [List.getElem?_cons_zero, Option.some.injEq, Prod.mk.injEq] at h
        obtain ⟨rfl, rfl⟩ := h
        rcases hr with ⟨rfl, rfl⟩ | ⟨p, id', k', hp, rfl, rfl⟩
        · exact .inl ⟨rfl, rfl, rfl⟩
        · exact .inr (.inl ⟨rfl, p, id', k', hp, rfl, rfl⟩)
      | succ i => exact .inr (.inr ⟨rfl, i, id', k', by simpa using h, by rwa [show n + 1 + i = n + (i + 1) by omega]⟩)
end

mutual
theorem mem_plotQ (cur : List Step) : (q : QNode) → ∀ x l t, (x, l, t) ∈ boxes (plotQ cur q) ↔ ∃ p id k, Drawn q p id k ∧ x = cur ++ p ∧ l = boxText id k ∧ t = boxStyle p k
  | .node c ks s => by
    intro x l t
    simp only [plotQ, boxes_append, List.mem_append]
    rw [mem_plotQKids cur 0 ks x l t]
    have hsub : (x, l, t) ∈ boxes (plotQSub cur s) ↔ ∃ c' rs s', s = some (.node c' rs s') ∧ t = { style := some "dashed" } ∧ ∃ i id k, rs[i]? = some (id, k) ∧
        ((x = cur ++ [.sub i] ∧ l = boxText id k) ∨ ∃ p id' k', AtPlain k p id' k' ∧ x = cur ++ [.sub i] ++ p ∧ l = boxText id' k') := by
      rcases s with _ | ⟨c', rs, s'⟩
      · simp [plotQSub, boxes]
      · simp only [plotQSub]
        by_cases hb : (QNode.node c' rs s').truthy = true
        · rw [if_pos hb, renderSub, mem_renderSubKids cur .sub 0 rs x l t]
          simp only [Nat.zero_add]
          exact ⟨fun h => ⟨c', rs, s', rfl, h⟩, fun ⟨_, _, _, h, h'⟩ => by cases h; exact h'⟩
        · rw [if_neg hb]
          simp only [QNode.truthy, Bool.or_eq_true, Bool.not_eq_true', List.isEmpty_eq_false_iff, not_or, ne_eq, not_not] at hb
          constructor
          · simp [boxes]
          · rintro ⟨_, _, _, h, -, i, id, k, hk, -⟩
            cases h
            simp [hb.1] at hk
    rw [hsub]
    constructor
    · rintro (⟨c', rs, s', rfl, rfl, i, id, k, h, (⟨rfl, rfl⟩ | ⟨p, id', k', hp, rfl, rfl⟩)⟩ | ⟨i, id, k, h, (⟨rfl, rfl, rfl⟩ | ⟨p, id', k', hp, rfl, rfl, rfl⟩)⟩)
      · exact ⟨_, _, _, .one _ _ _ _ (.sub c ks c' rs s' i id k h), rfl, rfl, (style_sub _ _ _).symm⟩
      · exact ⟨_, _, _, .inside _ i id k p id' k' (.sub c ks c' rs s' i id k h) hp, by simp, rfl, (style_sub _ _ _).symm⟩
      · exact ⟨_, _, _, .one _ _ _ _ (.child c ks s i id k h), by simp, rfl, by simp [boxStyle]⟩
      · exact ⟨_, _, _, .more _ i id k p id' k' (.child c ks s i id k h) hp, by simp, rfl, (style_more _ _ _).symm⟩
    · rintro ⟨p, id, k, hd, rfl, rfl, rfl⟩
      cases hd with
      | one _ st _ _ h =>
        cases h with
        | child _ _ _ i _ _ h => exact .inr ⟨i, id, k, h, .inl ⟨by simp, rfl, by simp [boxStyle]⟩⟩
        | sub _ _ c' rs s' i _ _ h => exact .inl ⟨c', rs, s', rfl, style_sub _ _ _, i, id, k, h, .inl ⟨rfl, rfl⟩⟩
      | more _ i id' k' p _ _ h hp =>
        cases h with
        | child _ _ _ _ _ _ h => exact .inr ⟨i, id', k', h, .inr ⟨p, id, k, hp, by simp, rfl, style_more _ _ _⟩⟩
      | inside _ i id' k' p _ _ h hp =>
        cases h with
        | sub _ _ c' rs s' _ _ _ h => exact .inl ⟨c', rs, s', rfl, style_sub _ _ _, i, id', k', h, .inr ⟨p, id, k, hp, by simp, rfl⟩⟩
theorem mem_plotQKids (cur : List Step) (n : Nat) : (ks : List (String × QNode)) → ∀ x l t, (x, l, t) ∈ boxes (plotQKids cur n ks) ↔
    ∃ i id k, ks[i]? = some (id, k) ∧ ((x = cur ++ [.child (n + i)] ∧ l = boxText id k ∧ t = boxStyle [.child i] k) ∨
      ∃ p id' k', Drawn k p id' k' ∧ x = cur ++ [.child (n + i)] ++ p ∧ l = boxText id' k' ∧ t = boxStyle p k')
  | [] => by simp [plotQKids, boxes]
  | (id, k) :: ks => by
    intro x l t
    have h1 := mem_plotQ (cur ++ [.child n]) k x l t
    have h2 := mem_plotQKids cur (n + 1) ks x l t
    simp only [plotQKids, boxes, boxes_append, List.mem_cons, List.mem_append, h1, h2, Prod.mk.injEq, qLabel_eq, style_child 0]
    constructor
    · rintro (⟨rfl, rfl, rfl⟩ | ⟨p, id', k', hp, rfl, rfl, rfl⟩ | ⟨i, id', k', h, hr⟩)
      · exact ⟨0, id, k, rfl, .inl ⟨rfl, rfl, rfl⟩⟩
      · exact ⟨0, id, k, rfl, .inr ⟨p, id', k', hp, rfl, rfl, rfl⟩⟩
      · exact ⟨i + 1, id', k', by simpa using h, by
          rw [show n + (i + 1) = n + 1 + i by omega, style_more (i + 1), ← style_more i]; exact hr⟩
    · rintro ⟨i, id', k', h, hr⟩
      cases i with
      | zero =>
        simp only [List.getElem?_cons_zero, Option.some.injEq, Prod.mk.injEq] at h
        obtain ⟨rfl, rfl⟩ := h
        rcases hr with ⟨rfl, rfl, rfl⟩ | ⟨p, id', k', hp, rfl, rfl, rfl⟩
        · exact .inl ⟨rfl, rfl, rfl⟩
        · exact .inr (.inl ⟨p, id', k', hp, rfl, rfl, rfl⟩)
      | succ i =>
        refine .inr (.inr ⟨i, id', k', by simpa using h, ?_⟩)
        rw [show n + 1 + i = n + (i + 1) by omega, style_more i, ← style_more (i + 1)]; exact hr
end

mutual
theorem lines_renderSub (cur : List Step) (step : Nat → Step) : (q : QNode) → lines (renderSub cur step q) = (boxes (renderSub cur step q)).map fun x => (x.1.dropLast, x.1, true)
  | .node c ks s => by simpa only [renderSub] using lines_renderSubKids cur step 0 ks
theorem lines_renderSubKids (cur : List Step) (step : Nat → Step) (n : Nat) :
    (ks : List (String × QNode)) → lines (renderSubKids cur step n ks) = (boxes (renderSubKids cur step n ks)).map fun x => (x.1.dropLast, x.1, true)
  | [] => rfl
  | (id, k) :: ks => by
    have h1 := lines_renderSub (cur ++ [step n]) .child k
    have h2 := lines_renderSubKids cur step (n + 1) ks
    simp [renderSubKids, lines, boxes, lines_append, boxes_append, h1, h2]
end

mutual
theorem lines_plotQ (cur : List Step) : (q : QNode) → lines (plotQ cur q) = (boxes (plotQ cur q)).map fun x => (x.1.dropLast, x.1, true)
  | .node c ks s => by
    have h : lines (plotQSub cur s) = (boxes (plotQSub cur s)).map fun x => (x.1.dropLast, x.1, true) := by
      rcases s with _ | r
      · rfl
      · simp only [plotQSub]
        split_ifs
        · exact lines_renderSub cur .sub r
        · rfl
    simp [plotQ, lines_append, boxes_append, h, lines_plotQKids cur 0 ks]
theorem lines_plotQKids (cur : List Step) (n : Nat) :
    (ks : List (String × QNode)) → lines (plotQKids cur n ks) = (boxes (plotQKids cur n ks)).map fun x => (x.1.dropLast, x.1, true)
  | [] => rfl
  | (id, k) :: ks => by
    have h1 := lines_plotQ (cur ++ [.child n]) k
    have h2 := lines_plotQKids cur (n + 1) ks
    simp [plotQKids, lines, boxes, lines_append, boxes_append, h1, h2]
end

/-- No subquery contains a node with a subquery of its own (empty ones do not count). -/
def NoNesting (q : QNode) : Prop := ∀ p id k i, At q (p ++ [.sub i]) id k → ∀ s, s ∈ p → ∃ j, s = .child j

theorem drawn_at {q p id k} (h : Drawn q p id k) : At q p id k := by
  induction h with
  | one q s id k h => exact .one _ _ _ _ h
  | more q i id k p id' k' h h' ih => exact .more _ _ _ _ _ _ _ h ih
  | inside q i id k p id' k' h h' =>
    refine .more _ _ _ _ _ _ _ h ?_
    clear h
    induction h' with
    | one c ks s i id k h => exact .one _ _ _ _ (.child _ _ _ _ _ _ h)
    | more c ks s i id k p id' k' h h' ih => exact .more _ _ _ _ _ _ _ (.child _ _ _ _ _ _ h) ih

theorem plain_of {q p id k} (h : At q p id k) (hp : ∀ s ∈ p, ∃ j, s = Step.child j) : AtPlain q p id k := by
  induction h with
  | one q s id k h =>
    cases h with
    | child c ks s i id k h => exact .one _ _ _ _ _ _ h
    | sub _ _ _ _ _ i => obtain ⟨j, hj⟩ := hp (.sub i) (by simp); cases hj
  | more q s id k p id' k' h h' ih =>
    cases h with
    | child c ks s i id k h => exact .more _ _ _ _ _ _ _ _ _ h (ih fun s hs => hp s (by simp [hs]))
    | sub _ _ _ _ _ i => obtain ⟨j, hj⟩ := hp (.sub i) (by simp); cases hj

/-- A position with a step into a subquery has a part that ends there. -/
theorem prefix_of {q p id k} (h : At q p id k) (a : List Step) (i : Nat) (b : List Step) (hp : p = a ++ .sub i :: b) : ∃ id' k', At q (a ++ [.sub i]) id' k' := by
  induction h generalizing a with
  | one q s id k h =>
    rcases a with _ | ⟨x, a⟩
    · simp at hp
      obtain ⟨rfl, rfl⟩ := hp
      exact ⟨id, k, .one _ _ _ _ h⟩
    · simp at hp
  | more q s id k p id' k' h h' ih =>
    rcases a with _ | ⟨x, a⟩
    · simp only [List.nil_append, List.cons.injEq] at hp
      obtain ⟨rfl, rfl⟩ := hp
      exact ⟨id, k, .one _ _ _ _ h⟩
    · simp only [List.cons_append, List.cons.injEq] at hp
      obtain ⟨rfl, rfl⟩ := hp
      obtain ⟨id'', k'', h2⟩ := ih a rfl
      exact ⟨id'', k'', .more _ _ _ _ _ _ _ h h2⟩

theorem drawn_of {q p id k} (h : At q p id k) (hn : NoNesting q) : Drawn q p id k := by
  induction h with
  | one q s id k h => exact .one _ _ _ _ h
  | more q s id k p id' k' h h' ih =>
    cases s with
    | child i =>
      refine .more _ _ _ _ _ _ _ h (ih ?_)
      intro p2 id2 k2 i2 h2 s hs
      exact hn (.child i :: p2) id2 k2 i2 (.more _ _ _ _ _ _ _ h h2) s (by simp [hs])
    | sub i =>
      refine .inside _ _ _ _ _ _ _ h (plain_of h' ?_)
      intro s hs
      rcases s with j | j
      · exact ⟨j, rfl⟩
      · obtain ⟨a, b, hab⟩ := List.append_of_mem hs
        obtain ⟨id2, k2, h2⟩ := prefix_of h' a j b hab
        obtain ⟨x, hx⟩ := hn (.sub i :: a) id2 k2 j (.more _ _ _ _ _ _ _ h h2) (.sub i) (by simp)
        cases hx

/-- **C249 (partial).** The picture of a QEP synopsis has a box for each of its nodes (beside that of the root), with identifier and costs, including those in subqueries, and an arrow from the node above to
each of them. (Missing: subqueries within subqueries, see `C249_nested_violated`.) -/
theorem C249_synopsis_partial (q : QNode) (hn : NoNesting q) :
    (∀ p l s, (p, l, s) ∈ boxes (plotSynopsis q) ↔ (p = [] ∧ l = "∅" ∧ s = ⟨some "dotted", none⟩) ∨ ∃ id k, At q p id k ∧ l = boxText id k ∧ s = boxStyle p k) ∧
    ∀ a b d, (a, b, d) ∈ lines (plotSynopsis q) ↔ d = true ∧ (∃ id k, At q b id k) ∧ a = b.dropLast := by
  have h := mem_plotQ [] q
  simp only [List.nil_append] at h
  have hd : ∀ p l s, (p, l, s) ∈ boxes (plotQ [] q) ↔ ∃ id k, At q p id k ∧ l = boxText id k ∧ s = boxStyle p k := by
    intro p l s
    rw [h]
    constructor
    · rintro ⟨p, id, k, hd, rfl, rfl, rfl⟩; exact ⟨id, k, drawn_at hd, rfl, rfl⟩
    · rintro ⟨id, k, ha, rfl, rfl⟩; exact ⟨p, id, k, drawn_of ha hn, rfl, rfl, rfl⟩
  constructor
  · intro p l s
    simp only [plotSynopsis, boxes, List.mem_cons, hd, Prod.mk.injEq]
  · intro a b d
    simp only [plotSynopsis, lines, lines_plotQ, List.mem_map, Prod.mk.injEq]
    constructor
    · rintro ⟨⟨p, l, s⟩, hm, rfl, rfl, rfl⟩
      obtain ⟨id, k, ha, -⟩ := (hd p l s).1 hm
      exact ⟨rfl, ⟨id, k, ha⟩, rfl⟩
    · rintro ⟨rfl, ⟨id, k, ha⟩, rfl⟩
      exact ⟨_, (hd b _ _).2 ⟨id, k, ha, rfl, rfl⟩, rfl, rfl, rfl⟩

/-- A synopsis with a subquery. -/
def exQ : QNode := .node [] [("R", .node [] [("S", .node [("HashJoin", "10")] [] none)] none), ("Q", .node [] [] (some (.node [] [("T", .node [] [] none)] none)))] none

mutual
/-- No subqueries with nodes at all. -/
def calm : QNode → Bool
  | .node _ ks s => (match s with | none => true | some (.node _ rs _) => rs.isEmpty) && calmAll ks
/-- The same for all children. -/
def calmAll : List (String × QNode) → Bool
  | [] => true
  | (_, k) :: ks => calm k && calmAll ks
end

mutual
/-- No subqueries within subqueries. -/
def flat : QNode → Bool
  | .node _ ks s => (match s with | none => true | some (.node _ rs _) => calmAll rs) && flatAll ks
/-- The same for all children. -/
def flatAll : List (String × QNode) → Bool
  | [] => true
  | (_, k) :: ks => flat k && flatAll ks
end

theorem calmAll_get : (ks : List (String × QNode)) → calmAll ks = true → ∀ (i : Nat) (id : String) (k : QNode), ks[i]? = some (id, k) → calm k = true
  | [], _, i, id, k, h => by simp at h
  | (_, k') :: ks, hc, i, id, k, h => by
    simp only [calmAll, Bool.and_eq_true] at hc
    cases i with
    | zero => simp at h; rw [← h.2]; exact hc.1
    | succ i => exact calmAll_get ks hc.2 i id k (by simpa using h)

theorem flatAll_get : (ks : List (String × QNode)) → flatAll ks = true → ∀ (i : Nat) (id : String) (k : QNode), ks[i]? = some (id, k) → flat k = true
  | [], _, i, id, k, h => by simp at h
  | (_, k') :: ks, hc, i, id, k, h => by
    simp only [flatAll, Bool.and_eq_true] at hc
    cases i with
    | zero => simp at h; rw [← h.2]; exact hc.1
    | succ i => exact flatAll_get ks hc.2 i id k (by simpa using h)

theorem calm_at {q p id k} (h : At q p id k) : calm q = true → ∀ s ∈ p, ∃ j, s = Step.child j := by
  induction h with
  | one q s id k h =>
    intro hc t ht
    cases h with
    | child c ks s i id k h => exact ⟨i, by simpa using ht⟩
    | sub c ks c' rs s' i id k h =>
      simp only [calm, Bool.and_eq_true, List.isEmpty_iff] at hc
      rw [hc.1] at h
      simp at h
  | more q s id k p id' k' h h' ih =>
    intro hc t ht
    cases h with
    | child c ks s i id k h =>
      simp only [calm, Bool.and_eq_true] at hc
      rcases List.mem_cons.1 ht with rfl | ht
      · exact ⟨i, rfl⟩
      · exact ih (calmAll_get ks hc.2 i id k h) t ht
    | sub c ks c' rs s' i id k h =>
      simp only [calm, Bool.and_eq_true, List.isEmpty_iff] at hc
      rw [hc.1] at h
      simp at h

theorem flat_at {q p id k} (h : At q p id k) : flat q = true → ∀ a i, p = a ++ [Step.sub i] → ∀ s ∈ a, ∃ j, s = Step.child j := by
  induction h with
  | one q s id k h =>
    intro hc a i ha t ht
    rcases a with _ | ⟨x, a⟩
    · simp at ht
    · simp at ha
  | more q s id k p id' k' h h' ih =>
    intro hc a i ha t ht
    rcases a with _ | ⟨x, a⟩
    · simp at ht
    · simp only [List.cons_append, List.cons.injEq] at ha
      obtain ⟨rfl, rfl⟩ := ha
      cases h with
      | child c ks s j id k h =>
        simp only [flat, Bool.and_eq_true] at hc
        rcases List.mem_cons.1 ht with rfl | ht
        · exact ⟨j, rfl⟩
        · exact ih (flatAll_get ks hc.2 j id k h) a i rfl t ht
      | sub c ks c' rs s' j id k h =>
        simp only [flat, Bool.and_eq_true] at hc
        obtain ⟨x, hx⟩ := calm_at h' (calmAll_get rs hc.1 j id k h) (.sub i) (by simp)
        cases hx

/-- The hypothesis is met, and the node of the subquery is drawn. -/
example : NoNesting exQ ∧ ([Step.child 1, .sub 0], "T\n") ∈ (boxes (plotSynopsis exQ)).map (fun x => (x.1, x.2.1)) := by
  refine ⟨fun p id k i h s hs => flat_at h (by decide) p i rfl s hs, by decide +kernel⟩

/-- A synopsis whose subquery contains a subquery. -/
def exNested : QNode := .node [] [("Q", .node [] [] (some (.node [] [("P", .node [] [] (some (.node [] [("T", .node [("HashJoin", "10")] [] none)] none)))] none)))] none

/-- **C249 (violated).** Nodes of subqueries within subqueries are missing in the picture. -/
theorem C249_nested_violated : (∃ k, At exNested [.child 0, .sub 0, .sub 0] "T" k) ∧ (boxes (plotSynopsis exNested)).map (·.1) = [[], [.child 0], [.child 0, .sub 0]] :=
  ⟨⟨_, .more _ _ "Q" _ _ _ _ (.child _ _ _ 0 _ _ rfl) (.more _ _ "P" _ _ _ _ (.sub _ _ _ _ _ 0 _ _ rfl) (.one _ _ _ _ (.sub _ _ _ _ _ 0 _ _ rfl)))⟩, rfl⟩

/-- **C249 (violated).** Drawing a synopsis changes it: nodes without subquery get an empty one, and what is written to JSON files is no longer the same. -/
theorem C249_changes_violated (c : List (String × String)) (ks : List (String × QNode)) : (touch (.node c ks none)).json ≠ (QNode.node c ks none).json := by
  simp [touch, QNode.json, jsonSub]

theorem touch_costs (k : QNode) : (touch k).costs = k.costs := by cases k; rfl

theorem touch_hasSub (k : QNode) : hasSub (touch k) = hasSub k := by
  obtain ⟨c, ks, _ | r⟩ := k
  · rfl
  · rfl

mutual
theorem plot_touch (cur : List Step) : (q : QNode) → plotQ cur (touch q) = plotQ cur q
  | .node c ks s => by
    have : plotQSub cur (some (s.getD (.node [] [] none))) = plotQSub cur s := by
      rcases s with _ | r
      · rfl
      · rfl
    simp only [touch, plotQ, this, plot_touchKids cur 0 ks]
theorem plot_touchKids (cur : List Step) (n : Nat) : (ks : List (String × QNode)) → plotQKids cur n (touchKids ks) = plotQKids cur n ks
  | [] => rfl
  | (id, k) :: ks => by
    simp only [touchKids, plotQKids, qLabel, touch_costs, touch_hasSub, plot_touch _ k, plot_touchKids cur (n + 1) ks]
end

/-- **C249.** Drawing a synopsis once more gives the same picture. -/
theorem C249_again (q : QNode) : plotSynopsis (touch q) = plotSynopsis q := by
  simp [plotSynopsis, plot_touch]

end PB.VisProps
