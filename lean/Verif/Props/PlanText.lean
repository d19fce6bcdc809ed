import Verif.Model.PlanText

/-! Properties of the text of query plans (C238). -/

set_option linter.unusedSimpArgs false
set_option linter.unusedVariables false
set_option linter.unusedSectionVars false
set_option linter.unnecessarySimpa false

namespace PB.PlanTextProps
open PB PB.PlanText

/-! ## Specification -/

/-- Trees of labels. -/
inductive Tree
  | node (label : Text) (kids : List Tree)

/-- What a reader expects to see for a node: its type, for scans followed by the table in brackets. -/
def label (i : Info) : Text := if i.scan then i.nodeType ++ ['('] ++ i.table ++ [')'] else i.nodeType

mutual
/-- The operators of a plan without its subplans. -/
def shape : Plan → Tree
  | .node i ks _ => .node (label i) (shapes ks)

/-- The operators of several plans without their subplans. -/
def shapes : List Plan → List Tree
  | [] => []
  | k :: ks => shape k :: shapes ks
end

mutual
/-- The operators of a plan, where a subplan is the last child. -/
def full : Plan → Tree
  | .node i ks s => .node (label i) (fulls ks ++ fullSub s)

/-- The operators of several plans, where subplans are last children. -/
def fulls : List Plan → List Tree
  | [] => []
  | k :: ks => full k :: fulls ks

/-- The operators of a subplan. -/
def fullSub : Option Plan → List Tree
  | none => []
  | some p => [full p]
end

mutual
/-- The rows of an outline: each node with its depth, parents before children and children from left to right. -/
def rows (d : Nat) : Tree → List (Nat × Text)
  | .node l ks => (d, l) :: rowsAll (d + 1) ks

/-- The rows of several trees. -/
def rowsAll (d : Nat) : List Tree → List (Nat × Text)
  | [] => []
  | k :: ks => rows d k ++ rowsAll d ks
end

/-- A row of `ast`: two blanks per level and an arrow, except for the root. -/
def astRow : Nat × Text → Text
  | (0, l) => l
  | (d + 1, l) => List.replicate (2 * (d + 1)) ' ' ++ "->  ".toList ++ l

/-- A row of `explain`: two blanks for the first level and six more for each further one. -/
def explainRow : Nat × Text → Text
  | (0, l) => l
  | (d + 1, l) => List.replicate (2 + 6 * d) ' ' ++ "->  ".toList ++ l

/-- The lines of a text. -/
def lines : Text → List Text
  | [] => [[]]
  | c :: cs => if c = '\n' then [] :: lines cs else (c :: (lines cs).headD []) :: (lines cs).tail

/-- A line that shows an operator below the root. -/
def isArrow (l : Text) : Bool := (l.dropWhile (· = ' ')).take 2 = ['-', '>']

mutual
/-- All nodes of a plan and its subplans have a property. -/
def AllNodes (P : Info → Prop) : Plan → Prop
  | .node i ks s => P i ∧ AllKids P ks ∧ AllSub P s

/-- The same for several plans. -/
def AllKids (P : Info → Prop) : List Plan → Prop
  | [] => True
  | k :: ks => AllNodes P k ∧ AllKids P ks

/-- The same for a subplan. -/
def AllSub (P : Info → Prop) : Option Plan → Prop
  | none => True
  | some p => AllNodes P p
end

/-- The printed texts of a node have no line breaks. -/
structure Clean (i : Info) : Prop where
  nodeType : '\n' ∉ i.nodeType
  table : '\n' ∉ i.table
  estCard : '\n' ∉ i.estCard
  estCost : '\n' ∉ i.estCost
  actual : ∀ a b, i.actual = some (a, b) → '\n' ∉ a ∧ '\n' ∉ b
  hits : ∀ a, i.hits = some a → '\n' ∉ a
  misses : ∀ a, i.misses = some a → '\n' ∉ a
  workers : ∀ a, i.workers = some a → '\n' ∉ a
  lookup : ∀ a, i.lookup = some a → '\n' ∉ a
  index : '\n' ∉ i.index
  sortKeys : ∀ k ∈ i.sortKeys, '\n' ∉ k
  attr : ∀ p v, i.attr p = some v → '\n' ∉ v

/-! ## Lemmas -/

theorem join_cons (s t : Text) (ts : List Text) (h : ts ≠ []) : join s (t :: ts) = t ++ (s ++ join s ts) := by
  cases ts with
  | nil => exact absurd rfl h
  | cons a b => rfl

theorem join_append (s : Text) : ∀ (a b : List Text), a ≠ [] → b ≠ [] → join s (a ++ b) = join s a ++ (s ++ join s b)
  | [], _, h, _ => absurd rfl h
  | [x], b, _, hb => by rw [List.singleton_append, join_cons s x b hb]; rfl
  | x :: y :: a, b, _, hb => by
    have e : x :: y :: a ++ b = x :: (y :: a ++ b) := rfl
    rw [e, join_cons s x _ (by simp), join_append s (y :: a) b (by simp) hb, join_cons s x (y :: a) (by simp)]
    simp [List.append_assoc]

theorem join_ne_nil (s : Text) (t : Text) (ts : List Text) (h : t ≠ []) : join s (t :: ts) ≠ [] := by
  cases ts with
  | nil => exact h
  | cons a b => simp [join, h]

theorem lines_append : ∀ (t r : Text), '\n' ∉ t → lines (t ++ ('\n' :: r)) = t :: lines r
  | [], r, _ => by simp [lines]
  | c :: t, r, h => by
    have hc : c ≠ '\n' := fun e => h (by simp [e])
    have ih := lines_append t r (fun e => h (by simp [e]))
    simp [lines, hc, ih]

theorem lines_self : ∀ (t : Text), '\n' ∉ t → lines t = [t]
  | [], _ => rfl
  | c :: t, h => by
    have hc : c ≠ '\n' := fun e => h (by simp [e])
    have ih := lines_self t (fun e => h (by simp [e]))
    simp [lines, hc, ih]

theorem lines_join : ∀ (ls : List Text), ls ≠ [] → (∀ l ∈ ls, '\n' ∉ l) → lines (join ['\n'] ls) = ls
  | [], h, _ => absurd rfl h
  | [t], _, h => lines_self t (h t (by simp))
  | t :: u :: ts, _, h => by
    rw [join_cons _ _ _ (by simp), List.singleton_append, lines_append _ _ (h t (by simp)), lines_join (u :: ts) (by simp) (fun l hl => h l (by simp [hl]))]

theorem header_label (i : Info) : header i = label i := by
  unfold header label; split <;> simp

mutual
theorem rows_depth (d : Nat) : ∀ (t : Tree) (x : Nat × Text), x ∈ rows d t → d ≤ x.1
  | .node l ks, x, h => by
    simp only [rows, List.mem_cons] at h
    rcases h with h | h
    · simp [h]
    · have := rowsAll_depth (d + 1) ks x h; omega

theorem rowsAll_depth (d : Nat) : ∀ (ts : List Tree) (x : Nat × Text), x ∈ rowsAll d ts → d ≤ x.1
  | [], x, h => by simp [rowsAll] at h
  | t :: ts, x, h => by
    simp only [rowsAll, List.mem_append] at h
    rcases h with h | h
    · exact rows_depth d t x h
    · exact rowsAll_depth d ts x h
end

theorem rowsAll_append (d : Nat) : ∀ (a b : List Tree), rowsAll d (a ++ b) = rowsAll d a ++ rowsAll d b
  | [], b => rfl
  | t :: a, b => by simp [rowsAll, rowsAll_append d a b]

/-- The first row of a rest is not deeper than `d`. -/
def Shallow (d : Nat) (r : List (Nat × Text)) : Prop := ∀ x, r.head? = some x → x.1 < d

mutual
theorem rows_inj (d : Nat) : ∀ (t t' : Tree) (r r' : List (Nat × Text)), Shallow (d + 1) r → Shallow (d + 1) r' →
    rows d t ++ r = rows d t' ++ r' → t = t' ∧ r = r'
  | .node l ks, .node l' ks', r, r', hr, hr', h => by
    simp only [rows, List.cons_append, List.cons.injEq, Prod.mk.injEq, true_and] at h
    obtain ⟨e, e'⟩ := rowsAll_inj (d + 1) ks ks' r r' hr hr' h.2
    exact ⟨by rw [h.1, e], e'⟩

theorem rowsAll_inj (d : Nat) : ∀ (ts ts' : List Tree) (r r' : List (Nat × Text)), Shallow d r → Shallow d r' →
    rowsAll d ts ++ r = rowsAll d ts' ++ r' → ts = ts' ∧ r = r'
  | [], [], r, r', _, _, h => ⟨rfl, by simpa [rowsAll] using h⟩
  | [], .node l ks :: ts', r, r', hr, _, h => by
    exfalso
    simp only [rowsAll, rows, List.nil_append, List.cons_append] at h
    have := hr (d, l) (by rw [h]; rfl)
    simp at this
  | .node l ks :: ts, [], r, r', _, hr', h => by
    exfalso
    simp only [rowsAll, rows, List.nil_append, List.cons_append] at h
    have := hr' (d, l) (by rw [← h]; rfl)
    simp at this
  | t :: ts, t' :: ts', r, r', hr, hr', h => by
    simp only [rowsAll, List.append_assoc] at h
    have sh : ∀ (us : List Tree) (q : List (Nat × Text)), Shallow d q → Shallow (d + 1) (rowsAll d us ++ q) := by
      intro us q hq x hx
      cases us with
      | nil => exact Nat.lt_succ_of_lt (hq x (by simpa [rowsAll] using hx))
      | cons u us =>
        cases u with
        | node l ks => simp [rowsAll, rows] at hx; simp [← hx]
    obtain ⟨e, e'⟩ := rows_inj d t t' _ _ (sh ts r hr) (sh ts' r' hr') h
    obtain ⟨e1, e2⟩ := rowsAll_inj d ts ts' r r' hr hr' e'
    exact ⟨by rw [e, e1], e2⟩
end

theorem spaces_inj : ∀ (n m : Nat) (a b : Text), List.replicate n ' ' ++ ('-' :: a) = List.replicate m ' ' ++ ('-' :: b) → n = m ∧ a = b
  | 0, 0, a, b, h => by simpa using h
  | 0, m + 1, a, b, h => by simp [List.replicate_succ] at h
  | n + 1, 0, a, b, h => by simp [List.replicate_succ] at h
  | n + 1, m + 1, a, b, h => by
    simp only [List.replicate_succ, List.cons_append, List.cons.injEq, true_and] at h
    obtain ⟨e, e'⟩ := spaces_inj n m a b h
    exact ⟨by rw [e], e'⟩

theorem map_inj_on {α β : Type} (f : α → β) (P : α → Prop) (hf : ∀ a b, P a → P b → f a = f b → a = b) :
    ∀ (x y : List α), (∀ a ∈ x, P a) → (∀ a ∈ y, P a) → x.map f = y.map f → x = y
  | [], [], _, _, _ => rfl
  | [], b :: y, _, _, h => by simp at h
  | a :: x, [], _, _, h => by simp at h
  | a :: x, b :: y, hx, hy, h => by
    simp only [List.map_cons, List.cons.injEq] at h
    rw [hf a b (hx a (by simp)) (hy b (by simp)) h.1, map_inj_on f P hf x y (fun c hc => hx c (by simp [hc])) (fun c hc => hy c (by simp [hc])) h.2]

theorem astRow_inj (a b : Nat × Text) (ha : 1 ≤ a.1) (hb : 1 ≤ b.1) (h : astRow a = astRow b) : a = b := by
  obtain ⟨n, l⟩ := a; obtain ⟨m, k⟩ := b
  cases n with
  | zero => simp at ha
  | succ n => cases m with
    | zero => simp at hb
    | succ m =>
      simp only [astRow, List.append_assoc] at h
      obtain ⟨e, e'⟩ := spaces_inj _ _ _ _ h
      have : l = k := by simpa using e'
      rw [this, show n = m by omega]

theorem explainRow_inj (a b : Nat × Text) (ha : 1 ≤ a.1) (hb : 1 ≤ b.1) (h : explainRow a = explainRow b) : a = b := by
  obtain ⟨n, l⟩ := a; obtain ⟨m, k⟩ := b
  cases n with
  | zero => simp at ha
  | succ n => cases m with
    | zero => simp at hb
    | succ m =>
      simp only [explainRow, List.append_assoc] at h
      obtain ⟨e, e'⟩ := spaces_inj _ _ _ _ h
      have : l = k := by simpa using e'
      rw [this, show n = m by omega]

theorem astRow_eq (d : Nat) (l : Text) : arrow (List.replicate (2 * d) ' ') ++ l = astRow (d, l) := by
  cases d with
  | zero => simp [arrow, astRow]
  | succ d => simp [arrow, astRow, Nat.mul_succ, List.replicate_succ]

theorem explainRow_eq (d : Nat) (l : Text) : arrow (padding d) ++ l = explainRow (d, l) := by
  cases d with
  | zero => simp [arrow, explainRow, padding]
  | succ d =>
    have : (List.replicate (2 + 6 * d) ' ' : Text) ≠ [] := by simp [List.replicate_eq_nil_iff]
    simp [arrow, explainRow, padding, this]

theorem astRow_ne (d : Nat) (l : Text) : astRow (d + 1, l) ≠ [] := by simp [astRow]

mutual
theorem astify_rows (d : Nat) : ∀ p : Plan, astify (2 * d) p = join ['\n'] ((rows d (shape p)).map astRow)
  | .node i ks s => by
    have ih := astifyAll_rows (d + 1) ks
    have e : 2 * d + 2 = 2 * (d + 1) := by omega
    simp only [astify, shape, rows, List.map_cons, header_label, astRow_eq, e, ih]
    cases ks with
    | nil => simp [shapes, rowsAll, join]
    | cons k ks =>
      have h1 : ∃ x xs, (rowsAll (d + 1) (shapes (k :: ks))).map astRow = x :: xs ∧ x ≠ [] := by
        cases k with
        | node i' ks' s' => exact ⟨_, _, by simp only [shapes, shape, rowsAll, rows, List.map_cons, List.cons_append, List.map_append]; rfl, astRow_ne _ _⟩
      obtain ⟨x, xs, hx, hn⟩ := h1
      rw [hx, if_neg (join_ne_nil _ _ _ hn), join_cons _ (astRow (d, label i)) (x :: xs) (by simp)]
      rfl

theorem astifyAll_rows (d : Nat) : ∀ ks : List Plan, join ['\n'] (astifyAll (2 * d) ks) = join ['\n'] ((rowsAll d (shapes ks)).map astRow)
  | [] => rfl
  | [k] => by simp [astifyAll, shapes, rowsAll, join, astify_rows d k]
  | k :: k' :: ks => by
    have h1 : ((rows d (shape k)).map astRow) ≠ [] := by cases k; simp [shape, rows]
    have h2 : ((rowsAll d (shapes (k' :: ks))).map astRow) ≠ [] := by cases k'; simp [shapes, shape, rowsAll, rows]
    simp only [astifyAll]
    rw [join_cons _ _ _ (by simp)]
    have ih := astifyAll_rows d (k' :: ks)
    simp only [astifyAll] at ih
    rw [ih, astify_rows d k]
    show _ = join ['\n'] ((rows d (shape k) ++ rowsAll d (shapes (k' :: ks))).map astRow)
    rw [List.map_append, join_append _ _ _ h1 h2]
end

/-! ## The operators in `ast` -/

/-- C238: the text of `ast` consists of one line per node, parents before children, indented by depth. Subplans are not part of it. -/
theorem C238_ast_partial (p : Plan) : ast p = join ['\n'] ((rows 0 (shape p)).map astRow) := astify_rows 0 p

mutual
theorem rows_clean (d : Nat) : ∀ p : Plan, AllNodes Clean p → ∀ x ∈ rows d (shape p), '\n' ∉ x.2
  | .node i ks s, h, x, hx => by
    simp only [AllNodes] at h
    simp only [shape, rows, List.mem_cons] at hx
    rcases hx with hx | hx
    · rw [hx]
      have a := h.1.nodeType
      have b := h.1.table
      show '\n' ∉ label i
      unfold label; split
      · simp [a, b]
      · exact a
    · exact rowsAll_clean (d + 1) ks h.2.1 x hx

theorem rowsAll_clean (d : Nat) : ∀ ks : List Plan, AllKids Clean ks → ∀ x ∈ rowsAll d (shapes ks), '\n' ∉ x.2
  | [], _, x, hx => by simp [shapes, rowsAll] at hx
  | k :: ks, h, x, hx => by
    simp only [AllKids] at h
    simp only [shapes, rowsAll, List.mem_append] at hx
    rcases hx with hx | hx
    · exact rows_clean d k h.1 x hx
    · exact rowsAll_clean d ks h.2 x hx
end

theorem astRow_clean (x : Nat × Text) (h : '\n' ∉ x.2) : '\n' ∉ astRow x := by
  obtain ⟨d, l⟩ := x
  cases d with
  | zero => exact h
  | succ d =>
    have h' : '\n' ∉ l := h
    simp [astRow, h']

theorem rows_root (t : Tree) : ∃ l ks, t = .node l ks ∧ rows 0 t = (0, l) :: rowsAll 1 ks := by
  cases t with
  | node l ks => exact ⟨l, ks, rfl, rfl⟩

/-- C238: two plans have the same `ast` if and only if they have the same operators, apart from subplans. -/
theorem C238_ast_determines (p q : Plan) (hp : AllNodes Clean p) (hq : AllNodes Clean q) : ast p = ast q ↔ shape p = shape q := by
  refine ⟨fun h => ?_, fun h => by rw [C238_ast_partial, C238_ast_partial, h]⟩
  rw [C238_ast_partial, C238_ast_partial] at h
  have h1 := congrArg lines h
  have ne : ∀ t : Tree, (rows 0 t).map astRow ≠ [] := fun t => by cases t; simp [rows]
  have cl : ∀ r : Plan, AllNodes Clean r → ∀ l ∈ (rows 0 (shape r)).map astRow, '\n' ∉ l := by
    intro r hr l hl
    obtain ⟨x, hx, rfl⟩ := List.mem_map.mp hl
    exact astRow_clean x (rows_clean 0 r hr x hx)
  rw [lines_join _ (ne _) (cl p hp), lines_join _ (ne _) (cl q hq)] at h1
  obtain ⟨l, ks, e1, r1⟩ := rows_root (shape p)
  obtain ⟨l', ks', e2, r2⟩ := rows_root (shape q)
  rw [r1, r2] at h1
  simp only [List.map_cons, List.cons.injEq] at h1
  have h2 := map_inj_on astRow (fun x => 1 ≤ x.1) astRow_inj _ _ (rowsAll_depth 1 ks) (rowsAll_depth 1 ks') h1.2
  have h3 := rowsAll_inj 1 ks ks' [] [] (by simp [Shallow]) (by simp [Shallow]) (by simpa using h2)
  have h4 : l = l' := h1.1
  rw [e1, e2, h4, h3.1]

/-- C238, violated: the subplan of a node never shows in `ast`. -/
theorem C238_ast_subplan_violated (i : Info) (ks : List Plan) (s s' : Option Plan) : ast (.node i ks s) = ast (.node i ks s') := by
  rw [C238_ast_partial, C238_ast_partial]; rfl

/-! ## The operators in `explain` -/

/-- The lines about a single node. -/
def dataLines (fields : List Text) (i : Info) (l : Nat) : List Text :=
  if fields = [] then defaultExplain i (padding l) else [(customExplain i fields (padding l)).getD []]

mutual
/-- The lines of a plan. -/
def exLines (fields : List Text) (l : Nat) : Plan → List Text
  | .node i ks s => explainRow (l, label i) :: (dataLines fields i l ++ (exAll fields (l + 1) ks ++
      ((if ks.isEmpty && s.isSome then [[]] else []) ++ exSub fields (l + 1) s)))

def exAll (fields : List Text) (l : Nat) : List Plan → List Text
  | [] => []
  | k :: ks => exLines fields l k ++ exAll fields l ks

def exSub (fields : List Text) (l : Nat) : Option Plan → List Text
  | none => []
  | some p => exLines fields l p
end

theorem exLines_ne (fields : List Text) (l : Nat) (p : Plan) : exLines fields l p ≠ [] := by cases p; simp [exLines]

theorem exAll_ne (fields : List Text) (l : Nat) (k : Plan) (ks : List Plan) : exAll fields l (k :: ks) ≠ [] := by simp [exAll, exLines_ne]

theorem exLines_join_ne (fields : List Text) (l : Nat) (p : Plan) : join ['\n'] (exLines fields (l + 1) p) ≠ [] := by
  cases p with
  | node i ks s =>
    simp only [exLines]
    exact join_ne_nil _ _ _ (by simp [explainRow])

theorem dataLines_ne (fields : List Text) (i : Info) (l : Nat) : dataLines fields i l ≠ [] := by
  unfold dataLines; split
  · simp [defaultExplain]
  · simp

theorem explainData_eq {fields : List Text} {i : Info} {l : Nat} {d : Text} (h : explainData i fields (padding l) = some d) :
    d = join ['\n'] (dataLines fields i l) := by
  unfold explainData at h
  unfold dataLines
  split at h
  · rename_i hf
    rw [if_pos hf]; exact (Option.some.inj h).symm
  · rename_i hf
    rw [if_neg hf, h]; rfl

mutual
theorem explainify_lines (fields : List Text) (l : Nat) : ∀ (p : Plan) (t : Text), explainify fields l p = some t → t = join ['\n'] (exLines fields l p)
  | .node i ks s, t, h => by
    simp only [explainify] at h
    split at h
    · rename_i data children sub h1 h2 h3
      have e1 := explainData_eq h1
      have e2 := explainAll_lines fields (l + 1) ks children h2
      have e3 := explainSub_lines fields (l + 1) s sub h3
      have h := (Option.some.inj h).symm
      rw [h, header_label, ← List.append_assoc, explainRow_eq, e1]
      simp only [exLines]
      have base : explainRow (l, label i) ++ '\n' :: join ['\n'] (dataLines fields i l) = join ['\n'] (explainRow (l, label i) :: dataLines fields i l) := by
        rw [join_cons _ _ _ (dataLines_ne _ _ _)]; rfl
      rw [base]
      cases s with
      | none =>
        simp only [explainSub, Option.some.injEq] at h3
        subst h3
        simp only [exSub, Option.isSome_none, Bool.and_false, Bool.false_eq_true, if_false, List.append_nil, if_true, e2]
        cases ks with
        | nil => simp [exAll, join]
        | cons k ks =>
          have ne : join ['\n'] (exAll fields (l + 1) (k :: ks)) ≠ [] := by
            cases k with
            | node i' ks' s' =>
              simp only [exAll, exLines, List.cons_append]
              exact join_ne_nil _ _ _ (by simp [explainRow])
          rw [if_neg ne, ← List.cons_append, join_append _ _ _ (by simp) (exAll_ne _ _ _ _)]
          rfl
      | some p =>
        have sn : sub ≠ [] := by
          rw [e3]; exact exLines_join_ne fields l p
        rw [if_neg sn]
        have e3' : sub = join ['\n'] (exLines fields (l + 1) p) := e3
        cases ks with
        | nil =>
          simp only [explainAll, Option.some.injEq] at h2
          subst h2
          simp only [exAll, exSub, List.isEmpty_nil, Option.isSome_some, Bool.and_self, if_true, List.nil_append, e3']
          rw [if_neg (by simp [join])]
          rw [← List.cons_append (a := explainRow (l, label i)), join_append ['\n'] (explainRow (l, label i) :: dataLines fields i l) _ (by simp) (by simp)]
          show _ = _ ++ (['\n'] ++ join ['\n'] ([] :: exLines fields (l + 1) p))
          rw [join_cons ['\n'] [] _ (exLines_ne _ _ _)]
          simp [join]
        | cons k ks =>
          simp only [List.isEmpty_cons, Bool.false_and, Bool.false_eq_true, if_false, List.nil_append, exSub, e2, e3']
          rw [if_neg (by simp), ← List.cons_append (a := explainRow (l, label i)),
            join_append ['\n'] (explainRow (l, label i) :: dataLines fields i l) _ (by simp) (by simp [exAll_ne]),
            join_append _ _ _ (exAll_ne _ _ _ _) (exLines_ne _ _ _)]
          simp
    · cases h

theorem explainAll_lines (fields : List Text) (l : Nat) : ∀ (ks : List Plan) (ts : List Text), explainAll fields l ks = some ts →
    join ['\n'] ts = join ['\n'] (exAll fields l ks)
  | [], ts, h => by simp only [explainAll, Option.some.injEq] at h; subst h; rfl
  | k :: ks, ts, h => by
    simp only [explainAll] at h
    split at h
    · rename_i t ts' h1 h2
      have h := (Option.some.inj h).symm
      subst h
      have e1 := explainify_lines fields l k t h1
      have e2 := explainAll_lines fields l ks ts' h2
      cases ks with
      | nil =>
        simp only [explainAll, Option.some.injEq] at h2
        subst h2
        simp [join, exAll, e1]
      | cons k' ks =>
        have : ts' ≠ [] := by
          intro e; subst e
          simp only [explainAll] at h2
          split at h2 <;> simp at h2
        rw [join_cons _ _ _ this, e2, e1]
        show _ = join ['\n'] (exLines fields l k ++ exAll fields l (k' :: ks))
        rw [join_append _ _ _ (exLines_ne _ _ _) (exAll_ne _ _ _ _)]
    · cases h

theorem explainSub_lines (fields : List Text) (l : Nat) : ∀ (s : Option Plan) (t : Text), explainSub fields l s = some t →
    t = join ['\n'] (exSub fields l s)
  | none, t, h => by simp only [explainSub, Option.some.injEq] at h; subst h; rfl
  | some p, t, h => by simp only [explainSub] at h; exact explainify_lines fields l p t h
end

/-- A line about a node: it starts with the padding, two more blanks, and later a character other than a blank or an arrow. -/
def DataLine (l : Nat) (x : Text) : Prop := ∃ n c r, n ≥ 2 ∧ (l ≠ 0 → n ≥ 3) ∧ x = List.replicate n ' ' ++ c :: r ∧ c ≠ ' ' ∧ c ≠ '-'

theorem padding_eq (l : Nat) : padding l = List.replicate (if l = 0 then 0 else 2 + 6 * (l - 1)) ' ' := by
  cases l <;> simp [padding]

theorem dataLine_pre (l : Nat) (c : Char) (r : Text) (h1 : c ≠ ' ') (h2 : c ≠ '-') :
    DataLine l ((padding l ++ (if padding l = [] then "  ".toList else "      ".toList)) ++ (c :: r)) := by
  cases l with
  | zero => exact ⟨2, c, r, by omega, by simp, by simp [padding, List.replicate_succ], h1, h2⟩
  | succ l =>
    refine ⟨2 + 6 * l + 6, c, r, by omega, by omega, ?_, h1, h2⟩
    have : (padding (l + 1)) ≠ [] := by simp [padding, List.replicate_eq_nil_iff]
    rw [if_neg this, show padding (l + 1) = List.replicate (2 + 6 * l) ' ' from rfl, show "      ".toList = List.replicate 6 ' ' from rfl, List.replicate_append_replicate]

theorem pathProps_join (i : Info) (h : pathProps i ≠ []) : ∃ c r, join ", ".toList (pathProps i) = c :: r ∧ c ≠ ' ' ∧ c ≠ '-' := by
  unfold pathProps at h ⊢
  by_cases a : i.index = []
  · by_cases b : i.sortKeys = []
    · simp [a, b] at h
    · exact ⟨'S', _, by simp [a, b, join]; rfl, by decide, by decide⟩
  · by_cases b : i.sortKeys = []
    · exact ⟨'I', _, by simp [a, b, join]; rfl, by decide, by decide⟩
    · exact ⟨'I', _, by simp [a, b, join]; rfl, by decide, by decide⟩

theorem default_dataLine (i : Info) (l : Nat) : ∀ x ∈ defaultExplain i (padding l), DataLine l x := by
  intro x hx
  simp only [defaultExplain, List.mem_append, List.mem_singleton] at hx
  rcases hx with ((((hx | hx) | hx) | hx) | hx) | hx
  · rw [hx]; exact dataLine_pre l 'E' _ (by decide) (by decide)
  · cases h : i.actual with
    | none => simp [h] at hx
    | some a => rw [h] at hx; simp only [List.mem_singleton] at hx; rw [hx]; exact dataLine_pre l 'A' _ (by decide) (by decide)
  · split at hx
    · simp only [List.mem_singleton] at hx; rw [hx]; exact dataLine_pre l 'C' _ (by decide) (by decide)
    · simp at hx
  · cases h : i.workers with
    | none => simp [h] at hx
    | some a => rw [h] at hx; simp only [List.mem_singleton] at hx; rw [hx]; exact dataLine_pre l 'P' _ (by decide) (by decide)
  · cases h : i.lookup with
    | none => simp [h] at hx
    | some a => rw [h] at hx; simp only [List.mem_singleton] at hx; rw [hx]; exact dataLine_pre l 'L' _ (by decide) (by decide)
  · split at hx
    · simp at hx
    · rename_i hn
      simp only [List.mem_singleton] at hx
      obtain ⟨c, r, e, h1, h2⟩ := pathProps_join i hn
      rw [hx, e]; exact dataLine_pre l c r h1 h2

theorem data_dataLine {fields : List Text} {i : Info} {l : Nat} {d : Text} (h : explainData i fields (padding l) = some d) :
    ∀ x ∈ dataLines fields i l, DataLine l x := by
  intro x hx
  unfold dataLines at hx
  unfold explainData at h
  split at hx
  · exact default_dataLine i l x hx
  · rename_i hf
    rw [if_neg hf] at h
    rw [h] at hx
    simp only [Option.getD_some, List.mem_singleton] at hx
    unfold customExplain at h
    cases hv : fieldValues i fields [] with
    | none => simp [hv] at h
    | some v =>
      rw [hv] at h
      simp only [Option.map_some, Option.some.injEq] at h
      rw [hx, ← h, padding_eq]
      refine ⟨(if l = 0 then 0 else 2 + 6 * (l - 1)) + 3, '[', join " ".toList (List.map (fun kv => kv.1 ++ '=' :: kv.2) v) ++ [']'], by omega, by omega, ?_, by decide, by decide⟩
      rw [List.replicate_add, List.append_assoc]
      rfl

theorem join_clean (s : Text) (hs : '\n' ∉ s) : ∀ ts : List Text, (∀ t ∈ ts, '\n' ∉ t) → '\n' ∉ join s ts
  | [], _ => by simp [join]
  | [t], h => h t (by simp)
  | t :: u :: ts, h => by
    rw [join_cons _ _ _ (by simp)]
    have := join_clean s hs (u :: ts) (fun x hx => h x (by simp [hx]))
    simp [h t (by simp), hs, this]

theorem padding_clean (l : Nat) : '\n' ∉ padding l := by
  rw [padding_eq]; simp

theorem default_clean (i : Info) (l : Nat) (h : Clean i) : ∀ x ∈ defaultExplain i (padding l), '\n' ∉ x := by
  have pre : '\n' ∉ padding l ++ (if padding l = [] then "  ".toList else "      ".toList) := by
    have := padding_clean l
    split <;> simp [this]
  intro x hx
  simp only [defaultExplain, List.mem_append, List.mem_singleton] at hx
  rcases hx with ((((hx | hx) | hx) | hx) | hx) | hx
  · rw [hx, List.mem_append, not_or]; exact ⟨pre, by simp [h.estCard, h.estCost]⟩
  · cases ha : i.actual with
    | none => simp [ha] at hx
    | some a =>
      obtain ⟨a, b⟩ := a
      have := h.actual a b ha
      rw [ha] at hx; simp only [List.mem_singleton] at hx; rw [hx, List.mem_append, not_or]; exact ⟨pre, by simp [this]⟩
  · split at hx
    · simp only [List.mem_singleton] at hx
      have g : ∀ o : Option Text, (∀ a, o = some a → '\n' ∉ a) → '\n' ∉ o.getD "nan".toList := by
        intro o ho
        cases o with
        | none => decide
        | some a => exact ho a rfl
      rw [hx, List.mem_append, not_or]; refine ⟨pre, ?_⟩
      simp only [List.mem_append, not_or]
      exact ⟨by decide, g _ h.hits, by decide, g _ h.misses⟩
    · simp at hx
  · cases ha : i.workers with
    | none => simp [ha] at hx
    | some a =>
      have := h.workers a ha
      rw [ha] at hx; simp only [List.mem_singleton] at hx; rw [hx, List.mem_append, not_or]; exact ⟨pre, by simp [this]⟩
  · cases ha : i.lookup with
    | none => simp [ha] at hx
    | some a =>
      have := h.lookup a ha
      rw [ha] at hx; simp only [List.mem_singleton] at hx; rw [hx, List.mem_append, not_or]; exact ⟨pre, by simp [this]⟩
  · split at hx
    · simp at hx
    · simp only [List.mem_singleton] at hx
      rw [hx, List.mem_append, not_or]
      refine ⟨pre, join_clean _ (by decide) _ ?_⟩
      intro t ht
      have sk := join_clean ", ".toList (by decide) i.sortKeys h.sortKeys
      simp only [pathProps, List.mem_append] at ht
      rcases ht with ht | ht
      · split at ht
        · simp at ht
        · simp only [List.mem_singleton] at ht; rw [ht, List.mem_append]; simp [h.index]
      · split at ht
        · simp at ht
        · simp only [List.mem_singleton] at ht; rw [ht, List.mem_append, not_or]; exact ⟨by decide, sk⟩

theorem fieldValues_mem (i : Info) : ∀ (fs : List Text) (d d' : Dict Text Text), fieldValues i fs d = some d' →
    ∀ kv ∈ d', kv ∈ d ∨ (kv.1 ∈ fs ∧ fieldValue i kv.1 = some kv.2)
  | [], d, d', h, kv, hk => by simp only [fieldValues, Option.some.injEq] at h; subst h; exact Or.inl hk
  | f :: fs, d, d', h, kv, hk => by
    simp only [fieldValues] at h
    split at h
    · rename_i v hv
      rcases fieldValues_mem i fs _ d' h kv hk with h' | h'
      · have : ∀ (d : Dict Text Text), kv ∈ Dict.set d f v → kv ∈ d ∨ kv = (f, v) := by
          intro d
          induction d with
          | nil => intro h; simp [Dict.set] at h; exact Or.inr h
          | cons x d ih =>
            intro h
            obtain ⟨a, b⟩ := x
            simp only [Dict.set] at h
            split at h
            · rename_i e
              rcases List.mem_cons.mp h with h | h
              · exact Or.inr (by rw [h, e])
              · exact Or.inl (by simp [h])
            · rcases List.mem_cons.mp h with h | h
              · exact Or.inl (by simp [h])
              · rcases ih h with h | h
                · exact Or.inl (by simp [h])
                · exact Or.inr h
        rcases this d h' with h'' | h''
        · exact Or.inl h''
        · right; rw [h'']; exact ⟨by simp, hv⟩
      · exact Or.inr ⟨by simp [h'.1], h'.2⟩
    · cases h

theorem fieldValue_clean (i : Info) (h : Clean i) (f v : Text) (e : fieldValue i f = some v) : '\n' ∉ v := by
  unfold fieldValue at e
  split at e
  · split at e
    · exact h.attr _ _ e
    · cases e
  · exact h.attr _ _ e

theorem data_clean {fields : List Text} (hf : ∀ f ∈ fields, '\n' ∉ f) {i : Info} (hi : Clean i) {l : Nat} : 
    ∀ x ∈ dataLines fields i l, '\n' ∉ x := by
  intro x hx
  unfold dataLines at hx
  split at hx
  · exact default_clean i l hi x hx
  · simp only [List.mem_singleton] at hx
    subst hx
    unfold customExplain
    cases hv : fieldValues i fields [] with
    | none => simp
    | some v =>
      simp only [Option.map_some, Option.getD_some, List.mem_append, not_or]
      refine ⟨padding_clean l, by decide, join_clean _ (by decide) _ ?_, by decide⟩
      intro t ht
      obtain ⟨kv, hkv, rfl⟩ := List.mem_map.mp ht
      rcases fieldValues_mem i fields [] v hv kv hkv with h | h
      · simp at h
      · simp [hf _ h.1, fieldValue_clean i hi _ _ h.2]

theorem explainRow_clean (x : Nat × Text) (h : '\n' ∉ x.2) : '\n' ∉ explainRow x := by
  obtain ⟨d, l⟩ := x
  cases d with
  | zero => exact h
  | succ d =>
    have h' : '\n' ∉ l := h
    simp [explainRow, h']

theorem label_clean (i : Info) (h : Clean i) : '\n' ∉ label i := by
  have a := h.nodeType
  have b := h.table
  unfold label; split
  · simp [a, b]
  · exact a

mutual
theorem exLines_clean (fields : List Text) (hf : ∀ f ∈ fields, '\n' ∉ f) (l : Nat) : ∀ p : Plan, AllNodes Clean p → ∀ x ∈ exLines fields l p, '\n' ∉ x
  | .node i ks s, h, x, hx => by
    simp only [AllNodes] at h
    simp only [exLines, List.mem_cons, List.mem_append] at hx
    rcases hx with hx | hx | hx | hx | hx
    · rw [hx]; exact explainRow_clean _ (label_clean i h.1)
    · exact data_clean hf h.1 x hx
    · exact exAll_clean fields hf (l + 1) ks h.2.1 x hx
    · split at hx
      · simp at hx; simp [hx]
      · simp at hx
    · exact exSub_clean fields hf (l + 1) s h.2.2 x hx

theorem exAll_clean (fields : List Text) (hf : ∀ f ∈ fields, '\n' ∉ f) (l : Nat) : ∀ ks : List Plan, AllKids Clean ks → ∀ x ∈ exAll fields l ks, '\n' ∉ x
  | [], _, x, hx => by simp [exAll] at hx
  | k :: ks, h, x, hx => by
    simp only [AllKids] at h
    simp only [exAll, List.mem_append] at hx
    rcases hx with hx | hx
    · exact exLines_clean fields hf l k h.1 x hx
    · exact exAll_clean fields hf l ks h.2 x hx

theorem exSub_clean (fields : List Text) (hf : ∀ f ∈ fields, '\n' ∉ f) (l : Nat) : ∀ s : Option Plan, AllSub Clean s → ∀ x ∈ exSub fields l s, '\n' ∉ x
  | none, _, x, hx => by simp [exSub] at hx
  | some p, h, x, hx => exLines_clean fields hf l p h x hx
end

theorem dropBlanks (n : Nat) (c : Char) (r : Text) (h : c ≠ ' ') : (List.replicate n ' ' ++ c :: r).dropWhile (· = ' ') = c :: r := by
  induction n with
  | zero => simp [List.dropWhile, h]
  | succ n ih => simpa [List.replicate_succ, List.dropWhile] using ih

theorem isArrow_data {l : Nat} {x : Text} (h : DataLine l x) : isArrow x = false := by
  obtain ⟨n, c, r, -, -, e, h1, h2⟩ := h
  rw [e, isArrow, dropBlanks n c r h1]
  simp [h2]

theorem isArrow_row (d : Nat) (l : Text) : isArrow (explainRow (d + 1, l)) = true := by
  have : explainRow (d + 1, l) = List.replicate (2 + 6 * d) ' ' ++ '-' :: '>' :: ' ' :: ' ' :: l := by simp [explainRow]
  rw [this, isArrow, dropBlanks _ _ _ (by decide)]
  simp

theorem filter_data {l : Nat} (ls : List Text) (h : ∀ x ∈ ls, DataLine l x) : ls.filter isArrow = [] :=
  List.filter_eq_nil_iff.mpr fun x hx => by simp [isArrow_data (h x hx)]

mutual
theorem exLines_arrows (fields : List Text) (l : Nat) : ∀ (p : Plan) (t : Text), explainify fields (l + 1) p = some t →
    (exLines fields (l + 1) p).filter isArrow = (rows (l + 1) (full p)).map explainRow
  | .node i ks s, t, h => by
    simp only [explainify] at h
    split at h
    · rename_i data children sub h1 h2 h3
      simp only [exLines, full, rows, List.map_cons, List.filter_cons, isArrow_row, if_true, List.filter_append, filter_data _ (data_dataLine h1), List.nil_append,
        exAll_arrows fields (l + 1) ks children h2, exSub_arrows fields (l + 1) s sub h3, rowsAll_append, List.map_append]
      have : (if (ks.isEmpty && s.isSome) = true then [([] : Text)] else []).filter isArrow = [] := by split <;> simp [isArrow]
      rw [this]; rfl
    · cases h

theorem exAll_arrows (fields : List Text) (l : Nat) : ∀ (ks : List Plan) (ts : List Text), explainAll fields (l + 1) ks = some ts →
    (exAll fields (l + 1) ks).filter isArrow = (rowsAll (l + 1) (fulls ks)).map explainRow
  | [], ts, h => by simp [exAll, fulls, rowsAll]
  | k :: ks, ts, h => by
    simp only [explainAll] at h
    split at h
    · rename_i t ts' h1 h2
      simp [exAll, fulls, rowsAll, exLines_arrows fields l k t h1, exAll_arrows fields l ks ts' h2]
    · cases h

theorem exSub_arrows (fields : List Text) (l : Nat) : ∀ (s : Option Plan) (t : Text), explainSub fields (l + 1) s = some t →
    (exSub fields (l + 1) s).filter isArrow = (rowsAll (l + 1) (fullSub s)).map explainRow
  | none, t, h => by simp [exSub, fullSub, rowsAll]
  | some p, t, h => by simp only [explainSub] at h; simp [exSub, fullSub, rowsAll, exLines_arrows fields l p t h]
end

/-- The label at the root. -/
def Tree.label : Tree → Text
  | .node l _ => l

/-- The trees below the root. -/
def Tree.kids : Tree → List Tree
  | .node _ ks => ks

/-- C238: the first line of `explain` and `inspect` is the operator at the root, and the lines with an arrow are the other operators, including those
of subplans, parents before children and indented by depth. -/
theorem C238_explain (fields : List Text) (hf : ∀ f ∈ fields, '\n' ∉ f) (p : Plan) (hp : AllNodes Clean p) (t : Text) (h : inspect fields p = some t) :
    ∃ rest, lines t = (full p).label :: rest ∧ rest.filter isArrow = (rowsAll 1 (full p).kids).map explainRow := by
  have e := explainify_lines fields 0 p t h
  rw [e, lines_join _ (exLines_ne _ _ _) (exLines_clean fields hf 0 p hp)]
  cases p with
  | node i ks s =>
    simp only [inspect, explainify] at h
    split at h
    · rename_i data children sub h1 h2 h3
      refine ⟨_, rfl, ?_⟩
      simp only [full, Tree.kids, List.filter_append, filter_data _ (data_dataLine h1), List.nil_append,
        exAll_arrows fields 0 ks children h2, exSub_arrows fields 0 s sub h3, rowsAll_append, List.map_append]
      have : (if (ks.isEmpty && s.isSome) = true then [([] : Text)] else []).filter isArrow = [] := by split <;> simp [isArrow]
      rw [this]; rfl
    · cases h

/-- C238: the text of `explain` or `inspect` determines the operators of the plan, if subplans count as last children. -/
theorem C238_explain_determines_partial (f g : List Text) (hf : ∀ x ∈ f, '\n' ∉ x) (hg : ∀ x ∈ g, '\n' ∉ x) (p q : Plan) (hp : AllNodes Clean p)
    (hq : AllNodes Clean q) (t : Text) (h1 : inspect f p = some t) (h2 : inspect g q = some t) : full p = full q := by
  obtain ⟨r, a, b⟩ := C238_explain f hf p hp t h1
  obtain ⟨r', a', b'⟩ := C238_explain g hg q hq t h2
  rw [a] at a'
  simp only [List.cons.injEq] at a'
  rw [a'.2, b'] at b
  have h3 := map_inj_on explainRow (fun x => 1 ≤ x.1) explainRow_inj _ _ (rowsAll_depth 1 _) (rowsAll_depth 1 _) b
  have h4 := (rowsAll_inj 1 _ _ [] [] (by simp [Shallow]) (by simp [Shallow]) (by simpa using h3)).1
  cases hp' : full p with
  | node l ks => cases hq' : full q with
    | node l' ks' =>
      rw [hp', hq'] at h4
      have := a'.1
      rw [hp', hq'] at this
      simp only [Tree.label, Tree.kids] at this h4
      rw [this, h4]

/-- C238, violated: the text does not tell the subplan of a node with children from a further child. -/
theorem C238_explain_subplan_violated (fields : List Text) (i : Info) (k : Plan) (ks : List Plan) (s : Plan) (t : Text)
    (h : inspect fields (.node i (k :: ks) (some s)) = some t) (h' : ∃ t', inspect fields (.node i (k :: ks ++ [s]) none) = some t') :
    inspect fields (.node i (k :: ks ++ [s]) none) = some t := by
  obtain ⟨t', h'⟩ := h'
  have e := explainify_lines fields 0 _ t h
  have e' := explainify_lines fields 0 _ t' h'
  rw [h', e, e']
  have : ∀ (l : Nat) (xs ys : List Plan), exAll fields l (xs ++ ys) = exAll fields l xs ++ exAll fields l ys := by
    intro l xs ys
    induction xs with
    | nil => rfl
    | cons x xs ih => simp [exAll, ih]
  simp [exLines, exSub, exAll, this]

/-- C238, violated: below a node without children but with a subplan, there is an empty line. -/
theorem C238_explain_blank_violated (fields : List Text) (hf : ∀ f ∈ fields, '\n' ∉ f) (i : Info) (s : Plan) (hp : AllNodes Clean (.node i [] (some s))) (t : Text)
    (h : inspect fields (.node i [] (some s)) = some t) : [] ∈ lines t := by
  have e := explainify_lines fields 0 _ t h
  rw [e, lines_join _ (exLines_ne _ _ _) (exLines_clean fields hf 0 _ hp)]
  simp [exLines]

/-! ## The data of a node -/

theorem split_clean (c : Char) : ∀ t : Text, c ∉ t → split c t = [t]
  | [], _ => rfl
  | x :: t, h => by
    have hx : x ≠ c := fun e => h (by simp [e])
    simp [split, hx, split_clean c t (fun e => h (by simp [e]))]

theorem split_append (c : Char) : ∀ (t r : Text), c ∉ t → split c (t ++ (c :: r)) = t :: split c r
  | [], r, _ => by simp [split]
  | x :: t, r, h => by
    have hx : x ≠ c := fun e => h (by simp [e])
    simp [split, hx, split_append c t r (fun e => h (by simp [e]))]

theorem split_ne (c : Char) (t : Text) : split c t ≠ [] := by
  cases t with
  | nil => simp [split]
  | cons x t =>
    simp only [split]
    split
    · simp
    · split <;> simp

/-- The value of a requested field according to the documentation: an attribute of the plan, or an attribute of one of its parts. -/
inductive FieldIs (i : Info) : Text → Text → Prop
  | plain (f v : Text) : '.' ∉ f → i.attr [f] = some v → FieldIs i f v
  | dotted (c a v : Text) : '.' ∉ c → '.' ∉ a → i.attr [c, a] = some v → FieldIs i (c ++ '.' :: a) v

theorem fieldValue_is {i : Info} {f v : Text} (h : FieldIs i f v) : fieldValue i f = some v := by
  cases h with
  | plain _ _ h1 h2 => simp [fieldValue, h1, h2]
  | dotted c a _ h1 h2 h3 =>
    rw [fieldValue, if_pos (by simp), split_append _ _ _ h1, split_clean _ _ h2]
    exact h3

theorem dict_set_new (f v : Text) : ∀ d : Dict Text Text, f ∉ d.map Prod.fst → Dict.set d f v = d ++ [(f, v)]
  | [], _ => rfl
  | (a, b) :: d, h => by
    have ha : a ≠ f := fun e => h (by simp [e])
    have := dict_set_new f v d (fun e => h (by simp at e ⊢; exact Or.inr e))
    simp [Dict.set, ha, this]

theorem fieldValues_nodup (i : Info) : ∀ (fvs : List (Text × Text)) (d : Dict Text Text), (d.map Prod.fst ++ fvs.map Prod.fst).Nodup →
    (∀ x ∈ fvs, FieldIs i x.1 x.2) → fieldValues i (fvs.map Prod.fst) d = some (d ++ fvs)
  | [], d, _, _ => by simp [fieldValues]
  | (f, v) :: fvs, d, hn, h => by
    have h1 : f ∉ d.map Prod.fst := by
      intro e
      have := (List.nodup_append.mp hn).2.2 f e f (by simp)
      exact this rfl
    simp only [List.map_cons, fieldValues, fieldValue_is (h (f, v) (by simp)), dict_set_new f v d h1]
    rw [fieldValues_nodup i fvs (d ++ [(f, v)]) (by simpa using hn) (fun x hx => h x (by simp [hx]))]
    simp

mutual
/-- The nodes of a plan with their depths, parents before children and the subplan last. -/
def nodeRows (d : Nat) : Plan → List (Nat × Info)
  | .node i ks s => (d, i) :: (nodeRowsAll (d + 1) ks ++ nodeRowsSub (d + 1) s)

/-- The nodes of several plans with their depths. -/
def nodeRowsAll (d : Nat) : List Plan → List (Nat × Info)
  | [] => []
  | k :: ks => nodeRows d k ++ nodeRowsAll d ks

/-- The nodes of a subplan with their depths. -/
def nodeRowsSub (d : Nat) : Option Plan → List (Nat × Info)
  | none => []
  | some p => nodeRows d p
end

/-- The two lines that show a node: the operator, and beneath it the requested fields in square brackets. -/
def nodeLines (fields : List Text) (val : Info → Text → Text) (x : Nat × Info) : List Text :=
  [explainRow (x.1, label x.2),
    List.replicate (if x.1 = 0 then 3 else 5 + 6 * (x.1 - 1)) ' ' ++ '[' :: join [' '] (fields.map fun f => f ++ ['='] ++ val x.2 f) ++ [']']]

theorem custom_line (fields : List Text) (val : Info → Text → Text) (hn : fields.Nodup) (i : Info) (l : Nat) (h : ∀ f ∈ fields, FieldIs i f (val i f)) :
    customExplain i fields (padding l) = some (List.replicate (if l = 0 then 3 else 5 + 6 * (l - 1)) ' ' ++ '[' :: join [' '] (fields.map fun f => f ++ ['='] ++ val i f) ++ [']']) := by
  have e : (fields.map fun f => (f, val i f)).map Prod.fst = fields := by simp [Function.comp_def]
  have := fieldValues_nodup i (fields.map fun f => (f, val i f)) [] (by rw [e]; simpa using hn) (by
    intro x hx
    obtain ⟨f, hf, rfl⟩ := List.mem_map.mp hx
    exact h f hf)
  rw [e] at this
  rw [customExplain, this, padding_eq]
  simp only [Option.map_some, Option.some.injEq, List.nil_append, List.map_map, Function.comp_def]
  have e2 : "   [".toList = List.replicate 3 ' ' ++ ['['] := by decide +kernel
  have e3 : " ".toList = [' '] := by decide +kernel
  rw [e2, e3]
  by_cases hl : l = 0
  · simp [hl]
  · simp only [hl, if_false]
    have hr : List.replicate (5 + 6 * (l - 1)) ' ' = ' ' :: ' ' :: (List.replicate (6 * (l - 1)) ' ' ++ [' ', ' ', ' ']) := by
      rw [show 5 + 6 * (l - 1) = 2 + (6 * (l - 1) + 3) by omega, List.replicate_add, List.replicate_add]; rfl
    have hq : List.replicate (2 + 6 * (l - 1)) ' ' = ' ' :: ' ' :: List.replicate (6 * (l - 1)) ' ' := by
      rw [List.replicate_add]; rfl
    rw [hr, hq]
    simp

section
variable (fields : List Text) (val : Info → Text → Text) (hne : fields ≠ []) (hn : fields.Nodup)
include hne hn

mutual
theorem fields_some (l : Nat) : ∀ p : Plan, (∀ x ∈ nodeRows l p, x.2.nodeType ≠ [] ∧ ∀ f ∈ fields, FieldIs x.2 f (val x.2 f)) →
    (∃ t, explainify fields l p = some t) ∧ (exLines fields l p).filter (fun x => !x.isEmpty) = (nodeRows l p).flatMap (nodeLines fields val)
  | .node i ks s, h => by
    obtain ⟨ts, a1, a2⟩ := fields_all (l + 1) ks (fun x hx => h x (by simp [nodeRows, hx]))
    obtain ⟨t, b1, b2⟩ := fields_sub (l + 1) s (fun x hx => h x (by simp [nodeRows, hx]))
    have h0 := h (l, i) (by simp [nodeRows])
    have c := custom_line fields val hn i l h0.2
    refine ⟨?_, ?_⟩
    · simp only [explainify, explainData, if_neg hne, c, a1, b1]
      exact ⟨_, rfl⟩
    · have hb : (if (ks.isEmpty && s.isSome) = true then [([] : Text)] else []).filter (fun x => !x.isEmpty) = [] := by split <;> simp
      have hlab : explainRow (l, label i) ≠ [] := by
        have : label i ≠ [] := by
          unfold label; split
          · simp
          · exact h0.1
        cases l <;> simp [explainRow, this]
      simp only [exLines, dataLines, if_neg hne, c, Option.getD_some, nodeRows, List.flatMap_cons, List.flatMap_append, ← a2, ← b2]
      rw [List.filter_cons_of_pos (by simpa using hlab), List.filter_append, List.filter_append, List.filter_append, hb]
      simp [nodeLines]

theorem fields_all (l : Nat) : ∀ ks : List Plan, (∀ x ∈ nodeRowsAll l ks, x.2.nodeType ≠ [] ∧ ∀ f ∈ fields, FieldIs x.2 f (val x.2 f)) →
    ∃ ts, explainAll fields l ks = some ts ∧ (exAll fields l ks).filter (fun x => !x.isEmpty) = (nodeRowsAll l ks).flatMap (nodeLines fields val)
  | [], _ => ⟨[], rfl, rfl⟩
  | k :: ks, h => by
    obtain ⟨⟨t, a1⟩, a2⟩ := fields_some l k (fun x hx => h x (by simp [nodeRowsAll, hx]))
    obtain ⟨ts, b1, b2⟩ := fields_all l ks (fun x hx => h x (by simp [nodeRowsAll, hx]))
    exact ⟨t :: ts, by simp only [explainAll, a1, b1], by simp only [exAll, nodeRowsAll, List.filter_append, List.flatMap_append, a2, b2]⟩

theorem fields_sub (l : Nat) : ∀ s : Option Plan, (∀ x ∈ nodeRowsSub l s, x.2.nodeType ≠ [] ∧ ∀ f ∈ fields, FieldIs x.2 f (val x.2 f)) →
    ∃ t, explainSub fields l s = some t ∧ (exSub fields l s).filter (fun x => !x.isEmpty) = (nodeRowsSub l s).flatMap (nodeLines fields val)
  | none, _ => ⟨[], rfl, rfl⟩
  | some p, h => by
    obtain ⟨⟨t, a1⟩, a2⟩ := fields_some l p h
    exact ⟨t, a1, a2⟩
end
end

/-- C238: `inspect` shows the values of the requested fields beneath each operator of the plan, in the requested order, and apart from empty lines nothing
else. -/
theorem C238_fields (fields : List Text) (val : Info → Text → Text) (hne : fields ≠ []) (hn : fields.Nodup) (hc : ∀ f ∈ fields, '\n' ∉ f) (p : Plan)
    (hp : AllNodes Clean p) (h : ∀ x ∈ nodeRows 0 p, x.2.nodeType ≠ [] ∧ ∀ f ∈ fields, FieldIs x.2 f (val x.2 f)) :
    ∃ t, inspect fields p = some t ∧ (lines t).filter (fun x => !x.isEmpty) = (nodeRows 0 p).flatMap (nodeLines fields val) := by
  obtain ⟨⟨t, h1⟩, h2⟩ := fields_some fields val hne hn 0 p h
  refine ⟨t, h1, ?_⟩
  rw [explainify_lines fields 0 p t h1, lines_join _ (exLines_ne _ _ _) (exLines_clean fields hc 0 p hp), h2]

/-- C238, violated: a field with two dots, for example `estimates.a.b`, always is an error. -/
theorem C238_fields_violated (fields : List Text) (f a b c : Text) (hf : f ∈ fields) (e : f = a ++ '.' :: (b ++ '.' :: c)) (ha : '.' ∉ a) (hb : '.' ∉ b) (i : Info)
    (ks : List Plan) (s : Option Plan) : inspect fields (.node i ks s) = none := by
  have h1 : fieldValue i f = none := by
    rw [fieldValue, e, if_pos (by simp), split_append _ _ _ ha, split_append _ _ _ hb]
    cases h : split '.' c with
    | nil => exact absurd h (split_ne _ _)
    | cons x xs => rfl
  have h2 : ∀ (fs : List Text) (d : Dict Text Text), f ∈ fs → fieldValues i fs d = none := by
    intro fs
    induction fs with
    | nil => intro d h; simp at h
    | cons g fs ih =>
      intro d h
      simp only [fieldValues]
      rcases List.mem_cons.mp h with h | h
      · rw [← h, h1]
      · split
        · exact ih _ h
        · rfl
  have hne : fields ≠ [] := by intro e; simp [e] at hf
  simp [inspect, explainify, explainData, hne, customExplain, h2 fields [] hf]

/-- Lines below level 0 do not have a character other than blanks and arrows at the third position. -/
def Deep (x : Text) : Prop := ∀ c r, c ≠ ' ' → c ≠ '-' → x ≠ ' ' :: ' ' :: c :: r

theorem deep_data {l : Nat} {x : Text} (h : DataLine (l + 1) x) : Deep x := by
  obtain ⟨n, c, r, -, h3, e, h1, h2⟩ := h
  have : n ≥ 3 := h3 (by omega)
  obtain ⟨m, rfl⟩ : ∃ m, n = m + 3 := ⟨n - 3, by omega⟩
  intro c' r' hc hd h'
  rw [e] at h'
  simp only [List.replicate_succ, List.cons_append, List.cons.injEq, true_and] at h'
  exact hc h'.1.symm

theorem deep_row (l : Nat) (t : Text) : Deep (explainRow (l + 1, t)) := by
  intro c r hc hd h
  cases l with
  | zero => simp [explainRow, List.replicate_succ] at h; exact hd h.1.symm
  | succ l =>
    rw [explainRow, show 2 + 6 * (l + 1) = (6 * l + 5) + 3 by omega] at h
    simp [List.replicate_succ] at h; exact hc h.1.symm

mutual
theorem exLines_deep (fields : List Text) (l : Nat) : ∀ (p : Plan) (t : Text), explainify fields (l + 1) p = some t → ∀ x ∈ exLines fields (l + 1) p, Deep x
  | .node i ks s, t, h, x, hx => by
    simp only [explainify] at h
    split at h
    · rename_i data children sub h1 h2 h3
      simp only [exLines, List.mem_cons, List.mem_append] at hx
      rcases hx with hx | hx | hx | hx | hx
      · rw [hx]; exact deep_row _ _
      · exact deep_data (data_dataLine h1 x hx)
      · exact exAll_deep fields (l + 1) ks children h2 x hx
      · split at hx
        · simp at hx; rw [hx]; intro c r _ _ h; simp at h
        · simp at hx
      · exact exSub_deep fields (l + 1) s sub h3 x hx
    · cases h

theorem exAll_deep (fields : List Text) (l : Nat) : ∀ (ks : List Plan) (ts : List Text), explainAll fields (l + 1) ks = some ts →
    ∀ x ∈ exAll fields (l + 1) ks, Deep x
  | [], ts, h, x, hx => by simp [exAll] at hx
  | k :: ks, ts, h, x, hx => by
    simp only [explainAll] at h
    split at h
    · rename_i t ts' h1 h2
      simp only [exAll, List.mem_append] at hx
      rcases hx with hx | hx
      · exact exLines_deep fields l k t h1 x hx
      · exact exAll_deep fields l ks ts' h2 x hx
    · cases h

theorem exSub_deep (fields : List Text) (l : Nat) : ∀ (s : Option Plan) (t : Text), explainSub fields (l + 1) s = some t →
    ∀ x ∈ exSub fields (l + 1) s, Deep x
  | none, t, h, x, hx => by simp [exSub] at hx
  | some p, t, h, x, hx => by simp only [explainSub] at h; exact exLines_deep fields l p t h x hx
end

theorem mem_root {i : Info} {ks : List Plan} {s : Option Plan} {t : Text} (hp : AllNodes Clean (.node i ks s))
    (h : inspect [] (.node i ks s) = some t) (c : Char) (r : Text) (h1 : c ≠ ' ') (h2 : c ≠ '-') :
    ' ' :: ' ' :: c :: r ∈ (lines t).tail ↔ ' ' :: ' ' :: c :: r ∈ defaultExplain i [] := by
  have e := explainify_lines [] 0 _ t h
  rw [e, lines_join _ (exLines_ne _ _ _) (exLines_clean [] (by simp) 0 _ hp)]
  simp only [inspect, explainify] at h
  split at h
  · rename_i data children sub h3 h4 h5
    simp only [exLines, List.tail_cons, List.mem_append]
    constructor
    · rintro (hx | hx | hx | hx)
      · simpa [dataLines, padding] using hx
      · exact absurd rfl (exAll_deep [] 0 ks children h4 _ hx c r h1 h2)
      · split at hx <;> simp at hx
      · exact absurd rfl (exSub_deep [] 0 s sub h5 _ hx c r h1 h2)
    · intro hx
      left; simpa [dataLines, padding] using hx
  · cases h

theorem pathProps_head (i : Info) (c : Char) (r : Text) (h : pathProps i ≠ []) (e : join ", ".toList (pathProps i) = c :: r) : c = 'I' ∨ c = 'S' := by
  unfold pathProps at h e
  by_cases a : i.index = []
  · by_cases b : i.sortKeys = []
    · simp [a, b] at h
    · simp [a, b, join] at e; exact Or.inr e.1.symm
  · by_cases b : i.sortKeys = []
    · simp [a, b, join] at e; exact Or.inl e.1.symm
    · simp [a, b, join] at e; exact Or.inl e.1.symm

/-- C238: `explain` shows the estimates of the root, its measures exactly if there are some, the cache counters exactly if one is known, the number of parallel
workers, the lookup key, the index and the sort keys exactly if there are some. -/
theorem C238_default (i : Info) (ks : List Plan) (s : Option Plan) (hp : AllNodes Clean (.node i ks s)) (t : Text) (h : inspect [] (.node i ks s) = some t) :
    "  Estimated Cardinality=".toList ++ i.estCard ++ ", Estimated Cost=".toList ++ i.estCost ∈ (lines t).tail ∧
    (∀ a, "  Actual ".toList ++ a ∈ (lines t).tail ↔ ∃ c e, i.actual = some (c, e) ∧ a = "Cardinality=".toList ++ c ++ ", Actual Time=".toList ++ e ++ ['s']) ∧
    (∀ a, "  Cache ".toList ++ a ∈ (lines t).tail ↔ (i.hits ≠ none ∨ i.misses ≠ none) ∧
      a = "Hits=".toList ++ i.hits.getD "nan".toList ++ ", Cache Misses=".toList ++ i.misses.getD "nan".toList) ∧
    (∀ a, "  Parallel Workers=".toList ++ a ∈ (lines t).tail ↔ i.workers = some a) ∧
    (∀ a, "  Lookup Key=".toList ++ a ∈ (lines t).tail ↔ i.lookup = some a) ∧
    (∀ a, i.sortKeys = [] → ("  Index=".toList ++ a ∈ (lines t).tail ↔ i.index ≠ [] ∧ a = i.index)) ∧
    (∀ a, i.sortKeys ≠ [] → ("  Index=".toList ++ a ∈ (lines t).tail ↔ i.index ≠ [] ∧ a = i.index ++ ", Sort Keys=".toList ++ join ", ".toList i.sortKeys)) ∧
    (∀ a, "  Sort Keys=".toList ++ a ∈ (lines t).tail ↔ i.index = [] ∧ i.sortKeys ≠ [] ∧ a = join ", ".toList i.sortKeys) := by
  have M := fun c r h1 h2 => mem_root hp h c r h1 h2
  have toL : ∀ (x y : Text), x ++ y = x ++ y := fun _ _ => rfl
  have key : ∀ c r, ' ' :: ' ' :: c :: r ∈ defaultExplain i [] ↔
      c :: r = "Estimated Cardinality=".toList ++ (i.estCard ++ (", Estimated Cost=".toList ++ i.estCost)) ∨
      (∃ a b, i.actual = some (a, b) ∧ c :: r = "Actual Cardinality=".toList ++ (a ++ (", Actual Time=".toList ++ (b ++ ['s'])))) ∨
      ((i.hits.isSome ∨ i.misses.isSome) ∧
        c :: r = "Cache Hits=".toList ++ (i.hits.getD "nan".toList ++ (", Cache Misses=".toList ++ i.misses.getD "nan".toList))) ∨
      (∃ w, i.workers = some w ∧ c :: r = "Parallel Workers=".toList ++ w) ∨
      (∃ w, i.lookup = some w ∧ c :: r = "Lookup Key=".toList ++ w) ∨
      (pathProps i ≠ [] ∧ c :: r = join ", ".toList (pathProps i)) := by
    intro c r
    have pre : ∀ x : Text, ' ' :: ' ' :: c :: r = [] ++ "  ".toList ++ x ↔ c :: r = x := by intro x; simp
    simp only [defaultExplain, if_true, List.mem_append, List.mem_singleton, or_assoc, pre]
    refine or_congr Iff.rfl (or_congr ?_ (or_congr ?_ (or_congr ?_ (or_congr ?_ ?_))))
    · cases i.actual with
      | none => simp
      | some a =>
        obtain ⟨a, b⟩ := a
        simp only [List.mem_singleton, pre]
        constructor
        · intro h; exact ⟨a, b, rfl, h⟩
        · rintro ⟨a', b', h, h'⟩; cases h; exact h'
    · split
      · rename_i hc; simp only [List.mem_singleton, pre]; simp [hc]
      · rename_i hc; simp only [List.not_mem_nil, false_iff]; exact fun h => hc h.1
    · cases i.workers with
      | none => simp
      | some a =>
        simp only [List.mem_singleton, pre]
        constructor
        · intro h; exact ⟨a, rfl, h⟩
        · rintro ⟨a', h, h'⟩; cases h; exact h'
    · cases i.lookup with
      | none => simp
      | some a =>
        simp only [List.mem_singleton, pre]
        constructor
        · intro h; exact ⟨a, rfl, h⟩
        · rintro ⟨a', h, h'⟩; cases h; exact h'
    · split
      · rename_i hc; simp [hc]
      · rename_i hc; simp only [List.mem_singleton, pre]; simp [hc]
  have P := pathProps_head i
  have PI : ∀ a : Text, ((pathProps i ≠ [] ∧ "Index=".toList ++ a = join ", ".toList (pathProps i)) ↔
      (i.index ≠ [] ∧ a = i.index ++ (if i.sortKeys = [] then [] else ", Sort Keys=".toList ++ join ", ".toList i.sortKeys))) := by
    intro a
    unfold pathProps
    by_cases x : i.index = []
    · by_cases y : i.sortKeys = [] <;> simp [x, y, join]
    · by_cases y : i.sortKeys = [] <;> simp [x, y, join]
  have PS : ∀ a : Text, ((pathProps i ≠ [] ∧ "Sort Keys=".toList ++ a = join ", ".toList (pathProps i)) ↔
      (i.index = [] ∧ i.sortKeys ≠ [] ∧ a = join ", ".toList i.sortKeys)) := by
    intro a
    unfold pathProps
    by_cases x : i.index = []
    · by_cases y : i.sortKeys = [] <;> simp [x, y, join]
    · by_cases y : i.sortKeys = [] <;> simp [x, y, join]
  have noP : ∀ c r, c ≠ 'I' → c ≠ 'S' → ¬ (pathProps i ≠ [] ∧ c :: r = join ", ".toList (pathProps i)) := by
    rintro c r h1 h2 ⟨h3, h4⟩
    rcases P c r h3 h4.symm with h | h
    · exact h1 h
    · exact h2 h
  refine ⟨?_, ?_, ?_, ?_, ?_, ?_, ?_, ?_⟩
  · have := (M 'E' ("stimated Cardinality=".toList ++ (i.estCard ++ (", Estimated Cost=".toList ++ i.estCost))) (by decide) (by decide)).mpr ((key _ _).mpr (Or.inl (by simp)))
    simpa using this
  · intro a
    have := (M 'A' ("ctual ".toList ++ a) (by decide) (by decide)).trans (key _ _)
    refine (iff_of_eq (by simp)).trans (this.trans ?_)
    have n := noP 'A' ("ctual ".toList ++ a) (by decide) (by decide)
    simp only [n, or_false]
    simp
  · intro a
    have := (M 'C' ("ache ".toList ++ a) (by decide) (by decide)).trans (key _ _)
    refine (iff_of_eq (by simp)).trans (this.trans ?_)
    have n := noP 'C' ("ache ".toList ++ a) (by decide) (by decide)
    simp only [n, or_false]
    simp [Option.isSome_iff_ne_none]
  · intro a
    have := (M 'P' ("arallel Workers=".toList ++ a) (by decide) (by decide)).trans (key _ _)
    refine (iff_of_eq (by simp)).trans (this.trans ?_)
    have n := noP 'P' ("arallel Workers=".toList ++ a) (by decide) (by decide)
    simp only [n, or_false]
    simp
  · intro a
    have := (M 'L' ("ookup Key=".toList ++ a) (by decide) (by decide)).trans (key _ _)
    refine (iff_of_eq (by simp)).trans (this.trans ?_)
    have n := noP 'L' ("ookup Key=".toList ++ a) (by decide) (by decide)
    simp only [n, or_false]
    simp
  · intro a hs
    have := (M 'I' ("ndex=".toList ++ a) (by decide) (by decide)).trans (key _ _)
    refine (iff_of_eq (by simp)).trans (this.trans ?_)
    have q := PI a
    rw [if_pos hs, List.append_nil] at q
    rw [← q]
    simp
  · intro a hs
    have := (M 'I' ("ndex=".toList ++ a) (by decide) (by decide)).trans (key _ _)
    refine (iff_of_eq (by simp)).trans (this.trans ?_)
    have q := PI a
    rw [if_neg hs, ← List.append_assoc] at q
    rw [← q]
    simp
  · intro a
    have := (M 'S' ("ort Keys=".toList ++ a) (by decide) (by decide)).trans (key _ _)
    refine (iff_of_eq (by simp)).trans (this.trans ?_)
    rw [← PS a]
    simp

/-! ## Examples -/

/-- A sequential scan. -/
def exScan (t : Text) : Info :=
  { nodeType := "SeqScan".toList, scan := true, table := t, estCard := "3".toList, estCost := "1.5".toList, actual := none, hits := none, misses := none,
    workers := none, lookup := none, index := [], sortKeys := [], attr := fun p => if p = ["node_type".toList] then some "SeqScan".toList else none }

/-- A hash join. -/
def exJoin : Info :=
  { nodeType := "HashJoin".toList, scan := false, table := "None".toList, estCard := "7".toList, estCost := "2.5".toList, actual := some ("8".toList, "0.1".toList),
    hits := some "4".toList, misses := none, workers := some "2".toList, lookup := some "a.x".toList, index := "ix".toList, sortKeys := ["a.x".toList],
    attr := fun p => if p = ["params".toList, "index".toList] then some "ix".toList else if p = ["node_type".toList] then some "HashJoin".toList else none }

/-- A join of two scans with a subplan. -/
def exPlan : Plan := .node exJoin [.node (exScan ['a']) [] none, .node (exScan ['b']) [] none] (some (.node (exScan ['c']) [] none))

example : ast exPlan = "HashJoin\n  ->  SeqScan(a)\n  ->  SeqScan(b)".toList := by decide +kernel

example : inspect ["node_type".toList] exPlan =
    some "HashJoin\n   [node_type=HashJoin]\n  ->  SeqScan(a)\n     [node_type=SeqScan]\n  ->  SeqScan(b)\n     [node_type=SeqScan]\n  ->  SeqScan(c)\n     [node_type=SeqScan]".toList := by
  decide +kernel

theorem exScan_clean (t : Text) (h : '\n' ∉ t) : Clean (exScan t) where
  nodeType := by show '\n' ∉ "SeqScan".toList; decide +kernel
  table := h
  estCard := by show '\n' ∉ "3".toList; decide +kernel
  estCost := by show '\n' ∉ "1.5".toList; decide +kernel
  actual a b h := by have h : none = some (a, b) := h; cases h
  hits a h := by have h : none = some a := h; cases h
  misses a h := by have h : none = some a := h; cases h
  workers a h := by have h : none = some a := h; cases h
  lookup a h := by have h : none = some a := h; cases h
  index := by show '\n' ∉ []; simp
  sortKeys k h := by have h : k ∈ ([] : List Text) := h; simp at h
  attr p v h := by
    have h : (if p = ["node_type".toList] then some "SeqScan".toList else none) = some v := h
    split at h
    · rw [← Option.some.inj h]; decide +kernel
    · cases h

theorem exJoin_clean : Clean exJoin where
  nodeType := by decide +kernel
  table := by decide +kernel
  estCard := by decide +kernel
  estCost := by decide +kernel
  actual a b h := by
    have h : some ("8".toList, "0.1".toList) = some (a, b) := h
    have h' := Option.some.inj h
    simp only [Prod.mk.injEq] at h'
    rw [← h'.1, ← h'.2]; decide +kernel
  hits a h := by have h : some "4".toList = some a := h; rw [← Option.some.inj h]; decide +kernel
  misses a h := by have h : none = some a := h; cases h
  workers a h := by have h : some "2".toList = some a := h; rw [← Option.some.inj h]; decide +kernel
  lookup a h := by have h : some "a.x".toList = some a := h; rw [← Option.some.inj h]; decide +kernel
  index := by decide +kernel
  sortKeys := by decide +kernel
  attr p v h := by
    have h : (if p = ["params".toList, "index".toList] then some "ix".toList else if p = ["node_type".toList] then some "HashJoin".toList else none) = some v := h
    split at h
    · rw [← Option.some.inj h]; decide +kernel
    · split at h
      · rw [← Option.some.inj h]; decide +kernel
      · cases h

theorem exPlan_clean : AllNodes Clean exPlan := by
  simp only [exPlan, AllNodes, AllKids, AllSub, and_true, true_and]
  exact ⟨exJoin_clean, ⟨exScan_clean _ (by decide), exScan_clean _ (by decide)⟩, exScan_clean _ (by decide)⟩

/-- The example meets the hypotheses of `C238_ast_determines`, `C238_explain` and `C238_default`. -/
example : ∃ t, AllNodes Clean exPlan ∧ inspect [] exPlan = some t ∧ "  Lookup Key=a.x".toList ∈ lines t ∧ "  ->  SeqScan(c)".toList ∈ lines t :=
  ⟨_, exPlan_clean, rfl, by decide +kernel, by decide +kernel⟩

/-- A node with a subplan and no children, as in `C238_explain_blank_violated`. -/
example : (inspect ["node_type".toList] (.node (exScan ['a']) [] (some (.node (exScan ['b']) [] none)))).map lines =
    some ["SeqScan(a)".toList, "   [node_type=SeqScan]".toList, [], "  ->  SeqScan(b)".toList, "     [node_type=SeqScan]".toList] := by decide +kernel

/-- Fields as in `C238_fields`. -/
example : FieldIs exJoin "params.index".toList "ix".toList ∧ FieldIs exJoin "node_type".toList "HashJoin".toList :=
  ⟨FieldIs.dotted "params".toList "index".toList _ (by decide +kernel) (by decide +kernel) (by decide +kernel), FieldIs.plain _ _ (by decide +kernel) (by decide +kernel)⟩

/-- A plan with children and a subplan meets the hypotheses of `C238_fields`. -/
example : ∃ t, inspect ["node_type".toList] exPlan = some t ∧ (lines t).filter (fun x => !x.isEmpty) =
    (nodeRows 0 exPlan).flatMap (nodeLines ["node_type".toList] fun i _ => i.nodeType) :=
  C238_fields _ _ (by simp) (by simp) (by decide +kernel) _ exPlan_clean (by
    intro x hx
    have : x.2.nodeType ≠ [] := by
      simp only [exPlan, nodeRows, nodeRowsAll, nodeRowsSub, List.mem_cons, List.mem_append, List.not_mem_nil, or_false] at hx
      rcases hx with rfl | (rfl | rfl) | rfl <;> decide +kernel
    refine ⟨this, ?_⟩
    intro f hf
    rw [List.mem_singleton.mp hf]
    exact FieldIs.plain _ _ (by decide +kernel) (by
      simp only [exPlan, nodeRows, nodeRowsAll, nodeRowsSub, List.mem_cons, List.mem_append, List.not_mem_nil, or_false] at hx
      rcases hx with rfl | (rfl | rfl) | rfl <;> decide +kernel))

end PB.PlanTextProps
