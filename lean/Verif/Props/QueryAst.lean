import Verif.Model.QueryAst
import Verif.Props.PlanText

set_option linter.unusedSimpArgs false
set_option linter.unusedVariables false
set_option linter.unusedSectionVars false
set_option linter.unnecessarySimpa false

/-! Property C243: the outline of a query. -/

namespace PB.QueryAstProps
open PB PB.QueryAst PB.PlanTextProps
open PB.PlanText (Text join)

/-! ## Specification -/

/-- The name of a class and a detail in square brackets. -/
def detail (cls : String) (x : Text) : Text := '-' :: chars cls ++ [' ', '['] ++ x ++ [']']

/-- What a reader expects to see for an object: a sign (a blank for columns), the class, and the operator, name, type or text. -/
def title : Item → Text
  | .compound op _ => detail "CompoundPredicate" op
  | .negation _ => detail "CompoundPredicate" ['N', 'O', 'T']
  | .unary (some op) _ => detail "UnaryPredicate" op
  | .unary none _ => '-' :: chars "UnaryPredicate"
  | .binary op _ _ => detail "BinaryPredicate" op
  | .pred cls _ => '-' :: cls
  | .col text => ' ' :: chars "ColumnExpression" ++ [' ', '['] ++ text ++ [']']
  | .cast ty _ arr _ => detail "CastExpression" (if arr then ty ++ ['[', ']'] else ty)
  | .quant q _ => detail "QuantifierExpression" q
  | .func name _ _ _ => detail "FunctionExpression" name
  | .expr cls text [] => '-' :: cls ++ [' ', '['] ++ text ++ [']']
  | .expr cls _ (_ :: _) => '-' :: cls
  | .where_ _ => '-' :: chars "Where"
  | .having _ => '-' :: chars "Having"
  | .table name => detail "DirectTableSource" name
  | .joined _ _ _ _ => '-' :: chars "JoinTableSource"
  | .subquery (some name) _ => detail "SubqueryTableSource" name
  | .subquery none _ => '-' :: chars "SubqueryTableSource"
  | .values => '-' :: chars "ValuesTableSource"
  | .fnTable _ => '-' :: chars "FunctionTableSource"
  | .from_ cls _ => '-' :: cls
  | .ctes _ => '-' :: chars "CommonTableExpression"
  | .clause cls _ => '-' :: cls
  | .valuesCte => '-' :: chars "ValuesWithQuery"
  | .withQuery name _ => detail "WithQuery" name
  | .setQuery _ _ _ _ => '-' :: chars "SetQuery"
  | .query cls _ => '-' :: cls

/-- The parts that are shown beneath an object. -/
def parts : Item → List Item
  | .compound _ cs => cs
  | .negation c => [c]
  | .unary _ c => [c]
  | .binary _ l r => [l, r]
  | .pred _ es => es
  | .col _ => []
  | .cast _ _ _ c => [c]
  | .quant _ c => [c]
  | .func _ _ _ args => args
  | .expr _ _ cs => cs
  | .where_ p => [p]
  | .having p => [p]
  | .table _ => []
  | .joined _ _ l r => [l, r]
  | .subquery _ q => [q]
  | .values => []
  | .fnTable f => [f]
  | .from_ _ items => items
  | .ctes qs => qs
  | .clause _ es => es
  | .valuesCte => []
  | .withQuery _ q => [q]
  | .setQuery _ _ l r => [l, r]
  | .query _ clauses => clauses

/-- `j` is `i`, or is shown somewhere beneath it. -/
inductive Shown : Item → Item → Prop
  | self (i) : Shown i i
  | part (i c j) : c ∈ parts i → Shown c j → Shown i j

/-- HAVING clauses and functions in the FROM clause. -/
def Unsupported : Item → Prop
  | .having _ => True
  | .fnTable _ => True
  | _ => False

mutual
/-- A tree of titles outlines an object. -/
inductive Outlines : Item → Tree → Prop
  | mk (i ts) : OutlinesAll (parts i) ts → Outlines i (.node (title i) ts)
/-- Trees of titles outline several objects. -/
inductive OutlinesAll : List Item → List Tree → Prop
  | nil : OutlinesAll [] []
  | cons (i t is ts) : Outlines i t → OutlinesAll is ts → OutlinesAll (i :: is) (t :: ts)
end

/-- A row of the outline: two blanks per level, a plus sign and the title. -/
def row (x : Nat × Text) : Text := List.replicate (2 * x.1) ' ' ++ '+' :: x.2

/-- The lines that are not empty. -/
def filled (t : Text) : List Text := (lines t).filter fun l => !l.isEmpty

/-! ## Proofs -/

theorem parts_lt (i c : Item) (h : c ∈ parts i) : sizeOf c < sizeOf i := by
  cases i with
  | compound op cs => have := List.sizeOf_lt_of_mem h; simp [Item.compound.sizeOf_spec] at this ⊢; simp [parts] at h; have := List.sizeOf_lt_of_mem h; omega
  | pred cls cs => simp [parts] at h; have := List.sizeOf_lt_of_mem h; simp; omega
  | func n d f cs => simp [parts] at h; have := List.sizeOf_lt_of_mem h; simp; omega
  | expr a b cs => simp [parts] at h; have := List.sizeOf_lt_of_mem h; simp; omega
  | from_ a cs => simp [parts] at h; have := List.sizeOf_lt_of_mem h; simp; omega
  | ctes cs => simp [parts] at h; have := List.sizeOf_lt_of_mem h; simp; omega
  | clause a cs => simp [parts] at h; have := List.sizeOf_lt_of_mem h; simp; omega
  | query a cs => simp [parts] at h; have := List.sizeOf_lt_of_mem h; simp; omega
  | binary op l r => simp [parts] at h; rcases h with rfl | rfl <;> simp <;> omega
  | joined a b l r => simp [parts] at h; rcases h with rfl | rfl <;> simp <;> omega
  | setQuery a b l r => simp [parts] at h; rcases h with rfl | rfl <;> simp <;> omega
  | col _ => simp [parts] at h
  | table _ => simp [parts] at h
  | values => simp [parts] at h
  | valuesCte => simp [parts] at h
  | _ => simp [parts] at h; subst h; simp <;> omega

/-- The objects that end without a line break. -/
def short : Item → Bool
  | .col _ => true
  | .expr _ _ [] => true
  | .table _ => true
  | .values => true
  | .valuesCte => true
  | _ => false

def render (ind : Nat) (i : Item) (ts : List Text) : Text :=
  List.replicate ind ' ' ++ '+' :: title i ++ (if short i then [] else '\n' :: join ['\n'] ts)

theorem create_eq (ind : Nat) (i : Item) (h : ¬ Unsupported i) : create ind i = (createAll (ind + 2) (parts i)).map (render ind i) := by
  cases i with
  | having => exact absurd trivial h
  | fnTable => exact absurd trivial h
  | unary op c => cases op <;> cases hc : create (ind + 2) c <;>
      simp [create, createAll, parts, render, short, node, leaf, title, hc, detail, tag, cUnary]
  | subquery op c => cases op <;> cases hc : create (ind + 2) c <;>
      simp [create, createAll, parts, render, short, node, leaf, title, hc, detail, tag, cSubquery]
  | expr cls text cs => cases cs with
    | nil => simp [create, createAll, parts, render, short, node, leaf, title, detail, tag]
    | cons c cs => cases hc : create (ind + 2) c <;> cases hd : createAll (ind + 2) cs <;>
      simp [create, createAll, parts, render, short, node, leaf, title, hc, hd, detail, tag]
  | binary op l r => cases hc : create (ind + 2) l <;> cases hd : create (ind + 2) r <;>
      simp [create, createAll, parts, render, short, node, leaf, title, hc, hd, detail, tag, cBinary]
  | joined a b l r => cases hc : create (ind + 2) l <;> cases hd : create (ind + 2) r <;>
      simp [create, createAll, parts, render, short, node, leaf, title, hc, hd, detail, tag, cJoin]
  | setQuery a b l r => cases hc : create (ind + 2) l <;> cases hd : create (ind + 2) r <;>
      simp [create, createAll, parts, render, short, node, leaf, title, hc, hd, detail, tag, cSet]
  | negation c => cases hc : create (ind + 2) c <;>
      simp [create, createAll, parts, render, short, node, leaf, title, hc, detail, tag, cCompound]
  | cast a b d c => cases hc : create (ind + 2) c <;>
      simp [create, createAll, parts, render, short, node, leaf, title, hc, detail, tag, cCast]
  | quant a c => cases hc : create (ind + 2) c <;>
      simp [create, createAll, parts, render, short, node, leaf, title, hc, detail, tag, cQuant]
  | where_ c => cases hc : create (ind + 2) c <;>
      simp [create, createAll, parts, render, short, node, leaf, title, hc, detail, tag, cWhere]
  | withQuery n c => cases hc : create (ind + 2) c <;>
      simp [create, createAll, parts, render, short, node, leaf, title, hc, detail, tag, cWith]
  | compound op cs => cases hc : createAll (ind + 2) cs <;>
      simp [create, createAll, parts, render, short, node, leaf, title, hc, detail, tag, cCompound]
  | pred op cs => cases hc : createAll (ind + 2) cs <;>
      simp [create, createAll, parts, render, short, node, leaf, title, hc, detail, tag]
  | func n d f cs => cases hc : createAll (ind + 2) cs <;>
      simp [create, createAll, parts, render, short, node, leaf, title, hc, detail, tag, cFunc]
  | from_ op cs => cases hc : createAll (ind + 2) cs <;>
      simp [create, createAll, parts, render, short, node, leaf, title, hc, detail, tag]
  | clause op cs => cases hc : createAll (ind + 2) cs <;>
      simp [create, createAll, parts, render, short, node, leaf, title, hc, detail, tag]
  | query op cs => cases hc : createAll (ind + 2) cs <;>
      simp [create, createAll, parts, render, short, node, leaf, title, hc, detail, tag]
  | ctes cs => cases hc : createAll (ind + 2) cs <;>
      simp [create, createAll, parts, render, short, node, leaf, title, hc, detail, tag, cCtes]
  | col x => simp [create, createAll, parts, render, short, node, leaf, title, detail, tag, cColumn]
  | table x => simp [create, createAll, parts, render, short, node, leaf, title, detail, tag, cTable]
  | values => simp [create, createAll, parts, render, short, node, leaf, title, detail, tag, cValues]
  | valuesCte => simp [create, createAll, parts, render, short, node, leaf, title, detail, tag, cValuesCte]

theorem create_unsupported (ind : Nat) (i : Item) (h : Unsupported i) : create ind i = none := by
  cases i <;> simp [Unsupported, create] at h ⊢

theorem createAll_none (ind : Nat) : ∀ is : List Item, createAll ind is = none ↔ ∃ i ∈ is, create ind i = none
  | [] => by simp [createAll]
  | i :: is => by
    have ih := createAll_none ind is
    cases hc : create ind i <;> simp [createAll, hc, ih]

theorem create_none (n : Nat) : ∀ (ind : Nat) (i : Item), sizeOf i ≤ n → (create ind i = none ↔ ∃ j, Shown i j ∧ Unsupported j) := by
  induction n with
  | zero => intro ind i h; cases i <;> simp at h
  | succ n ih =>
    intro ind i h
    by_cases hu : Unsupported i
    · exact ⟨fun _ => ⟨i, .self i, hu⟩, fun _ => create_unsupported ind i hu⟩
    · rw [create_eq ind i hu, Option.map_eq_none_iff, createAll_none]
      constructor
      · rintro ⟨c, hc, e⟩
        have := parts_lt i c hc
        obtain ⟨j, h1, h2⟩ := (ih (ind + 2) c (by omega)).mp e
        exact ⟨j, .part i c j hc h1, h2⟩
      · rintro ⟨j, h1, h2⟩
        cases h1 with
        | self => exact absurd h2 hu
        | part _ c _ hc h1 =>
          have := parts_lt i c hc
          exact ⟨c, hc, (ih (ind + 2) c (by omega)).mpr ⟨j, h1, h2⟩⟩

/-- **C243** (partial).  `ast` fails if and only if a HAVING clause or a function in a FROM clause is shown anywhere.

Missing: it should never fail (`C243_having_violated`). -/
theorem C243_total_partial (q : Item) : (∃ t, ast q = some t) ↔ ∀ j, Shown q j → ¬ Unsupported j := by
  have := create_none (sizeOf q) 0 q (Nat.le_refl _)
  unfold ast
  cases h : create 0 q with
  | none =>
    obtain ⟨j, h1, h2⟩ := this.mp h
    simp only [reduceCtorEq, exists_false, false_iff]
    exact fun k => k j h1 h2
  | some t =>
    simp only [Option.some.injEq, exists_eq', true_iff]
    intro j h1 h2
    rw [this.mpr ⟨j, h1, h2⟩] at h
    cases h

/-- **C243** violated: each query with a HAVING clause, and each query that selects from a function. -/
theorem C243_having_violated (cls : Text) (cs : List Item) (p : Item) (hc : Item.having p ∈ cs ∨ ∃ c is, Item.from_ c is ∈ cs ∧ Item.fnTable p ∈ is) :
 ast (.query cls cs) = none := by
  refine (create_none _ 0 _ (Nat.le_refl _)).mpr ?_
  rcases hc with h | ⟨c, is, h1, h2⟩
  · exact ⟨_, .part _ _ _ h (.self _), trivial⟩
  · exact ⟨_, .part _ _ _ h1 (.part _ _ _ h2 (.self _)), trivial⟩

example : ∃ q : Item, ∀ j, Shown q j → ¬ Unsupported j := by
  refine ⟨.table [], fun j h => ?_⟩
  cases h with
  | self => exact id
  | part _ c _ hc _ => simp [parts] at hc

theorem join_flatten : ∀ (lls : List (List Text)), (∀ ls ∈ lls, ls ≠ []) → join ['\n'] (lls.map (join ['\n'])) = join ['\n'] lls.flatten
  | [], _ => rfl
  | [ls], _ => by simp [join]
  | ls :: ls' :: lls, h => by
    have ih := join_flatten (ls' :: lls) (fun l hl => h l (List.mem_cons_of_mem _ hl))
    have h1 : ls ≠ [] := h ls (by simp)
    have h2 : ls' ≠ [] := h ls' (by simp)
    have h3 : (ls' :: lls).flatten ≠ [] := by
      intro e
      simp at e
      exact h2 e.1
    rw [List.flatten_cons, join_append _ ls _ h1 h3, ← ih, List.map_cons]
    exact join_cons _ _ _ (by simp)

/-- What is shown for one object. -/
def Good (d : Nat) (i : Item) (t : Text) : Prop :=
  ∃ o ls, Outlines i o ∧ t = join ['\n'] ls ∧ ls ≠ [] ∧ (ls.filter fun l => !l.isEmpty) = (rows d o).map row

theorem createAll_good (d : Nat) : ∀ (is : List Item) (ts : List Text), (∀ i ∈ is, ∀ t, create (2 * d) i = some t → Good d i t) →
    createAll (2 * d) is = some ts → ∃ (os : List Tree) (lls : List (List Text)), OutlinesAll is os ∧ ts = lls.map (join ['\n']) ∧ (∀ ls ∈ lls, ls ≠ []) ∧
      (lls.flatten.filter fun l => !l.isEmpty) = (rowsAll d os).map row
  | [], ts, _, h => by
    simp only [createAll, Option.some.injEq] at h
    exact ⟨[], [], .nil, by simp [← h], by simp, by simp [rowsAll]⟩
  | i :: is, ts, hg, h => by
    cases hc : create (2 * d) i with
    | none => simp [createAll, hc] at h
    | some t =>
      cases hd : createAll (2 * d) is with
      | none => simp [createAll, hc, hd] at h
      | some ts' =>
        have e : ts = t :: ts' := by simpa [createAll, hc, hd] using h.symm
        obtain ⟨o, ls, a1, a2, a3, a4⟩ := hg i (by simp) t hc
        obtain ⟨os, lls, b1, b2, b3, b4⟩ := createAll_good d is ts' (fun j hj => hg j (by simp [hj])) hd
        refine ⟨o :: os, ls :: lls, .cons _ _ _ _ a1 b1, by rw [e, a2, b2]; rfl, ?_, ?_⟩
        · intro l hl
          rcases List.mem_cons.mp hl with rfl | hl
          · exact a3
          · exact b3 l hl
        · rw [List.flatten_cons, List.filter_append, a4, b4, rowsAll, List.map_append]

theorem short_parts (i : Item) (h : short i = true) : parts i = [] := by
  cases i with
  | expr a b cs => cases cs <;> simp_all [short, parts]
  | _ => simp_all [short, parts]

theorem create_good (n : Nat) : ∀ (d : Nat) (i : Item) (t : Text), sizeOf i ≤ n → create (2 * d) i = some t → Good d i t := by
  induction n with
  | zero => intro d i t h; cases i <;> simp at h
  | succ n ih =>
    intro d i t h hc
    by_cases hu : Unsupported i
    · rw [create_unsupported _ i hu] at hc; cases hc
    · rw [create_eq _ i hu] at hc
      obtain ⟨ts, h1, h2⟩ := Option.map_eq_some_iff.mp hc
      obtain ⟨os, lls, b1, b2, b3, b4⟩ := createAll_good (d + 1) (parts i) ts
        (fun j hj u hju => ih (d + 1) j u (by have := parts_lt i j hj; omega) hju) h1
      have hr : row (d, title i) = List.replicate (2 * d) ' ' ++ '+' :: title i := rfl
      have hn : row (d, title i) ≠ [] := by simp [row]
      by_cases hs : short i = true
      · have hp := short_parts i hs
        rw [hp] at b1
        cases b1
        refine ⟨_, [row (d, title i)], .mk i [] (by rw [hp]; exact .nil), ?_, by simp, ?_⟩
        · rw [← h2]; simp [render, hs, join, hr]
        · simp [rows, rowsAll, hn]
      · by_cases hf : lls.flatten = []
        · refine ⟨_, [row (d, title i), []], .mk i os b1, ?_, by simp, ?_⟩
          · rw [← h2, b2]
            simp only [render, hs, join_flatten lls b3, hf]
            simp [join, hr]
          · rw [hf] at b4
            have : (rowsAll (d + 1) os).map row = [] := by rw [← b4]; rfl
            simp [rows, hn, this]
        · refine ⟨_, row (d, title i) :: lls.flatten, .mk i os b1, ?_, by simp, ?_⟩
          · rw [← h2, b2, join_cons _ _ _ hf]
            simp [render, hs, join_flatten lls b3, hr]
          · rw [List.filter_cons_of_pos (by simpa using hn), b4]; rfl

theorem all_titles (d : Nat) : ∀ (is : List Item) (ts : List Tree), OutlinesAll is ts →
    (∀ i ∈ is, ∀ o, Outlines i o → ∀ x ∈ rows d o, ∃ j, Shown i j ∧ x.2 = title j) →
    ∀ x ∈ rowsAll d ts, ∃ i ∈ is, ∃ j, Shown i j ∧ x.2 = title j
  | [], _, h, _, x, hx => by cases h; simp [rowsAll] at hx
  | i :: is, _, h, hi, x, hx => by
    cases h with
    | cons _ t _ ts h1 h2 =>
      rw [rowsAll, List.mem_append] at hx
      rcases hx with hx | hx
      · obtain ⟨j, a, b⟩ := hi i (by simp) t h1 x hx
        exact ⟨i, by simp, j, a, b⟩
      · obtain ⟨k, hk, j, a, b⟩ := all_titles d is ts h2 (fun k hk => hi k (by simp [hk])) x hx
        exact ⟨k, by simp [hk], j, a, b⟩

theorem titles (n : Nat) : ∀ (d : Nat) (i : Item) (o : Tree), sizeOf i ≤ n → Outlines i o → ∀ x ∈ rows d o, ∃ j, Shown i j ∧ x.2 = title j := by
  induction n with
  | zero => intro d i o h; cases i <;> simp at h
  | succ n ih =>
    intro d i o h ho x hx
    cases ho with
    | mk _ ts hts =>
      rw [rows, List.mem_cons] at hx
      rcases hx with rfl | hx
      · exact ⟨i, .self i, rfl⟩
      · obtain ⟨c, hc, j, a, b⟩ := all_titles (d + 1) (parts i) ts hts
          (fun k hk o ho y hy => ih (d + 1) k o (by have := parts_lt i k hk; omega) ho y hy) x hx
        exact ⟨j, .part i c j hc a, b⟩

/-- **C243**: apart from empty lines, the text consists of one line for the query and each part of it, in order, indented by its depth;
this holds for all queries for which there is a text and whose names and texts contain no line breaks. -/
theorem C243_shows (q : Item) (t : Text) (h : ast q = some t) (hc : ∀ j, Shown q j → '\n' ∉ title j) :
    ∃ o, Outlines q o ∧ filled t = (rows 0 o).map row := by
  obtain ⟨o, ls, a1, a2, a3, a4⟩ := create_good (sizeOf q) 0 q t (Nat.le_refl _) h
  refine ⟨o, a1, ?_⟩
  have cl : ∀ l ∈ ls, '\n' ∉ l := by
    intro l hl hn
    cases l with
    | nil => simp at hn
    | cons c cs =>
      have : (c :: cs) ∈ (rows 0 o).map row := by
        rw [← a4]; exact List.mem_filter.mpr ⟨hl, rfl⟩
      obtain ⟨x, hx, e⟩ := List.mem_map.mp this
      obtain ⟨j, hj, ej⟩ := titles (sizeOf q) 0 q o (Nat.le_refl _) a1 x hx
      rw [← e, row, ej] at hn
      simp only [List.mem_append, List.mem_replicate, List.mem_cons] at hn
      rcases hn with ⟨_, h⟩ | h | h
      · cases h
      · cases h
      · exact hc j hj h
  rw [filled, a2, lines_join ls a3 cl, a4]

mutual
theorem outlines_unique (i : Item) (o o' : Tree) (h : Outlines i o) (h' : Outlines i o') : o = o' := by
  cases h with
  | mk _ ts hts => cases h' with
    | mk _ ts' hts' => rw [outlinesAll_unique _ _ _ hts hts']
theorem outlinesAll_unique (is : List Item) (os os' : List Tree) (h : OutlinesAll is os) (h' : OutlinesAll is os') : os = os' := by
  cases h with
  | nil => cases h'; rfl
  | cons i t is ts h1 h2 => cases h' with
    | cons _ t' _ ts' h1' h2' => rw [outlines_unique i t t' h1 h1', outlinesAll_unique is ts ts' h2 h2']
end

theorem plus_inj : ∀ (n m : Nat) (a b : Text), List.replicate n ' ' ++ ('+' :: a) = List.replicate m ' ' ++ ('+' :: b) → n = m ∧ a = b
  | 0, 0, a, b, h => by simpa using h
  | 0, m + 1, a, b, h => by simp [List.replicate_succ] at h
  | n + 1, 0, a, b, h => by simp [List.replicate_succ] at h
  | n + 1, m + 1, a, b, h => by
    simp only [List.replicate_succ, List.cons_append, List.cons.injEq, true_and] at h
    obtain ⟨e, e'⟩ := plus_inj n m a b h
    exact ⟨by rw [e], e'⟩

/-- **C243**: queries with the same text have the same outline. -/
theorem C243_determines (q q' : Item) (t : Text) (h : ast q = some t) (h' : ast q' = some t) (hc : ∀ j, Shown q j → '\n' ∉ title j)
    (hc' : ∀ j, Shown q' j → '\n' ∉ title j) (o : Tree) : Outlines q o ↔ Outlines q' o := by
  obtain ⟨a, a1, a2⟩ := C243_shows q t h hc
  obtain ⟨b, b1, b2⟩ := C243_shows q' t h' hc'
  have e : a = b := by
    have := map_inj_on row (fun _ => True) (by
      intro x y _ _ e
      obtain ⟨e1, e2⟩ := plus_inj _ _ _ _ e
      exact Prod.ext (by omega) e2) (rows 0 a) (rows 0 b) (by simp) (by simp) (a2.symm.trans b2)
    exact (rows_inj 0 a b [] [] (by simp [Shallow]) (by simp [Shallow]) (by simpa using this)).1
  subst e
  exact ⟨fun k => (outlines_unique q o a k a1) ▸ b1, fun k => (outlines_unique q' o a k b1) ▸ a1⟩

example : ∃ (q : Item) (t : Text), ast q = some t ∧ ∀ j, Shown q j → '\n' ∉ title j := by
  refine ⟨.where_ (.pred ['P'] [.expr ['E'] ['x'] []]), _, rfl, fun j h => ?_⟩
  have h1 : '\n' ∉ chars "Where" := by unfold chars; decide +kernel
  cases h with
  | self => simpa [title] using h1
  | part _ c _ hc h =>
    simp only [parts, List.mem_singleton] at hc
    subst hc
    cases h with
    | self => decide +kernel
    | part _ c _ hc h =>
      simp only [parts, List.mem_singleton] at hc
      subst hc
      cases h with
      | self => decide +kernel
      | part _ c _ hc _ => simp [parts] at hc

/-- **C243** violated: types and conditions of joins, operators and further clauses of set operations, DISTINCT and FILTER of
functions, parameters of types, and the operators of compound expressions do not show, so that queries with different results have the
same text. -/
theorem C243_hidden_violated :
    (∀ ty ty' c c' l r, ast (.joined ty c l r) = ast (.joined ty' c' l r)) ∧
      (∀ op op' s s' l r, ast (.setQuery op s l r) = ast (.setQuery op' s' l r)) ∧
      (∀ n d d' f f' as, ast (.func n d f as) = ast (.func n d' f' as)) ∧
      (∀ ty ps ps' arr c, ast (.cast ty ps arr c) = ast (.cast ty ps' arr c)) ∧
      (∀ cls t t' c cs, ast (.expr cls t (c :: cs)) = ast (.expr cls t' (c :: cs))) := by
  refine ⟨?_, ?_, ?_, ?_, ?_⟩ <;> intros <;> simp [ast, create]

end PB.QueryAstProps
