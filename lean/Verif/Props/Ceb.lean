import Mathlib.Data.Finset.Card
import Mathlib.Data.Finset.Image
import Mathlib.Data.List.Induction
import Mathlib.Order.Interval.Finset.Nat
import Mathlib.Tactic.Linarith
import Verif.Model.Ceb
import Verif.Props.DepGraph

set_option linter.unusedSimpArgs false
set_option linter.unusedVariables false
set_option linter.unnecessarySimpa false
set_option linter.unnecessarySeqFocus false

/-!
# Properties of the template-based workload generator (C189-C192)
-/

namespace PB.CebProps

open PB PB.Ceb

/-! ### Specification -/

/-- A template: plain SQL and placeholders. -/
inductive Part where
  | sql (t : Txt)
  | placeholder (k : Txt)

/-- The text of a template as the user writes it. -/
def written : List Part → Txt
  | [] => []
  | .sql t :: ps => t ++ written ps
  | .placeholder k :: ps => '<' :: '<' :: (k ++ '>' :: '>' :: written ps)

/-- The text with the placeholders replaced; placeholders without replacement are kept. -/
def filled (val : Txt → Option Txt) : List Part → Txt
  | [] => []
  | .sql t :: ps => t ++ filled val ps
  | .placeholder k :: ps => (val k).getD ('<' :: '<' :: (k ++ ['>', '>'])) ++ filled val ps

/-- Each `<` is followed by another character, which is not `<`. -/
def Clean : Txt → Prop
  | [] => True
  | c :: s => (c = '<' → ∃ d m, s = d :: m ∧ d ≠ '<') ∧ Clean s

def PlainKey (k : Txt) : Prop := '<' ∉ k ∧ '>' ∉ k

def CleanPart : Part → Prop
  | .sql t => Clean t
  | .placeholder k => PlainKey k

/-- What SQL reads after the opening quote of a string: two quotes are a quote, a single one ends the string. -/
def unquote : Txt → Option Txt
  | [] => none
  | ['\''] => some []
  | c :: d :: s =>
    if c = '\'' then (if d = '\'' then (unquote s).map ('\'' :: ·) else none)
    else (unquote (d :: s)).map (c :: ·)
  | [_] => none

/-- The string that a text denotes, if it is a string literal of SQL. -/
def stringLiteral : Txt → Option Txt
  | '\'' :: s => unquote s
  | _ => none

/-- The guarantees of the random number generators. -/
structure Fair (env : Env) : Prop where
  choice : ∀ n l, l ≠ [] → env.choice n l ∈ l
  randint : ∀ n a b, a ≤ b → a ≤ env.randint n a b ∧ env.randint n a b ≤ b
  sample : ∀ i l n, n ≤ l.length → (env.sample i l n).length = n ∧ ∀ x ∈ env.sample i l n, x ∈ l
  sampleWeighted : ∀ i l n, n ≤ l.length → (env.sampleWeighted i l n).length = n ∧ (∀ x ∈ env.sampleWeighted i l n, x ∈ l) ∧
    (l.Nodup → (env.sampleWeighted i l n).Nodup)

/-- `list(set(l))` -/
structure Uniq (uniq : List (List PVal) → List (List PVal)) : Prop where
  nodup : ∀ l, (uniq l).Nodup
  mem : ∀ l x, x ∈ uniq l ↔ x ∈ l

/-! ### Texts (C189) -/

theorem isPrefixOf_append_of_ne (k k' rest : Txt) (h1 : '>' ∉ k) (h2 : '>' ∉ k') (hne : k ≠ k') :
    (k ++ ['>', '>']).isPrefixOf (k' ++ '>' :: '>' :: rest) = false := by
  induction k generalizing k' with
  | nil =>
    cases k' with
    | nil => exact absurd rfl hne
    | cons c k' =>
      simp only [List.nil_append, List.cons_append, List.isPrefixOf, Bool.and_eq_false_iff, beq_eq_false_iff_ne]
      left
      rintro rfl
      exact h2 (by simp)
  | cons c k ih =>
    cases k' with
    | nil =>
      simp only [List.cons_append, List.nil_append, List.isPrefixOf, Bool.and_eq_false_iff, beq_eq_false_iff_ne]
      left
      rintro rfl
      exact h1 (by simp)
    | cons d k' =>
      simp only [List.cons_append, List.isPrefixOf, Bool.and_eq_false_iff, beq_eq_false_iff_ne]
      by_cases hcd : c = d
      · right
        exact ih k' (fun h => h1 (by simp [h])) (fun h => h2 (by simp [h])) (fun h => hne (by rw [hcd, h]))
      · exact Or.inl hcd

theorem isPrefixOf_self_append (p s : Txt) : p.isPrefixOf (p ++ s) = true := by
  induction p with
  | nil => cases s <;> rfl
  | cons c p ih => simp [List.isPrefixOf, ih]

theorem replaceAux_skip (old new : Txt) (p s : Txt) : replaceAux old new p.length (p ++ s) = replaceAux old new 0 s := by
  induction p with
  | nil => rfl
  | cons c p ih => simp only [List.length_cons, List.cons_append, replaceAux]; exact ih

theorem replaceAux_noMatch (old new : Txt) (c : Char) (s : Txt) (h : old.isPrefixOf (c :: s) = false) :
    replaceAux old new 0 (c :: s) = c :: replaceAux old new 0 s := by
  simp [replaceAux, h]

theorem hole_noMatch (k : Txt) (c : Char) (s : Txt) (h : c = '<' → ∃ d m, s = d :: m ∧ d ≠ '<') :
    (hole k).isPrefixOf (c :: s) = false := by
  unfold hole
  simp only [List.cons_append, List.nil_append, List.isPrefixOf, Bool.and_eq_false_iff, beq_eq_false_iff_ne]
  by_cases hc : c = '<'
  · right
    obtain ⟨d, m, rfl, hd⟩ := h hc
    simp only [List.isPrefixOf, Bool.and_eq_false_iff, beq_eq_false_iff_ne]
    exact Or.inl (Ne.symm hd)
  · exact Or.inl (Ne.symm hc)

theorem replaceAux_clean (k new t s : Txt) (ht : Clean t) :
    replaceAux (hole k) new 0 (t ++ s) = t ++ replaceAux (hole k) new 0 s := by
  induction t with
  | nil => rfl
  | cons c t ih =>
    obtain ⟨h1, h2⟩ := ht
    rw [List.cons_append, replaceAux_noMatch, ih h2, List.cons_append]
    apply hole_noMatch
    intro hc
    obtain ⟨d, m, rfl, hd⟩ := h1 hc
    exact ⟨d, m ++ s, rfl, hd⟩

theorem replaceAux_noLt (k new t s : Txt) (ht : '<' ∉ t) :
    replaceAux (hole k) new 0 (t ++ s) = t ++ replaceAux (hole k) new 0 s := by
  induction t with
  | nil => rfl
  | cons c t ih =>
    rw [List.cons_append, replaceAux_noMatch, ih (fun h => ht (by simp [h])), List.cons_append]
    apply hole_noMatch
    rintro rfl
    exact absurd (by simp) ht

/-- Replacing one placeholder. -/
def fillOne (k new : Txt) : Part → Part
  | .sql t => .sql t
  | .placeholder k' => if k' = k then .sql new else .placeholder k'

theorem strReplace_written (k new : Txt) (hk : PlainKey k) (parts : List Part) (hp : ∀ p ∈ parts, CleanPart p) :
    strReplace (hole k) new (written parts) = written (parts.map (fillOne k new)) := by
  unfold strReplace
  induction parts with
  | nil => rfl
  | cons p ps ih =>
    have ih := ih (fun q hq => hp q (by simp [hq]))
    have hp1 := hp p (by simp)
    cases p with
    | sql t => simp only [written, List.map_cons, fillOne]; rw [replaceAux_clean k new t _ hp1, ih]
    | placeholder k' =>
      simp only [written, List.map_cons, fillOne]
      have e : '<' :: '<' :: (k' ++ '>' :: '>' :: written ps) = hole k' ++ written ps := by simp [hole]
      by_cases hkk : k' = k
      · subst hkk
        rw [if_pos rfl, e]
        have h2 : hole k' ++ written ps = '<' :: (('<' :: (k' ++ ['>', '>'])) ++ written ps) := by simp [hole]
        rw [h2]
        have h3 : (hole k').isPrefixOf ('<' :: (('<' :: (k' ++ ['>', '>'])) ++ written ps)) = true := by
          rw [← h2]; exact isPrefixOf_self_append _ _
        simp only [replaceAux, h3, if_true]
        have h4 : (hole k').length - 1 = ('<' :: (k' ++ ['>', '>'])).length := by simp [hole]
        rw [h4, replaceAux_skip, ih]
        rfl
      · rw [if_neg hkk]
        have hpk : PlainKey k' := hp1
        rw [replaceAux_noMatch]
        · have h5 : ∀ rest : Txt, replaceAux (hole k) new 0 ('<' :: (k' ++ '>' :: '>' :: rest)) =
              '<' :: (k' ++ '>' :: '>' :: replaceAux (hole k) new 0 rest) := by
            intro rest
            rw [replaceAux_noMatch]
            · rw [replaceAux_noLt k new k' _ hpk.1]
              have : ('>' :: '>' :: rest) = ['>', '>'] ++ rest := rfl
              rw [this, replaceAux_noLt k new ['>', '>'] _ (by decide)]
              rfl
            · apply hole_noMatch
              intro _
              cases k' with
              | nil => exact ⟨'>', _, rfl, by decide⟩
              | cons c k' =>
                refine ⟨c, _, rfl, ?_⟩
                rintro rfl
                exact hpk.1 (by simp)
          rw [h5, ih]
          rfl
        · have := isPrefixOf_append_of_ne k k' (written ps) hk.2 hpk.2 (fun h => hkk h.symm)
          simp only [hole, List.cons_append, List.nil_append, List.isPrefixOf, beq_self_eq_true, Bool.true_and]
          exact this

/-- The replacement of a key in a list of values: the literal of the first value for the key. -/
def literalOf (vals : List (Key × PVal)) (k : Txt) : Option Txt :=
  match vals.find? (fun kv => kv.1.name = k) with
  | none => none
  | some kv => (escape kv.2 kv.1.pred kv.1.isText).toOption

theorem filled_fillOne (val : Txt → Option Txt) (k new : Txt) (parts : List Part) :
    filled val (parts.map (fillOne k new)) = filled (fun x => if x = k then some new else val x) parts := by
  induction parts with
  | nil => rfl
  | cons p ps ih =>
    cases p with
    | sql t => simp only [List.map_cons, fillOne, filled, ih]
    | placeholder k' =>
      simp only [List.map_cons, fillOne]
      by_cases h : k' = k
      · simp only [h, if_true, filled, ih, Option.getD_some]
      · simp only [if_neg h, filled, ih]

theorem filled_none (parts : List Part) : filled (fun _ => none) parts = written parts := by
  induction parts with
  | nil => rfl
  | cons p ps ih => cases p <;> simp [filled, written, ih]

theorem substitute_parts (aliases : List Txt) (vals : List (Key × PVal)) (parts : List Part) (q : Txt)
    (hp : ∀ p ∈ parts, CleanPart p) (hk : ∀ kv ∈ vals, PlainKey kv.1.name)
    (hv : ∀ kv ∈ vals, ∀ t, escape kv.2 kv.1.pred kv.1.isText = .ok t → Clean t)
    (h : substitute aliases vals (written parts) = .ok q) :
    ∃ parts', (∀ p ∈ parts', CleanPart p) ∧ q = written parts' ∧
      ∀ val, filled val parts' = filled (fun k => (literalOf vals k).or (val k)) parts := by
  induction vals generalizing parts with
  | nil =>
    simp only [substitute, Except.ok.injEq] at h
    exact ⟨parts, hp, h.symm, fun val => by simp [literalOf]⟩
  | cons kv vals ih =>
    obtain ⟨k, v⟩ := kv
    simp only [substitute] at h
    split at h
    · simp at h
    · split at h
      · simp at h
      · rename_i t ht
        rw [strReplace_written k.name t (hk (k, v) (by simp)) parts hp] at h
        have hcl : ∀ p ∈ parts.map (fillOne k.name t), CleanPart p := by
          intro p hpm
          obtain ⟨p0, hp0, rfl⟩ := List.mem_map.mp hpm
          cases p0 with
          | sql s => exact hp _ hp0
          | placeholder k' =>
            simp only [fillOne]
            split
            · exact hv (k, v) (by simp) t ht
            · exact hp _ hp0
        obtain ⟨parts', h1, h2, h3⟩ := ih (parts.map (fillOne k.name t)) hcl (fun kv hkv => hk kv (by simp [hkv]))
          (fun kv hkv => hv kv (by simp [hkv])) h
        refine ⟨parts', h1, h2, fun val => ?_⟩
        rw [h3, filled_fillOne]
        congr 1
        funext x
        by_cases hx : x = k.name
        · subst hx; simp [literalOf, ht, Except.toOption]
        · have hx' : ¬ k.name = x := fun e => hx e.symm
          simp [literalOf, hx, hx']

/-- The values of all predicates, in the order of their registration. -/
def allValues (sel : Nat → List PVal) : Nat → List Gen → List (Key × PVal)
  | _, [] => []
  | i, g :: gs => g.keys.zip (sel i) ++ allValues sel (i + 1) gs

theorem literalOf_append (a b : List (Key × PVal)) (k : Txt) (hok : ∀ kv ∈ a, ∃ t, escape kv.2 kv.1.pred kv.1.isText = .ok t) :
    literalOf (a ++ b) k = (literalOf a k).or (literalOf b k) := by
  unfold literalOf
  rw [List.find?_append]
  cases h : a.find? (fun kv => decide (kv.1.name = k)) with
  | none => simp
  | some kv =>
    obtain ⟨t, ht⟩ := hok kv (List.mem_of_find?_eq_some h)
    simp [ht, Except.toOption]

theorem substitute_ok (aliases : List Txt) (vals : List (Key × PVal)) (q q' : Txt)
    (h : substitute aliases vals q = .ok q') : ∀ kv ∈ vals, ∃ t, escape kv.2 kv.1.pred kv.1.isText = .ok t := by
  induction vals generalizing q with
  | nil => simp
  | cons kv vals ih =>
    obtain ⟨k, v⟩ := kv
    simp only [substitute] at h
    split at h
    · simp at h
    · split at h
      · simp at h
      · rename_i t ht
        intro kv hkv
        rcases List.mem_cons.mp hkv with rfl | hkv
        · exact ⟨t, ht⟩
        · exact ih _ h kv hkv

/-- C189 (partial: no `<<` in the SQL text of the template and in the values): a generated query is the text of the template in which
each placeholder is replaced by the literal of its value. -/
theorem C189_text_partial (aliases : List Txt) (sel : Nat → List PVal) (gens : List Gen) (i : Nat) (parts : List Part) (q : Txt)
    (hp : ∀ p ∈ parts, CleanPart p) (hk : ∀ kv ∈ allValues sel i gens, PlainKey kv.1.name)
    (hv : ∀ kv ∈ allValues sel i gens, ∀ t, escape kv.2 kv.1.pred kv.1.isText = .ok t → Clean t)
    (h : fill aliases sel i gens (written parts) = .ok q) : q = filled (literalOf (allValues sel i gens)) parts := by
  have key : ∃ parts', (∀ p ∈ parts', CleanPart p) ∧ q = written parts' ∧
      ∀ val, filled val parts' = filled (fun k => (literalOf (allValues sel i gens) k).or (val k)) parts := by
    induction gens generalizing i parts with
    | nil =>
      simp only [fill, Except.ok.injEq] at h
      exact ⟨parts, hp, h.symm, fun val => by simp [allValues, literalOf]⟩
    | cons g gens ih =>
      simp only [fill] at h
      split at h
      · simp at h
      · rename_i vals hvals
        unfold selectedValues at hvals
        split at hvals
        · simp at hvals
        · simp only [Except.ok.injEq] at hvals
          subst hvals
          split at h
          · simp at h
          · rename_i q1 hq1
            have hok := substitute_ok _ _ _ _ hq1
            obtain ⟨p1, a1, a2, a3⟩ := substitute_parts aliases _ parts q1 hp
              (fun kv hkv => hk kv (by simp [allValues, hkv])) (fun kv hkv => hv kv (by simp [allValues, hkv])) hq1
            subst a2
            obtain ⟨p2, b1, b2, b3⟩ := ih (i + 1) p1 a1 (fun kv hkv => hk kv (by simp [allValues, hkv]))
              (fun kv hkv => hv kv (by simp [allValues, hkv])) h
            refine ⟨p2, b1, b2, fun val => ?_⟩
            rw [b3, a3]
            congr 1
            funext k
            simp only [allValues]
            rw [literalOf_append _ _ _ hok, Option.or_assoc]
  obtain ⟨p', h1, h2, h3⟩ := key
  rw [h2, ← filled_none, h3]
  simp

theorem unquote_length (s r : Txt) (h : unquote s = some r) : s.length = r.length + r.count '\'' + 1 := by
  fun_induction unquote s generalizing r with
  | case1 => simp at h
  | case2 => simp only [Option.some.injEq] at h; subst h; rfl
  | case3 s ih =>
    simp only [Option.map_eq_some_iff] at h
    obtain ⟨r', hr', rfl⟩ := h
    have := ih r' hr'
    simp only [List.length_cons, List.count_cons_self]
    omega
  | case4 => simp at h
  | case5 c d s hc ih =>
    simp only [Option.map_eq_some_iff] at h
    obtain ⟨r', hr', rfl⟩ := h
    have := ih r' hr'
    simp only [List.length_cons] at this ⊢
    rw [List.count_cons_of_ne hc]
    omega
  | case6 => simp at h

theorem unquote_plain (t : Txt) (h : '\'' ∉ t) : unquote (t ++ ['\'']) = some t := by
  induction t with
  | nil => rfl
  | cons c t ih =>
    have hc : c ≠ '\'' := by rintro rfl; exact h (by simp)
    have iht := ih (fun hm => h (by simp [hm]))
    cases t with
    | nil => simp [unquote, hc]
    | cons d t =>
      simp only [List.cons_append] at iht ⊢
      simp only [unquote, if_neg hc, iht, Option.map_some]

/-- C189 (partial: the value has no quotes, and the predicate is not LIKE): the literal of a text denotes the text, and the literal of
a number is its decimal representation. -/
theorem C189_literal_partial (t : Txt) (h : '\'' ∉ t) (i : Int) :
    (∃ s, escape (.text t) .scalar true = .ok s ∧ stringLiteral s = some t) ∧
    escape (.num i) .scalar false = .ok (toString i).toList := by
  refine ⟨⟨_, rfl, ?_⟩, rfl⟩
  simp only [strVal, List.cons_append, stringLiteral, reduceCtorEq, if_false]
  exact unquote_plain t h

example : '\'' ∉ "abc".toList := by decide

/-- The literals of the values of an IN predicate, in parentheses (values as they come from weighted sampling). -/
theorem C189_in_partial (ts : List Txt) (hq : ∀ t ∈ ts, '\'' ∉ t) : ∃ lits : List Txt,
    escape (.tup (ts.map .text)) .isIn true = .ok ('(' :: List.intercalate [',', ' '] lits ++ [')']) ∧
    lits.map stringLiteral = ts.map some := by
  have : ∃ lits, escapeElems true (ts.map .text) = .ok lits ∧ lits.map stringLiteral = ts.map some := by
    induction ts with
    | nil => exact ⟨[], rfl, rfl⟩
    | cons t ts ih =>
      obtain ⟨lits, h1, h2⟩ := ih (fun x hx => hq x (by simp [hx]))
      refine ⟨('\'' :: t ++ ['\'']) :: lits, ?_, ?_⟩
      · simp [escapeElems, escapeElem, h1, strVal]
      · simp only [List.map_cons, h2, List.cons_append, stringLiteral, unquote_plain t (hq t (by simp))]
  obtain ⟨lits, h1, h2⟩ := this
  exact ⟨lits, by simp [escape, h1], h2⟩

/-- C189 violated (quotes): a text with a quote is never denoted by its literal. -/
theorem C189_quote_violated (t : Txt) (h : '\'' ∈ t) (s : Txt) (hs : escape (.text t) .scalar true = .ok s) :
    stringLiteral s ≠ some t := by
  simp only [escape, strVal, if_true, Except.ok.injEq, reduceCtorEq, if_false, List.cons_append] at hs
  subst hs
  intro hcon
  simp only [stringLiteral] at hcon
  have := unquote_length _ _ hcon
  have hpos := List.count_pos_iff.mpr h
  simp only [List.length_append, List.length_cons, List.length_nil] at this
  omega

example : '\'' ∈ "it's".toList := by decide

/-- C189 violated (LIKE): the pattern of a LIKE predicate is quoted twice and never a string literal. -/
theorem C189_like_violated (t : Txt) (s : Txt) (hs : escape (.text t) .like true = .ok s) : stringLiteral s = none := by
  simp only [escape, strVal, if_true, Except.ok.injEq, List.cons_append, List.nil_append] at hs
  subst hs
  simp [stringLiteral, unquote]

/-- C189 violated (columns without a table): if some alias does not have two characters, such a column makes the generation fail. -/
theorem C189_unqualified_violated (aliases : List Txt) (a : Txt) (ha : a ∈ aliases) (hl : a.length ≠ 2) (k : Key)
    (hk : k.qualified = false) (v : PVal) (rest : List (Key × PVal)) (q : Txt) :
    substitute aliases ((k, v) :: rest) q = .error .other := by
  have : columnRaises aliases k = true := by
    simp only [columnRaises, hk, Bool.not_false, Bool.true_and, List.any_eq_true, decide_eq_true_eq]
    exact ⟨a, ha, hl⟩
  simp [substitute, this]

def exKey (c : Char) : Key := ⟨[c], .scalar, true, true⟩

def exGen (c : Char) : Gen := { keys := [exKey c], source := .options [], method := .uniform }

/-- C189 violated (values with placeholders): placeholders in values are replaced, too. -/
theorem C189_nested_violated :
    fill [] (fun i => if i = 0 then [.text "<<y>>".toList] else [.text ['1']]) 0 [exGen 'x', exGen 'y']
      (written [.sql "a = ".toList, .placeholder ['x']]) = .ok "a = ''1''".toList := by
  rfl

example : fill [] (fun i => if i = 0 then [.text "u<v".toList] else [.num 7]) 0 [exGen 'x', exGen 'y']
    (written [.sql "a < ".toList, .placeholder ['y'], .sql " AND b = ".toList, .placeholder ['x']]) =
      .ok "a < '7' AND b = 'u<v'".toList := by
  rfl

example : CleanPart (.sql "a < ".toList) ∧ PlainKey ['x'] ∧ Clean "'u<v'".toList := by
  simp [CleanPart, Clean, PlainKey]

/-! ### Draws (C190) -/

theorem tryLoop_ok (g : Gen) (next : Bool → M (List PVal)) (n : Nat) (redraw : Bool) (st st' : St) (v : List PVal)
    (h : tryLoop g next n redraw st = (.ok v, st')) :
    ∃ r st0, next r st0 = (.ok v, st') ∧ g.keys.all (passes g v) = true ∧ v ≠ [] := by
  induction n generalizing redraw st with
  | zero => simp [tryLoop] at h
  | succ n ih =>
    simp only [tryLoop] at h
    split at h
    · exact ih _ _ h
    · simp at h
    · rename_i w st1 hw
      split at h
      · rename_i hall
        split at h
        · simp at h
        · rename_i hne
          simp only [Prod.mk.injEq, Except.ok.injEq] at h
          obtain ⟨rfl, rfl⟩ := h
          exact ⟨redraw, st, hw, hall, by simpa using hne⟩
      · exact ih _ _ h

theorem choose_ok (env : Env) (uniq : List (List PVal) → List (List PVal)) (t : Template) (f i : Nat) (st st' : St)
    (h : choose env uniq t f i st = (.ok (), st')) :
    ∃ g f' r st0 st1, t.gens[i]? = some g ∧ nextValue env uniq t (choose env uniq t f') g r st0 = (.ok (st'.sel i), st1) ∧
      g.keys.all (passes g (st'.sel i)) = true ∧ st'.sel i ≠ [] := by
  cases f with
  | zero => simp [choose] at h
  | succ f =>
    simp only [choose] at h
    split at h
    · simp at h
    · rename_i g hg
      split at h
      · simp at h
      · rename_i v st1 hv
        simp only [Prod.mk.injEq, true_and] at h
        subst h
        obtain ⟨r, st0, h1, h2, h3⟩ := tryLoop_ok _ _ _ _ _ _ _ hv
        exact ⟨g, f, r, st0, st1, hg, by simpa using h1, by simpa using h2, by simpa using h3⟩

theorem candidates_ok (env : Env) (t : Template) (ch : Nat → M Unit) (g : Gen) (r : Bool) (st st' : St) (c : List (List PVal))
    (h : candidates env t ch g r st = (.ok c, st')) :
    (∀ l, g.source = .options l → c = l) ∧ (∀ q, g.source = .sql q → c ≠ [] ∧ ∃ text, c = env.rows text) := by
  unfold candidates at h
  split at h
  · rename_i l hl
    simp only [Prod.mk.injEq, Except.ok.injEq] at h
    refine ⟨?_, ?_⟩
    · intro l' hl'
      rw [hl] at hl'
      simp only [Source.options.injEq] at hl'
      rw [← h.1, hl']
    · intro q hq
      rw [hl] at hq
      simp at hq
  · rename_i q hq
    refine ⟨?_, ?_⟩
    · intro l hl
      rw [hq] at hl
      simp at hl
    · intro q' _
      split at h
      · simp at h
      · split at h
        · simp at h
        · rename_i hne
          simp only [Prod.mk.injEq, Except.ok.injEq] at h
          rw [← h.1]
          exact ⟨by simpa using hne, _, rfl⟩

/-- The values come from the options of the predicate or from the rows of a query. -/
def FromSource (env : Env) (g : Gen) (cands : List (List PVal)) : Prop :=
  (∀ l, g.source = .options l → cands = l) ∧ (∀ q, g.source = .sql q → ∃ text, cands = env.rows text)

/-- C190: the selected values of a predicate other than IN are one of the candidates, without the weight if there is a weight column. -/
theorem C190_scalar (env : Env) (hf : Fair env) (uniq : List (List PVal) → List (List PVal)) (t : Template) (f i : Nat) (st st' : St)
    (h : choose env uniq t f i st = (.ok (), st')) (g : Gen) (hg : t.gens[i]? = some g)
    (hs : ∀ l, g.source = .options l → l ≠ []) (hin : g.keys.map (·.pred) ≠ [.isIn]) :
    ∃ cands row, FromSource env g cands ∧ row ∈ cands ∧
      (st'.sel i = row ∨ ∃ w, g.method = .weighted ∧ g.countCol = some w ∧ st'.sel i = row.eraseIdx w) := by
  obtain ⟨g', f', r, st0, st1, hg', hn, -, -⟩ := choose_ok env uniq t f i st st' h
  rw [hg] at hg'
  simp only [Option.some.injEq] at hg'
  subst hg'
  unfold nextValue at hn
  split at hn
  · simp at hn
  · rename_i c st2 hc
    obtain ⟨c1, c2⟩ := candidates_ok _ _ _ _ _ _ _ _ hc
    have hne : c ≠ [] := by
      cases hsrc : g.source with
      | options l => rw [c1 l hsrc]; exact hs l hsrc
      | sql q => exact (c2 q hsrc).1
    have hin' : isInGen g = false := by simp [isInGen, hin]
    simp only [hin', Bool.false_eq_true, if_false, drawScalar, draw] at hn
    refine ⟨c, env.choice st2.clock c, ⟨c1, fun q hq => (c2 q hq).2⟩, hf.choice _ _ hne, ?_⟩
    split at hn
    · simp only [Prod.mk.injEq, Except.ok.injEq] at hn
      exact Or.inl hn.1.symm
    · rename_i hm
      split at hn
      · simp only [Prod.mk.injEq, Except.ok.injEq] at hn
        exact Or.inl hn.1.symm
      · rename_i w hw
        simp only [Prod.mk.injEq, Except.ok.injEq] at hn
        exact Or.inr ⟨w, hm, hw, hn.1.symm⟩

theorem drawMulti_ok (env : Env) (hf : Fair env) (g : Gen) (uniq : List (List PVal) → List (List PVal)) (hu : Uniq uniq)
    (cands : List (List PVal)) (st st' : St) (v : List PVal) (h : drawMulti env g uniq cands st = (.ok v, st')) :
    ∃ n, g.inMin ≤ n ∧ (∀ m, g.inMax = some m → n ≤ m) ∧ n ≤ (uniq cands).length ∧
      ((g.method = .uniform ∧ ∃ l : List (List PVal), v = [.tup (l.map .tup)] ∧ l.length = n) ∨
       (g.method = .weighted ∧ g.countCol = none ∧ ∃ i, v = [.tup (env.sampleWeighted i ((uniq cands).filterMap List.head?) n)])) := by
  unfold drawMulti at h
  split at h
  · simp at h
  · rename_i first rest
    split at h
    · simp at h
    · simp only [drawInt, draw] at h
      split at h
      · simp at h
      · rename_i n st2 hn
        split at hn
        · simp at hn
        · rename_i hle
          simp only [Prod.mk.injEq, Except.ok.injEq] at hn
          have hr := hf.randint st.clock g.inMin (inBound g (uniq (first :: rest)).length) (by omega)
          rw [hn.1] at hr
          have hb : n ≤ (uniq (first :: rest)).length ∧ ∀ m, g.inMax = some m → n ≤ m := by
            have h2 := hr.2
            unfold inBound at h2
            split at h2
            · rename_i hm; exact ⟨h2, by simp [hm]⟩
            · rename_i m hm
              refine ⟨by omega, fun m' hm' => ?_⟩
              rw [hm] at hm'
              simp only [Option.some.injEq] at hm'
              omega
          refine ⟨n, hr.1, hb.2, hb.1, ?_⟩
          split at h
          · rename_i hm
            simp only [Prod.mk.injEq, Except.ok.injEq] at h
            exact Or.inl ⟨hm, _, h.1.symm, (hf.sample _ _ _ hb.1).1⟩
          · rename_i hm
            split at h
            · simp at h
            · rename_i hcc
              simp only [Prod.mk.injEq, Except.ok.injEq] at h
              exact Or.inr ⟨hm, by simpa using hcc, _, h.1.symm⟩

/-- C190 (partial: weighted sampling without weight column): the values of an IN predicate come from the candidates, and their number is
between the given bounds. -/
theorem C190_in_partial (env : Env) (hf : Fair env) (uniq : List (List PVal) → List (List PVal)) (hu : Uniq uniq) (t : Template)
    (f i : Nat) (st st' : St) (h : choose env uniq t f i st = (.ok (), st')) (g : Gen) (hg : t.gens[i]? = some g)
    (hin : g.keys.map (·.pred) = [.isIn]) (hm : g.method = .weighted)
    (hrows : ∀ cands, FromSource env g cands → ∀ r ∈ cands, ∃ v, r = [v]) :
    ∃ cands l, FromSource env g cands ∧ st'.sel i = [.tup l] ∧ (∀ v ∈ l, [v] ∈ cands) ∧ l.Nodup ∧ g.inMin ≤ l.length ∧
      ∀ m, g.inMax = some m → l.length ≤ m := by
  obtain ⟨g', f', r, st0, st1, hg', hn, -, -⟩ := choose_ok env uniq t f i st st' h
  rw [hg] at hg'
  simp only [Option.some.injEq] at hg'
  subst hg'
  unfold nextValue at hn
  split at hn
  · simp at hn
  · rename_i c st2 hc
    obtain ⟨c1, c2⟩ := candidates_ok _ _ _ _ _ _ _ _ hc
    have hsrc : FromSource env g c := ⟨c1, fun q hq => (c2 q hq).2⟩
    have hin' : isInGen g = true := by simp [isInGen, hin]
    simp only [hin', if_true] at hn
    obtain ⟨n, n1, n2, n3, hcase⟩ := drawMulti_ok env hf g uniq hu c st2 st1 _ hn
    rcases hcase with ⟨hu', -⟩ | ⟨-, -, j, hv⟩
    · rw [hm] at hu'; simp at hu'
    · have hshape : ∀ L : List (List PVal), (∀ r ∈ L, ∃ v, r = [v]) → L = (L.filterMap List.head?).map (fun v => [v]) := by
        intro L
        induction L with
        | nil => intro _; rfl
        | cons a L ih =>
          intro hL
          obtain ⟨v, rfl⟩ := hL a (by simp)
          simp only [List.filterMap_cons, List.head?_cons, List.map_cons]
          rw [← ih (fun r hr => hL r (by simp [hr]))]
      have hpop := hshape (uniq c) (fun r hr => hrows c hsrc r ((hu.mem c r).mp hr))
      have hlen : ((uniq c).filterMap List.head?).length = (uniq c).length := by
        conv_rhs => rw [hpop]
        simp
      have hnod : ((uniq c).filterMap List.head?).Nodup := by
        have h1 := hu.nodup c
        rw [hpop] at h1
        exact List.Nodup.of_map _ h1
      obtain ⟨w1, w2, w3⟩ := hf.sampleWeighted j ((uniq c).filterMap List.head?) n (by omega)
      refine ⟨c, _, hsrc, hv, ?_, w3 hnod, by omega, fun m hm' => by rw [w1]; exact n2 m hm'⟩
      intro v hvm
      have := w2 v hvm
      rw [← hu.mem c, hpop]
      exact List.mem_map.mpr ⟨v, this, rfl⟩

/-- C190 violated (uniform sampling for IN): the selected values can never be written into a query, if at least one is required. -/
theorem C190_uniform_violated (env : Env) (hf : Fair env) (uniq : List (List PVal) → List (List PVal)) (hu : Uniq uniq) (t : Template)
    (f i : Nat) (st st' : St) (h : choose env uniq t f i st = (.ok (), st')) (g : Gen) (hg : t.gens[i]? = some g)
    (hin : g.keys.map (·.pred) = [.isIn]) (hm : g.method = .uniform) (hmin : 1 ≤ g.inMin) (isText : Bool) :
    ∀ v ∈ st'.sel i, escape v .isIn isText = .error .other := by
  obtain ⟨g', f', r, st0, st1, hg', hn, -, -⟩ := choose_ok env uniq t f i st st' h
  rw [hg] at hg'
  simp only [Option.some.injEq] at hg'
  subst hg'
  unfold nextValue at hn
  split at hn
  · simp at hn
  · rename_i c st2 hc
    have hin' : isInGen g = true := by simp [isInGen, hin]
    simp only [hin', if_true] at hn
    obtain ⟨n, n1, n2, n3, hcase⟩ := drawMulti_ok env hf g uniq hu c st2 st1 _ hn
    rcases hcase with ⟨-, l, hv, hl⟩ | ⟨hw, -⟩
    · rw [hv]
      intro v hvm
      simp only [List.mem_singleton] at hvm
      subst hvm
      cases l with
      | nil => simp at hl; omega
      | cons a l => simp [escape, escapeElems, escapeElem]
    · rw [hm] at hw; simp at hw

/-- C190 violated (weights): IN predicates with a weight column are always rejected. -/
theorem C190_weights_violated (env : Env) (hf : Fair env) (uniq : List (List PVal) → List (List PVal)) (hu : Uniq uniq) (t : Template)
    (f i : Nat) (st st' : St) (g : Gen) (hg : t.gens[i]? = some g) (hin : g.keys.map (·.pred) = [.isIn])
    (hm : g.method = .weighted) (hc : g.countCol ≠ none) : choose env uniq t f i st ≠ (.ok (), st') := by
  intro h
  obtain ⟨g', f', r, st0, st1, hg', hn, -, -⟩ := choose_ok env uniq t f i st st' h
  rw [hg] at hg'
  simp only [Option.some.injEq] at hg'
  subst hg'
  unfold nextValue at hn
  split at hn
  · simp at hn
  · rename_i c st2 hcc
    have hin' : isInGen g = true := by simp [isInGen, hin]
    simp only [hin', if_true] at hn
    obtain ⟨n, n1, n2, n3, hcase⟩ := drawMulti_ok env hf g uniq hu c st2 st1 _ hn
    rcases hcase with ⟨hu', -⟩ | ⟨-, h2, -⟩
    · rw [hm] at hu'; simp at hu'
    · exact hc h2

/-- C190 violated (minimum): if an IN predicate requires two or more values, no selection is ever accepted: the number of predicates is
compared with the minimum instead of the number of values. -/
theorem C190_min_violated (env : Env) (hf : Fair env) (uniq : List (List PVal) → List (List PVal)) (hu : Uniq uniq) (t : Template)
    (f i : Nat) (st st' : St) (g : Gen) (hg : t.gens[i]? = some g) (hin : g.keys.map (·.pred) = [.isIn]) (hmin : 2 ≤ g.inMin) :
    choose env uniq t f i st ≠ (.ok (), st') := by
  intro h
  obtain ⟨g', f', r, st0, st1, hg', hn, hp, -⟩ := choose_ok env uniq t f i st st' h
  rw [hg] at hg'
  simp only [Option.some.injEq] at hg'
  subst hg'
  unfold nextValue at hn
  split at hn
  · simp at hn
  · rename_i c st2 hcc
    have hin' : isInGen g = true := by simp [isInGen, hin]
    simp only [hin', if_true] at hn
    obtain ⟨n, n1, n2, n3, hcase⟩ := drawMulti_ok env hf g uniq hu c st2 st1 _ hn
    have hlen : (st'.sel i).length = 1 := by
      rcases hcase with ⟨-, l, hv, -⟩ | ⟨-, -, j, hv⟩ <;> rw [hv] <;> rfl
    obtain ⟨k, hk⟩ : ∃ k, g.keys = [k] ∧ k.pred = .isIn := by
      cases hks : g.keys with
      | nil => rw [hks] at hin; simp at hin
      | cons k ks =>
        rw [hks] at hin
        simp only [List.map_cons, List.cons.injEq, List.map_eq_nil_iff] at hin
        exact ⟨k, by rw [hin.2], hin.1⟩
    rw [hk.1] at hp
    simp only [List.all_cons, List.all_nil, Bool.and_true, passes, hk.2, ne_eq, not_true_eq_false, if_false, hlen,
      Bool.and_eq_true, decide_eq_true_eq] at hp
    omega

/-! #### An example -/

/-- A generator of random numbers that always takes the first possibilities. -/
def exEnv (rows : Txt → List (List PVal)) : Env where
  rows := rows
  choice := fun _ l => l.headD []
  randint := fun _ a _ => a
  sample := fun _ l n => l.take n
  sampleWeighted := fun _ l n => l.take n

theorem exEnv_fair (rows : Txt → List (List PVal)) : Fair (exEnv rows) where
  choice := by
    intro n l hl
    cases l with
    | nil => exact absurd rfl hl
    | cons a l => simp [exEnv]
  randint := by intro n a b h; exact ⟨Nat.le_refl _, h⟩
  sample := by
    intro i l n h
    exact ⟨by simp [exEnv, h], fun x hx => List.mem_of_mem_take hx⟩
  sampleWeighted := by
    intro i l n h
    exact ⟨by simp [exEnv, h], fun x hx => List.mem_of_mem_take hx, fun hn => hn.sublist (List.take_sublist _ _)⟩

open Classical in
theorem dedup_uniq : Uniq (fun l => l.dedup) := ⟨fun l => List.nodup_dedup l, fun l x => List.mem_dedup⟩

def exIn (m : Method) : Gen :=
  { keys := [⟨['x'], .isIn, true, true⟩], source := .options [[.text ['a']], [.text ['b']]], method := m }

open Classical in
example (m : Method) : ∃ st', choose (exEnv fun _ => []) (fun l => l.dedup) ⟨[], [], [exIn m]⟩ 1 0 St.init = (.ok (), st') := by
  have hd : List.dedup [[PVal.text ['a']], [PVal.text ['b']]] = [[PVal.text ['a']], [PVal.text ['b']]] := by
    apply List.dedup_eq_self.mpr
    simp
  cases m <;>
    simp [Ceb.choose, tryLoop, nextValue, candidates, exIn, isInGen, drawMulti, drawInt, draw, inBound, exEnv, passes, hd, St.init]

/-! ### Dependencies (C191) -/

/-- The text of an SQL query in which the values of the given predicates are filled in, one after the other (see C189). -/
def withValues (t : Template) (sel : Nat → List PVal) : List Nat → Txt → Except Err Txt
  | [], q => .ok q
  | d :: ds, q =>
    match t.gens[d]? with
    | none => .error .other
    | some gd =>
      match substitute t.aliases (gd.keys.zip (sel d)) q with
      | .error e => .error e
      | .ok q => withValues t sel ds q

/-- The values of each predicate that is defined by an SQL query are a row of this query for the values of the predicates it depends
on. -/
def Consistent (env : Env) (t : Template) (sel : Nat → List PVal) : Prop :=
  ∀ i g q, t.gens[i]? = some g → g.source = .sql q → ∃ text, withValues t sel g.deps q = .ok text ∧ sel i ∈ env.rows text

theorem substituteDeps_false (t : Template) (ch : Nat → M Unit) (ds : List Nat) (q : Txt) (st st' : St) (r : Except Err Txt)
    (h : substituteDeps t ch false ds q st = (r, st')) : st' = st ∧ r ≠ .error .sampling ∧
      ∀ text, r = .ok text → withValues t st.sel ds q = .ok text := by
  have hsub : ∀ vals q e, substitute t.aliases vals q = .error e → e = .other := by
    intro vals
    induction vals with
    | nil => intro q e h; simp [substitute] at h
    | cons kv vals ih =>
      intro q e h
      obtain ⟨k, v⟩ := kv
      simp only [substitute] at h
      split at h
      · simpa using h.symm
      · split at h
        · rename_i e' he
          simp only [Except.error.injEq] at h
          subst h
          unfold escape at he
          have hel : ∀ l e, escapeElems k.isText l = .error e → e = .other := by
            intro l
            induction l with
            | nil => intro e h; simp [escapeElems] at h
            | cons a l ih =>
              intro e h
              simp only [escapeElems] at h
              split at h
              · rename_i e1 he1
                simp only [Except.error.injEq] at h
                subst h
                unfold escapeElem at he1
                split at he1
                · simpa using he1.symm
                · split at he1 <;> simp at he1
              · split at h
                · rename_i e1 he1
                  simp only [Except.error.injEq] at h
                  subst h
                  exact ih _ he1
                · simp at h
          split at he
          · split at he
            · split at he
              · rename_i e1 he1
                simp only [Except.error.injEq] at he
                subst he
                exact hel _ _ he1
              · simp at he
            · simpa using he.symm
          · split at he <;> simp at he
        · exact ih _ _ h
  induction ds generalizing q with
  | nil =>
    simp only [substituteDeps, Prod.mk.injEq] at h
    obtain ⟨rfl, rfl⟩ := h
    exact ⟨rfl, by simp, fun text h => by simpa [withValues] using h⟩
  | cons d ds ih =>
    simp only [substituteDeps] at h
    split at h
    · simp only [Prod.mk.injEq] at h
      obtain ⟨rfl, rfl⟩ := h
      exact ⟨rfl, by simp, by simp⟩
    · rename_i gd hgd
      simp only [Bool.false_eq_true, if_false] at h
      split at h
      · rename_i e he
        simp only [Prod.mk.injEq] at h
        obtain ⟨rfl, rfl⟩ := h
        unfold selectedValues at he
        split at he
        · simp only [Except.error.injEq] at he
          subst he
          exact ⟨rfl, by simp, by simp⟩
        · simp at he
      · rename_i vals hvals
        unfold selectedValues at hvals
        split at hvals
        · simp at hvals
        · simp only [Except.ok.injEq] at hvals
          split at h
          · rename_i e he
            simp only [Prod.mk.injEq] at h
            obtain ⟨rfl, rfl⟩ := h
            exact ⟨rfl, by simp [hsub _ _ _ he], by simp⟩
          · rename_i q1 hq1
            obtain ⟨i1, i2, i3⟩ := ih q1 h
            refine ⟨i1, i2, fun text ht => ?_⟩
            simp only [withValues, hgd, hvals, hq1]
            exact i3 text ht

theorem withValues_congr (t : Template) (sel sel' : Nat → List PVal) (ds : List Nat) (q : Txt) (h : ∀ d ∈ ds, sel d = sel' d) :
    withValues t sel ds q = withValues t sel' ds q := by
  induction ds generalizing q with
  | nil => rfl
  | cons d ds ih =>
    simp only [withValues, h d (by simp)]
    split
    · rfl
    · split
      · rfl
      · exact ih _ (fun x hx => h x (by simp [hx]))

/-- Without failures of the first try, a predicate gets a row of its query for the current values of its dependencies. -/
theorem choose_first (env : Env) (hf : Fair env) (uniq : List (List PVal) → List (List PVal)) (t : Template) (f i : Nat) (st st' : St)
    (h : choose env uniq t f i st = (.ok (), st')) (g : Gen) (hg : t.gens[i]? = some g)
    (hrows : ∀ text, env.rows text ≠ []) (hscalar : ∀ k ∈ g.keys, k.pred ≠ .isIn) (hcount : g.countCol = none) :
    (∀ j, j ≠ i → st'.sel j = st.sel j) ∧
      ∀ q, g.source = .sql q → ∃ text, withValues t st.sel g.deps q = .ok text ∧ st'.sel i ∈ env.rows text := by
  cases f with
  | zero => simp [choose] at h
  | succ f =>
    simp only [choose, hg] at h
    split at h
    · simp at h
    · rename_i v st1 hv
      simp only [Prod.mk.injEq, true_and] at h
      subst h
      have hin : isInGen g = false := by
        unfold isInGen
        cases hk : g.keys with
        | nil => rfl
        | cons k ks =>
          have := hscalar k (by simp [hk])
          simp [this]
      have hall : ∀ v, g.keys.all (passes g v) = true := by
        intro v
        refine List.all_eq_true.mpr (fun k hk => ?_)
        simp [passes, hscalar k hk]
      cases hn : g.maxTries.getD 10 with
      | zero => rw [hn] at hv; simp [tryLoop] at hv
      | succ n =>
        rw [hn] at hv
        simp only [tryLoop] at hv
        cases hnx : nextValue env uniq t (choose env uniq t f) g false st with
        | mk r st2 =>
          rw [hnx] at hv
          have key : st2.sel = st.sel ∧ r ≠ .error .sampling ∧ ∀ w, r = .ok w → ∀ q, g.source = .sql q →
              ∃ text, withValues t st.sel g.deps q = .ok text ∧ w ∈ env.rows text := by
            unfold nextValue candidates at hnx
            cases hsrc : g.source with
            | options l =>
              simp only [hsrc, hin, Bool.false_eq_true, if_false, drawScalar, draw, hcount] at hnx
              have hst : st2.sel = st.sel ∧ r ≠ .error .sampling := by
                split at hnx <;> simp only [Prod.mk.injEq] at hnx <;> obtain ⟨rfl, rfl⟩ := hnx <;> exact ⟨rfl, by simp⟩
              exact ⟨hst.1, hst.2, fun w _ q hq => by simp at hq⟩
            | sql q =>
              simp only [hsrc] at hnx
              cases hsd : substituteDeps t (choose env uniq t f) false g.deps q st with
              | mk r1 st3 =>
                obtain ⟨d1, d2, d3⟩ := substituteDeps_false t _ _ _ _ _ _ hsd
                subst d1
                rw [hsd] at hnx
                cases r1 with
                | error e =>
                  simp only [Prod.mk.injEq] at hnx
                  obtain ⟨rfl, rfl⟩ := hnx
                  exact ⟨rfl, by simpa using d2, by simp⟩
                | ok text =>
                  have hne : (env.rows text).isEmpty = false := by simpa using hrows text
                  simp only [hne, Bool.false_eq_true, if_false, hin, drawScalar, draw, hcount] at hnx
                  have hres : st2.sel = st3.sel ∧ r = .ok (env.choice st3.clock (env.rows text)) := by
                    split at hnx <;> simp only [Prod.mk.injEq] at hnx <;> obtain ⟨rfl, rfl⟩ := hnx <;> exact ⟨rfl, rfl⟩
                  refine ⟨hres.1, by rw [hres.2]; simp, ?_⟩
                  intro w hw q' hq'
                  simp only [Source.sql.injEq] at hq'
                  subst hq'
                  rw [hres.2] at hw
                  simp only [Except.ok.injEq] at hw
                  subst hw
                  exact ⟨text, d3 text rfl, hf.choice _ _ (hrows text)⟩
          obtain ⟨k1, k2, k3⟩ := key
          cases r with
          | error e =>
            cases e with
            | sampling => exact absurd rfl k2
            | other => simp at hv
          | ok w =>
            simp only [hall, if_true] at hv
            split at hv
            · simp at hv
            · simp only [Prod.mk.injEq, Except.ok.injEq] at hv
              obtain ⟨rfl, rfl⟩ := hv
              refine ⟨fun j hj => ?_, fun q hq => ?_⟩
              · simp only [if_neg hj, k1]
              · obtain ⟨text, h1, h2⟩ := k3 w rfl q hq
                exact ⟨text, h1, by simpa using h2⟩

theorem chooseAll_consistent (env : Env) (hf : Fair env) (uniq : List (List PVal) → List (List PVal)) (t : Template) (f : Nat)
    (hrows : ∀ text, env.rows text ≠ []) (hscalar : ∀ g ∈ t.gens, ∀ k ∈ g.keys, k.pred ≠ .isIn)
    (hcount : ∀ g ∈ t.gens, g.countCol = none) (order : List Nat) (hnod : order.Nodup) (done : List Nat)
    (hdisj : ∀ i ∈ order, i ∉ done)
    (hord : ∀ a i b, order = a ++ i :: b → ∀ g, t.gens[i]? = some g → ∀ d ∈ g.deps, d ∈ done ∨ d ∈ a)
    (st st' : St) (h : chooseAll env uniq t f order st = (.ok (), st')) :
    (∀ j, j ∉ order → st'.sel j = st.sel j) ∧ ∀ i ∈ order, ∀ g q, t.gens[i]? = some g → g.source = .sql q →
      ∃ text, withValues t st'.sel g.deps q = .ok text ∧ st'.sel i ∈ env.rows text := by
  induction order generalizing st done with
  | nil =>
    simp only [chooseAll, Prod.mk.injEq, true_and] at h
    subst h
    exact ⟨fun _ _ => rfl, by simp⟩
  | cons i rest ih =>
    simp only [chooseAll] at h
    split at h
    · simp at h
    · rename_i st1 h1
      have hni := (List.nodup_cons.mp hnod).1
      obtain ⟨r1, r2⟩ := ih (List.nodup_cons.mp hnod).2 (i :: done) (by
          intro j hj hmem
          rcases List.mem_cons.mp hmem with rfl | hmem
          · exact hni hj
          · exact hdisj j (by simp [hj]) hmem) (by
          intro a j b hab g hg d hd
          rcases hord (i :: a) j b (by rw [hab]; rfl) g hg d hd with h2 | h2
          · exact Or.inl (by simp [h2])
          · rcases List.mem_cons.mp h2 with rfl | h2
            · exact Or.inl (by simp)
            · exact Or.inr h2) st1 h
      cases hg : t.gens[i]? with
      | none =>
        cases f with
        | zero => simp [choose] at h1
        | succ f => simp [choose, hg] at h1
      | some g =>
        have hgm : g ∈ t.gens := List.mem_of_getElem? hg
        obtain ⟨c1, c2⟩ := choose_first env hf uniq t f i st st1 h1 g hg hrows (hscalar g hgm) (hcount g hgm)
        refine ⟨?_, ?_⟩
        · intro j hj
          rw [r1 j (fun hm => hj (by simp [hm])), c1 j (fun e => hj (by simp [e]))]
        · intro j hj g' q hg' hq
          rcases List.mem_cons.mp hj with rfl | hj
          · rw [hg] at hg'
            simp only [Option.some.injEq] at hg'
            subst hg'
            obtain ⟨text, t1, t2⟩ := c2 q hq
            refine ⟨text, ?_, by rw [r1 j hni]; exact t2⟩
            rw [← t1]
            apply withValues_congr
            intro d hd
            rcases hord [] j rest rfl g hg d hd with h2 | h2
            · have hdi : d ≠ j := fun e => hdisj j (by simp) (e ▸ h2)
              rw [r1 d (fun hm => hdisj d (by simp [hm]) h2), c1 d hdi]
            · simp at h2
          · exact r2 j hj g' q hg' hq

/-- C191 (partial: at most one dependency per predicate, no IN predicates, no weight columns, and every SQL query has a row, so that no
value is drawn again): the values of a generated query fit together. -/
theorem C191_consistent_partial (env : Env) (hf : Fair env) (uniq : List (List PVal) → List (List PVal)) (t : Template) (f : Nat)
    (hrows : ∀ text, env.rows text ≠ []) (hscalar : ∀ g ∈ t.gens, ∀ k ∈ g.keys, k.pred ≠ .isIn)
    (hcount : ∀ g ∈ t.gens, g.countCol = none) (hone : ∀ g ∈ t.gens, g.deps.length ≤ 1)
    (rank : Nat → Nat) (hac : ∀ i g, t.gens[i]? = some g → ∀ d ∈ g.deps, rank d < rank i)
    (st st' : St) (q : Txt) (h : generateRaw env uniq t f st = (.ok q, st')) : Consistent env t st'.sel := by
  have htask : ∀ x, x ∈ tasks t ↔ ∃ g, t.gens[x.1]? = some g ∧ x.2 = g.deps := by
    intro x
    simp only [tasks, List.mem_map, List.mem_range]
    constructor
    · rintro ⟨i, hi, rfl⟩
      exact ⟨t.gens[i], by simp [hi], by simp [hi]⟩
    · rintro ⟨g, hg, hx⟩
      obtain ⟨hi, hgi⟩ := List.getElem?_eq_some_iff.mp hg
      exact ⟨x.1, hi, Prod.ext rfl (by simp [hg, hx])⟩
  have hfst : (tasks t).map Prod.fst = List.range t.gens.length := by
    simp [tasks, Function.comp_def]
  have hu : ((tasks t).map Prod.fst).Nodup := by rw [hfst]; exact List.nodup_range
  have h1 : ∀ x ∈ tasks t, x.2.length ≤ 1 := by
    intro x hx
    obtain ⟨g, hg, hxg⟩ := (htask x).mp hx
    rw [hxg]
    exact hone g (List.mem_of_getElem? hg)
  simp only [generateRaw] at h
  split at h
  · simp at h
  · split at h
    · simp at h
    · rename_i st1 hall
      simp only [Prod.mk.injEq] at h
      obtain ⟨-, rfl⟩ := h
      have hdep : ∀ i g, t.gens[i]? = some g → ∀ d ∈ g.deps, DepProps.DependsOn (tasks t) i d := by
        intro i g hg d hd
        exact ⟨(i, g.deps), (htask _).mpr ⟨g, hg, rfl⟩, rfl, hd⟩
      obtain ⟨-, r2⟩ := chooseAll_consistent env hf uniq t f hrows hscalar hcount _ (DepProps.C12_once_partial _ hu) [] (by simp)
        (by
          intro a i b hab g hg d hd
          exact Or.inr (DepProps.C12_history_order_partial _ hu h1 a i b hab d (hdep i g hg d hd))) st st1 hall
      intro i g q' hg hq'
      refine r2 i ?_ g q' hg hq'
      rw [DepProps.C12_yields_all (tasks t) rank]
      · exact ⟨(i, g.deps), (htask _).mpr ⟨g, hg, rfl⟩, Or.inl rfl⟩
      · rintro n d ⟨x, hx, hxn, hxd⟩
        obtain ⟨g', hg', hxg⟩ := (htask x).mp hx
        rw [hxn] at hg'
        rw [hxg] at hxd
        exact hac n g' hg' d hxd

/-- Three predicates: the two queries depend on the first one; the second one has no rows for the first value. -/
def exRefresh : Template where
  base := ['<', '<', 'x', '>', '>', '<', '<', 'y', '>', '>', '<', '<', 'z', '>', '>']
  aliases := []
  gens := [{ keys := [⟨['x'], .scalar, true, false⟩], source := .options [[.text ['1']], [.text ['2']]], method := .uniform },
    { keys := [⟨['y'], .scalar, true, false⟩], source := .sql ['B', '<', '<', 'x', '>', '>'], method := .uniform, deps := [0] },
    { keys := [⟨['z'], .scalar, true, false⟩], source := .sql ['A', '<', '<', 'x', '>', '>'], method := .uniform, deps := [0] }]

/-- The rows of the queries `A1`, `A2`, `B1` and `B2`; the first draw takes the first possibility, the others the last one. -/
def exRefreshEnv : Env where
  rows := fun q =>
    if q = ['A', '1'] then [[.text ['a']]] else if q = ['A', '2'] then [[.text ['b']]] else if q = ['B', '2'] then [[.text ['c']]] else []
  choice := fun n l => if n = 0 then l.headD [] else l.getLastD []
  randint := fun _ a _ => a
  sample := fun _ l n => l.take n
  sampleWeighted := fun _ l n => l.take n

/-- C191 violated (drawing again): if a predicate has no candidates, the values it depends on are drawn again, but not those of the
other predicates that depend on the same values. -/
theorem C191_refresh_violated (uniq : List (List PVal) → List (List PVal)) :
    ∃ q st', generateRaw exRefreshEnv uniq exRefresh 3 St.init = (.ok q, st') ∧ q = ['2', 'c', 'a'] ∧
      ¬ Consistent exRefreshEnv exRefresh st'.sel := by
  have ho : Dep.iter (Dep.build (tasks exRefresh)) = [0, 2, 1] := by
    rw [show tasks exRefresh = [(0, []), (1, [0]), (2, [0])] from rfl]
    simp [Dep.iter, Dep.build, Dep.addTask, Dep.addDep, Dep.empty, Dep.addSet, Dict.set,
      Dep.Graph.succ, Dict.get?, Dep.iterFrom, Dep.drain]
  have hg : ∃ q st', generateRaw exRefreshEnv uniq exRefresh 3 St.init = (.ok q, st') ∧ q = ['2', 'c', 'a'] ∧
      st'.sel 0 = [.text ['2']] ∧ st'.sel 2 = [.text ['a']] := by
    unfold generateRaw
    rw [ho]
    exact ⟨_, _, rfl, rfl, rfl, rfl⟩
  obtain ⟨q, st', h1, h2, h3, h4⟩ := hg
  refine ⟨q, st', h1, h2, ?_⟩
  intro hc
  obtain ⟨text, t1, t2⟩ := hc 2 _ ['A', '<', '<', 'x', '>', '>'] rfl rfl
  have ht : text = ['A', '2'] := by
    simp only [withValues, exRefresh, List.getElem?_cons_zero, h3] at t1
    have : (Except.ok ['A', '2'] : Except Err Txt) = .ok text := by
      rw [← t1]; rfl
    simpa using this.symm
  rw [ht, h4] at t2
  simp [exRefreshEnv] at t2

/-- A predicate that depends on two others. -/
def exOrder : Template where
  base := []
  aliases := []
  gens := [{ keys := [⟨['x'], .scalar, true, false⟩], source := .options [[.text ['1']]], method := .uniform },
    { keys := [⟨['y'], .scalar, true, false⟩], source := .options [[.text ['1']]], method := .uniform },
    { keys := [⟨['z'], .scalar, true, false⟩], source := .sql ['<', '<', 'x', '>', '>', '<', '<', 'y', '>', '>'], method := .uniform, deps := [0, 1] }]

/-- C191 violated (two dependencies): a predicate that depends on two others can be chosen before one of them, and the generation
fails, whatever the database contains. -/
theorem C191_order_violated (env : Env) (hf : Fair env) (uniq : List (List PVal) → List (List PVal)) (f : Nat) :
    ∃ st', generateRaw env uniq exOrder (f + 1) St.init = (.error .other, st') := by
  have ho : Dep.iter (Dep.build (tasks exOrder)) = [0, 2, 1] := by
    rw [show tasks exOrder = [(0, []), (1, []), (2, [0, 1])] from rfl]
    simp [Dep.iter, Dep.build, Dep.addTask, Dep.addDep, Dep.empty, Dep.addSet, Dict.set,
      Dep.Graph.succ, Dict.get?, Dep.iterFrom, Dep.drain]
  have hc : env.choice 0 [[PVal.text ['1']]] = [.text ['1']] := by
    have := hf.choice 0 [[PVal.text ['1']]] (by simp)
    simpa using this
  unfold generateRaw
  rw [ho]
  have h0 : choose env uniq exOrder (f + 1) 0 St.init = (.ok (), ⟨fun j => if j = 0 then [.text ['1']] else [], 1⟩) := by
    simp [choose, exOrder, tryLoop, nextValue, candidates, isInGen, drawScalar, draw, St.init, hc, passes]
  have h2 : choose env uniq exOrder (f + 1) 2 ⟨fun j => if j = 0 then [.text ['1']] else [], 1⟩ =
      (.error .other, ⟨fun j => if j = 0 then [.text ['1']] else [], 1⟩) := by
    simp [choose, exOrder, tryLoop, nextValue, candidates, substituteDeps, selectedValues, substitute, columnRaises, escape]
  simp only [chooseAll, h0, h2]
  exact ⟨_, rfl⟩

/-- One predicate with a query that has rows for all values. -/
example : ∃ q st', generateRaw (exEnv fun _ => [[.text ['a']]]) id
    ⟨['<', '<', 'x', '>', '>', '<', '<', 'y', '>', '>'], [], [{ keys := [⟨['x'], .scalar, true, false⟩], source := .options [[.text ['1']]], method := .uniform },
      { keys := [⟨['y'], .scalar, true, false⟩], source := .sql ['B', '<', '<', 'x', '>', '>'], method := .uniform, deps := [0] }]⟩ 2 St.init =
    (.ok q, st') ∧ q = ['1', 'a'] := by
  unfold generateRaw
  have ho : Dep.iter (Dep.build (tasks ⟨['<', '<', 'x', '>', '>', '<', '<', 'y', '>', '>'], [], [{ keys := [⟨['x'], .scalar, true, false⟩], source := .options [[.text ['1']]], method := .uniform },
      { keys := [⟨['y'], .scalar, true, false⟩], source := .sql ['B', '<', '<', 'x', '>', '>'], method := .uniform, deps := [0] }]⟩)) = [0, 1] := by
    simp [tasks, List.range_succ, Dep.iter, Dep.build, Dep.addTask, Dep.addDep, Dep.empty, Dep.addSet, Dict.set,
      Dep.Graph.succ, Dict.get?, Dep.iterFrom, Dep.drain]
  rw [ho]
  exact ⟨_, _, rfl, rfl⟩

/-! ### Workloads (C192) -/

theorem templateLoop_spec (gen : Nat → Txt) (n m fuel count tries : Nat) (seen qs : List Txt)
    (h : templateLoop gen n m fuel count tries seen = some qs) :
    qs.Nodup ∧ (∀ q ∈ qs, q ∉ seen ∧ ∃ j, q = gen j) ∧ (count ≤ n → count + qs.length ≤ n) := by
  induction fuel generalizing count tries seen qs with
  | zero =>
    simp only [templateLoop, Option.some.injEq] at h
    subst h
    simp
  | succ fuel ih =>
    simp only [templateLoop] at h
    split at h
    · rename_i hc
      split at h
      · split at h
        · simp at h
        · exact ih _ _ _ _ h
      · rename_i hq
        simp only [Option.map_eq_some_iff] at h
        obtain ⟨qs', h', rfl⟩ := h
        obtain ⟨i1, i2, i3⟩ := ih _ _ _ _ h'
        refine ⟨List.nodup_cons.mpr ⟨fun hm => (i2 _ hm).1 (by simp), i1⟩, ?_, ?_⟩
        · intro q hqm
          rcases List.mem_cons.mp hqm with rfl | hqm
          · exact ⟨hq, _, rfl⟩
          · exact ⟨fun hs => (i2 q hqm).1 (by simp [hs]), (i2 q hqm).2⟩
        · intro _
          have := i3 (by omega)
          simp only [List.length_cons]
          omega
    · simp only [Option.some.injEq] at h
      subst h
      simp

theorem templateLoop_enough (gen : Nat → Txt) (n m M : Nat) (hM : M ≤ m) (seen0 : List Txt)
    (hn : n ≤ (((Finset.Icc 1 M).image gen).filter (· ∉ seen0)).card) (fuel count tries : Nat) (seen : List Txt)
    (hfuel : m + 2 ≤ fuel + tries) (hcount : count = (((Finset.Icc 1 tries).image gen).filter (· ∉ seen0)).card) (hle : count ≤ n)
    (hseen : ∀ q, q ∈ seen ↔ q ∈ seen0 ∨ q ∈ (Finset.Icc 1 tries).image gen) :
    ∃ qs, templateLoop gen n m fuel count tries seen = some qs ∧ count + qs.length = n := by
  have hmono : ∀ a b, a ≤ b → (((Finset.Icc 1 a).image gen).filter (· ∉ seen0)).card ≤ (((Finset.Icc 1 b).image gen).filter (· ∉ seen0)).card := by
    intro a b hab
    apply Finset.card_le_card
    intro x hx
    simp only [Finset.mem_filter, Finset.mem_image, Finset.mem_Icc] at hx ⊢
    obtain ⟨⟨j, hj, rfl⟩, hx⟩ := hx
    exact ⟨⟨j, ⟨hj.1, by omega⟩, rfl⟩, hx⟩
  have hsucc : ∀ k, (Finset.Icc 1 (k + 1)).image gen = insert (gen (k + 1)) ((Finset.Icc 1 k).image gen) := by
    intro k
    ext x
    simp only [Finset.mem_image, Finset.mem_Icc, Finset.mem_insert]
    constructor
    · rintro ⟨j, hj, rfl⟩
      by_cases h : j = k + 1
      · exact Or.inl (by rw [h])
      · exact Or.inr ⟨j, ⟨hj.1, by omega⟩, rfl⟩
    · rintro (rfl | ⟨j, hj, rfl⟩)
      · exact ⟨k + 1, ⟨by omega, le_refl _⟩, rfl⟩
      · exact ⟨j, ⟨hj.1, by omega⟩, rfl⟩
  induction fuel generalizing count tries seen with
  | zero =>
    refine ⟨[], rfl, ?_⟩
    have := hmono M tries (by omega)
    simp only [List.length_nil]
    omega
  | succ fuel ih =>
    simp only [templateLoop]
    by_cases hlt : count < n
    · have htM : tries < M := by
        by_contra hcon
        have := hmono M tries (by omega)
        omega
      rw [if_pos ⟨hlt, by omega⟩]
      have hseen' : ∀ q, q ∈ gen (tries + 1) :: seen ↔ q ∈ seen0 ∨ q ∈ (Finset.Icc 1 (tries + 1)).image gen := by
        intro q
        rw [hsucc, List.mem_cons, hseen, Finset.mem_insert]
        tauto
      by_cases hq : gen (tries + 1) ∈ seen
      · rw [if_pos hq]
        have hsame : ((Finset.Icc 1 (tries + 1)).image gen).filter (· ∉ seen0) = ((Finset.Icc 1 tries).image gen).filter (· ∉ seen0) := by
          rw [hsucc]
          ext x
          simp only [Finset.mem_filter, Finset.mem_insert]
          constructor
          · rintro ⟨rfl | hx, hx0⟩
            · rcases (hseen _).mp hq with h | h
              · exact absurd h hx0
              · exact ⟨h, hx0⟩
            · exact ⟨hx, hx0⟩
          · rintro ⟨hx, hx0⟩
            exact ⟨Or.inr hx, hx0⟩
        have hne : tries + 1 ≠ m := by
          intro he
          have hMe : M = tries + 1 := by omega
          rw [hMe, hsame] at hn
          omega
        rw [if_neg hne]
        refine ih count (tries + 1) seen (by omega) (by rw [hsame]; exact hcount) hle ?_
        intro q
        rw [← hseen']
        constructor
        · intro h; simp [h]
        · intro h
          rcases List.mem_cons.mp h with rfl | h
          · exact hq
          · exact h
      · rw [if_neg hq]
        have hq' := hq
        rw [hseen] at hq'
        push Not at hq'
        have hcard : (((Finset.Icc 1 (tries + 1)).image gen).filter (· ∉ seen0)).card =
            (((Finset.Icc 1 tries).image gen).filter (· ∉ seen0)).card + 1 := by
          rw [hsucc, Finset.filter_insert, if_pos hq'.1, Finset.card_insert_of_notMem]
          intro hm
          exact hq'.2 (Finset.mem_filter.mp hm).1
        obtain ⟨qs, h1, h2⟩ := ih (count + 1) (tries + 1) (gen (tries + 1) :: seen) (by omega) (by rw [hcard, hcount]) (by omega) hseen'
        refine ⟨gen (tries + 1) :: qs, by rw [h1]; rfl, ?_⟩
        simp only [List.length_cons]
        omega
    · rw [if_neg (fun h => hlt h.1)]
      exact ⟨[], rfl, by simp only [List.length_nil]; omega⟩

theorem digits_plain (i : Nat) : '-' ∉ Nat.toDigits 10 i := by
  intro h
  have := Nat.isDigit_of_mem_toDigits (by decide) (by decide) h
  exact absurd this (by decide)

theorem queryLabel_inj (l l' : Txt) (i j : Nat) (h : queryLabel l i = queryLabel l' j) : l = l' ∧ i = j := by
  unfold queryLabel at h
  have key : ∀ a b : Txt, '-' ∉ a → '-' ∉ b → l ++ '-' :: a = l' ++ '-' :: b → l = l' ∧ a = b := by
    intro a b ha hb hab
    rcases List.append_eq_append_iff.mp hab with ⟨m, hm1, hm2⟩ | ⟨m, hm1, hm2⟩
    · cases m with
      | nil => simp at hm1 hm2; exact ⟨hm1.symm, hm2⟩
      | cons c m =>
        simp only [List.cons_append, List.cons.injEq] at hm2
        exact absurd (by rw [hm2.2]; simp) ha
    · cases m with
      | nil => simp at hm1 hm2; exact ⟨hm1, hm2.symm⟩
      | cons c m =>
        simp only [List.cons_append, List.cons.injEq] at hm2
        exact absurd (by rw [hm2.2]; simp) hb
  obtain ⟨h1, h2⟩ := key _ _ (digits_plain i) (digits_plain j) h
  refine ⟨h1, ?_⟩
  have e1 := Nat.ofDigitChars_toDigits (b := 10) (n := i) (by decide) (by decide)
  have e2 := Nat.ofDigitChars_toDigits (b := 10) (n := j) (by decide) (by decide)
  rw [← e1, ← e2, h2]

theorem addQueries_other (label : Txt) (i : Nat) (qs : List Txt) (d : Dict Txt Txt) (k : Txt)
    (hk : ∀ j, i ≤ j → k ≠ queryLabel label j) : Dict.get? (addQueries label i qs d) k = Dict.get? d k := by
  induction qs generalizing i d with
  | nil => rfl
  | cons q qs ih =>
    simp only [addQueries]
    rw [ih (i + 1) _ (fun j hj => hk j (by omega)), Dict.get?_set, if_neg (Ne.symm (hk i (Nat.le_refl _)))]

theorem addQueries_get (label : Txt) (i : Nat) (qs : List Txt) (d : Dict Txt Txt) (j : Nat) (hj : j < qs.length) :
    Dict.get? (addQueries label i qs d) (queryLabel label (i + j)) = some qs[j] := by
  induction qs generalizing i d j with
  | nil => simp at hj
  | cons q qs ih =>
    simp only [addQueries]
    cases j with
    | zero =>
      have e0 : i + 0 = i := rfl
      rw [e0, addQueries_other, Dict.get?_set, if_pos rfl]
      · rfl
      · intro j hj h
        have := (queryLabel_inj _ _ _ _ h).2
        omega
    | succ j =>
      have := ih (i + 1) (Dict.set d (queryLabel label i) q) j (by simpa using hj)
      rw [show i + (j + 1) = i + 1 + j by omega, this]
      rfl

/-- C192 (partial: different titles, different queries of different templates, and each template yields enough different queries within
the tries): the workload has the requested number of queries of each template, with the labels `title-1`, `title-2`, …. -/
theorem C192_complete_partial (templates : List (Txt × (Nat → Txt))) (n : Nat) (hl : (templates.map (·.1)).Nodup)
    (hd : templates.Pairwise fun a b => ∀ i j, a.2 i ≠ b.2 j)
    (he : ∀ x ∈ templates, n ≤ ((Finset.Icc 1 (templates.length * n * 10)).image x.2).card) :
    ∃ d, generateWorkload templates n = some d ∧ ∀ x ∈ templates, ∀ i, 1 ≤ i → i ≤ n →
      ∃ j, Dict.get? d (x.1 ++ '-' :: Nat.toDigits 10 i) = some (x.2 j) := by
  unfold generateWorkload
  generalize hm : templates.length * n * 10 = m at he ⊢
  clear hm
  have gen : ∀ (ts : List (Txt × (Nat → Txt))) (seen : List Txt) (d : Dict Txt Txt), (ts.map (·.1)).Nodup →
      (ts.Pairwise fun a b => ∀ i j, a.2 i ≠ b.2 j) → (∀ x ∈ ts, n ≤ ((Finset.Icc 1 m).image x.2).card) →
      (∀ x ∈ ts, ∀ j, x.2 j ∉ seen) →
      ∃ d', workloadLoop n m ts seen d = some d' ∧
        (∀ x ∈ ts, ∀ i, 1 ≤ i → i ≤ n → ∃ j, Dict.get? d' (queryLabel x.1 i) = some (x.2 j)) ∧
        ∀ k, (∀ x ∈ ts, ∀ j, k ≠ queryLabel x.1 j) → Dict.get? d' k = Dict.get? d k := by
    intro ts
    induction ts with
    | nil => intro seen d _ _ _ _; exact ⟨d, rfl, by simp, fun _ _ => rfl⟩
    | cons x ts ih =>
      obtain ⟨label, gen⟩ := x
      intro seen d hl hd he hs
      simp only [List.map_cons, List.nodup_cons] at hl
      obtain ⟨hd1, hd2⟩ := List.pairwise_cons.mp hd
      have hfil : ((Finset.Icc 1 m).image gen).filter (· ∉ seen) = (Finset.Icc 1 m).image gen := by
        apply Finset.filter_true_of_mem
        intro q hq
        obtain ⟨j, -, rfl⟩ := Finset.mem_image.mp hq
        exact hs (label, gen) (by simp) j
      obtain ⟨qs, q1, q2⟩ := templateLoop_enough gen n m m (Nat.le_refl _) seen (by rw [hfil]; exact he (label, gen) (by simp))
        (m + 2) 0 0 seen (by omega) (by simp) (by omega) (by simp)
      obtain ⟨-, s2, -⟩ := templateLoop_spec gen n m (m + 2) 0 0 seen qs q1
      obtain ⟨d', r1, r2, r3⟩ := ih (qs ++ seen) (addQueries label 1 qs d) hl.2 hd2 (fun x hx => he x (by simp [hx])) (by
        intro x hx j hmem
        rcases List.mem_append.mp hmem with h | h
        · obtain ⟨i, hi⟩ := (s2 _ h).2
          exact hd1 x hx i j hi.symm
        · exact hs x (by simp [hx]) j h)
      refine ⟨d', by simp only [workloadLoop, q1]; exact r1, ?_, ?_⟩
      · intro x hx i hi1 hi2
        rcases List.mem_cons.mp hx with rfl | hx
        · rw [r3]
          · have := addQueries_get label 1 qs d (i - 1) (by omega)
            rw [show 1 + (i - 1) = i by omega] at this
            rw [this]
            obtain ⟨j, hj⟩ := (s2 qs[i - 1] (List.getElem_mem _)).2
            exact ⟨j, by rw [hj]⟩
          · intro y hy j hcon
            exact hl.1 (List.mem_map.mpr ⟨y, hy, (queryLabel_inj _ _ _ _ hcon).1.symm⟩)
        · exact r2 x hx i hi1 hi2
      · intro k hk
        rw [r3 k (fun x hx => hk x (by simp [hx]))]
        exact addQueries_other label 1 qs d k (fun j _ => hk (label, gen) (by simp) j)
  obtain ⟨d, h1, h2, -⟩ := gen templates [] [] hl hd he (by simp)
  exact ⟨d, h1, h2⟩

example : (1 : Nat) ≤ ((Finset.Icc 1 10).image fun (_ : Nat) => ['q']).card := by decide

theorem set_vals (d : Dict Txt Txt) (k v : Txt) (hn : (d.map (·.2)).Nodup) (hv : v ∉ d.map (·.2)) :
    ((Dict.set d k v).map (·.2)).Nodup ∧ ∀ x ∈ (Dict.set d k v).map (·.2), x = v ∨ x ∈ d.map (·.2) := by
  induction d with
  | nil => simp [Dict.set]
  | cons e d ih =>
    obtain ⟨k', v'⟩ := e
    simp only [List.map_cons, List.nodup_cons, List.mem_cons, not_or] at hn hv
    obtain ⟨i1, i2⟩ := ih hn.2 hv.2
    simp only [Dict.set]
    split
    · simp only [List.map_cons, List.nodup_cons, List.mem_cons]
      exact ⟨⟨hv.2, hn.2⟩, fun x hx => hx.elim Or.inl fun h => Or.inr (Or.inr h)⟩
    · simp only [List.map_cons, List.nodup_cons, List.mem_cons]
      refine ⟨⟨fun hm => ?_, i1⟩, ?_⟩
      · rcases i2 _ hm with h | h
        · exact hv.1 h.symm
        · exact hn.1 h
      · rintro x (rfl | hx)
        · exact Or.inr (Or.inl rfl)
        · exact (i2 x hx).imp id Or.inr

/-- C192: no query occurs twice in a generated workload. -/
theorem C192_unique (templates : List (Txt × (Nat → Txt))) (n : Nat) (d : Dict Txt Txt) (h : generateWorkload templates n = some d) :
    (d.map (·.2)).Nodup := by
  unfold generateWorkload at h
  generalize templates.length * n * 10 = m at h
  have add : ∀ (label : Txt) (qs : List Txt) (i : Nat) (d : Dict Txt Txt) (seen : List Txt), qs.Nodup → (∀ q ∈ qs, q ∉ seen) →
      (d.map (·.2)).Nodup → (∀ x ∈ d.map (·.2), x ∈ seen) →
      ((addQueries label i qs d).map (·.2)).Nodup ∧ ∀ x ∈ (addQueries label i qs d).map (·.2), x ∈ qs ++ seen := by
    intro label qs
    induction qs with
    | nil => intro i d seen _ _ h1 h2; exact ⟨h1, fun x hx => by simpa using h2 x hx⟩
    | cons q qs ih =>
      intro i d seen hn hs h1 h2
      have hq : q ∉ d.map (·.2) := fun hm => hs q (by simp) (h2 q hm)
      obtain ⟨a1, a2⟩ := set_vals d (queryLabel label i) q h1 hq
      obtain ⟨hn1, hn2⟩ := List.nodup_cons.mp hn
      obtain ⟨b1, b2⟩ := ih (i + 1) (Dict.set d (queryLabel label i) q) (q :: seen) hn2 (by
        intro x hx hm
        rcases List.mem_cons.mp hm with rfl | hm
        · exact hn1 hx
        · exact hs x (by simp [hx]) hm) a1 (by
        intro x hx
        rcases a2 x hx with rfl | h
        · simp
        · simp [h2 x h])
      refine ⟨b1, fun x hx => ?_⟩
      have := b2 x hx
      simp only [List.mem_append, List.mem_cons] at this ⊢
      tauto
  have gen : ∀ (ts : List (Txt × (Nat → Txt))) (seen : List Txt) (d0 : Dict Txt Txt), (d0.map (·.2)).Nodup →
      (∀ x ∈ d0.map (·.2), x ∈ seen) → workloadLoop n m ts seen d0 = some d → (d.map (·.2)).Nodup := by
    intro ts
    induction ts with
    | nil => intro seen d0 h1 _ h; simp only [workloadLoop, Option.some.injEq] at h; rw [← h]; exact h1
    | cons x ts ih =>
      obtain ⟨label, gen⟩ := x
      intro seen d0 h1 h2 h
      simp only [workloadLoop] at h
      split at h
      · simp at h
      · rename_i qs hqs
        obtain ⟨s1, s2, -⟩ := templateLoop_spec gen n m _ 0 0 seen qs hqs
        obtain ⟨a1, a2⟩ := add label qs 1 d0 seen s1 (fun q hq => (s2 q hq).1) h1 h2
        exact ih (qs ++ seen) _ a1 a2 h
  exact gen templates [] [] (by simp) (by simp) h

/-- C192 violated (silent shortage): three queries are requested, two are returned without an error. -/
theorem C192_short_violated :
    generateWorkload [(['t'], fun i => if i = 30 then ['b'] else ['a'])] 3 = some [("t-1".toList, ['a']), ("t-2".toList, ['b'])] := by
  decide +kernel

/-- C192 violated (equal titles): the queries of one of the templates are lost. -/
theorem C192_titles_violated :
    generateWorkload [(['t'], fun _ => ['a']), (['t'], fun _ => ['b'])] 1 = some [("t-1".toList, ['b'])] := by
  decide +kernel

end PB.CebProps
