import Verif.Model.Nested
set_option linter.unusedVariables false
set_option linter.unusedSimpArgs false

namespace PB.NestedProps
open PB.Nested

/-- What a JSON value describes: objects describe tables by their name and alias (an empty alias if there is none), lists describe the sequences of their elements. -/
inductive Describes : Json → Seq → Prop
  | table (n : String) (a : Option String) (v : Option Bool) (sch : Option String) (h : ¬ (n = "" ∧ (a = none ∨ a = some ""))) : Describes (.obj (some n) a v sch) (.table ⟨n, a.getD "", false, ""⟩)
  | seq (js : List Json) (ss : List Seq) (hl : js.length = ss.length) (h : ∀ (i : Nat) (j : Json) (s : Seq), js[i]? = some j → ss[i]? = some s → Describes j s) : Describes (.list js) (.seq ss)

mutual
theorem parse_describes : (j : Json) → (s : Seq) → parse j = some s → Describes j s
  | .list l, s, h => by
    simp only [parse, Option.map_eq_some_iff] at h
    obtain ⟨ss, h1, rfl⟩ := h
    obtain ⟨hl, he⟩ := parseAll_describes l ss h1
    exact .seq l ss hl he
  | .obj none a v sch, s, h => by simp [parse] at h
  | .obj (some n) a v sch, s, h => by
    simp only [parse, mkTable, Option.map_eq_some_iff] at h
    obtain ⟨t, h1, rfl⟩ := h
    split_ifs at h1 with hc
    cases h1
    refine .table n a v sch fun hh => hc ⟨hh.1, ?_⟩
    rcases hh.2 with rfl | rfl <;> rfl
  | .other, s, h => by simp [parse] at h
theorem parseAll_describes : (l : List Json) → (ss : List Seq) → parseAll l = some ss → l.length = ss.length ∧ ∀ (i : Nat) (j : Json) (s : Seq), l[i]? = some j → ss[i]? = some s → Describes j s
  | [], ss, h => by simp only [parseAll, Option.some.injEq] at h; subst h; simp
  | j :: l, ss, h => by
    simp only [parseAll] at h
    have ho := parse_describes j
    rcases hj : parse j with _ | s
    · simp [hj] at h
    · simp only [hj, Option.map_eq_some_iff] at h
      obtain ⟨ts, h1, rfl⟩ := h
      obtain ⟨hl, he⟩ := parseAll_describes l ts h1
      refine ⟨by simp [hl], fun i => ?_⟩
      cases i with
      | zero => intro a b ha hb; simp only [List.getElem?_cons_zero, Option.some.injEq] at ha hb; subst ha; subst hb; exact ho _ hj
      | succ i => intro a b ha hb; simp only [List.getElem?_cons_succ] at ha hb; exact he i a b ha hb
end

mutual
theorem describes_parse : (j : Json) → (s : Seq) → Describes j s → parse j = some s
  | .list l, s, h => by
    cases h with
    | seq _ ss hl he => simp only [parse, describes_parseAll l ss hl he, Option.map_some]
  | .obj none a v sch, s, h => by cases h
  | .obj (some n) a v sch, s, h => by
    cases h with
    | table _ _ _ _ hn =>
      simp only [parse, mkTable]
      rw [if_neg]
      · rfl
      · rintro ⟨h1, h2⟩
        refine hn ⟨h1, ?_⟩
        cases a with
        | none => exact .inl rfl
        | some a => exact .inr (by simpa using h2)
  | .other, s, h => by cases h
theorem describes_parseAll : (l : List Json) → (ss : List Seq) → l.length = ss.length → (∀ (i : Nat) (j : Json) (s : Seq), l[i]? = some j → ss[i]? = some s → Describes j s) → parseAll l = some ss
  | [], ss, hl, h => by
    have : ss = [] := List.length_eq_zero_iff.1 hl.symm
    subst this; rfl
  | j :: l, ss, hl, h => by
    have ho := describes_parse j
    match ss, hl, h with
    | s :: ss, hl, h =>
      simp only [parseAll, ho s (h 0 j s rfl rfl)]
      rw [describes_parseAll l ss (by simpa using hl) fun i a b ha hb => h (i + 1) a b (by simpa using ha) (by simpa using hb)]
      rfl
end

/-- **C263.** Parsing yields exactly the sequence that the JSON value describes; values that describe none are errors. -/
theorem C263_parse (j : Json) (s : Seq) : parse j = some s ↔ Describes j s := ⟨parse_describes j s, describes_parse j s⟩

/-- Sequences of tables that have a name or an alias, no schema and are not virtual. -/
inductive Plain : Seq → Prop
  | table (n a : String) (h : n ≠ "" ∨ a ≠ "") : Plain (.table ⟨n, a, false, ""⟩)
  | seq (l : List Seq) (h : ∀ s ∈ l, Plain s) : Plain (.seq l)

mutual
theorem roundtrip : (s : Seq) → Plain s → parse (toJson s) = some s
  | .table t, h => by
    cases h with
    | table n a hn =>
      simp only [toJson, tableJson, parse, mkTable, Option.getD_some]
      rw [if_neg (by tauto)]; rfl
  | .seq l, h => by
    cases h with
    | seq _ hl => simp only [toJson, parse, roundtripAll l hl, Option.map_some]
theorem roundtripAll : (l : List Seq) → (∀ s ∈ l, Plain s) → parseAll (toJsonAll l) = some l
  | [], _ => rfl
  | s :: l, h => by
    simp only [toJsonAll, parseAll, roundtrip s (h s (by simp)), roundtripAll l fun x hx => h x (by simp [hx]), Option.map_some]
end

/-- **C263 (partial).** Sequences that are stored as JSON are read again as they were. (Missing: tables with a schema and virtual tables, see `C263_schema_violated`.) -/
theorem C263_roundtrip_partial (s : Seq) (h : Plain s) : parse (toJson s) = some s := roundtrip s h

/-- The hypotheses are met. -/
example : Plain (.seq [.table ⟨"title", "t", false, ""⟩, .seq [.table ⟨"movie_info", "", false, ""⟩, .table ⟨"name", "n", false, ""⟩]]) := by
  refine .seq _ fun s hs => ?_
  simp only [List.mem_cons, List.not_mem_nil, or_false] at hs
  rcases hs with rfl | rfl
  · exact .table _ _ (by simp)
  · refine .seq _ fun s hs => ?_
    simp only [List.mem_cons, List.not_mem_nil, or_false] at hs
    rcases hs with rfl | rfl <;> exact .table _ _ (by simp)

/-- **C263 (violated).** The schema of a table and whether it is virtual are lost: another table is read than was stored. -/
theorem C263_schema_violated (n a sch : String) (v : Bool) (hn : n ≠ "") (h : sch ≠ "" ∨ v = true) :
    ∃ s, parse (toJson (.table ⟨n, a, v, sch⟩)) = some s ∧ s ≠ .table ⟨n, a, v, sch⟩ := by
  refine ⟨.table ⟨n, a, false, ""⟩, ?_, ?_⟩
  · simp only [toJson, tableJson, parse, mkTable, Option.getD_some]
    rw [if_neg (by tauto)]; rfl
  · intro he
    injection he with he
    injection he with _ _ h1 h2
    rcases h with h | h
    · exact h h2.symm
    · rw [h] at h1; simp at h1

/-- The hypotheses are met. -/
example : ("title" : String) ≠ "" ∧ ("public" : String) ≠ "" := by decide

/-- The sequence of a join tree: pairs of outer and inner sequences. -/
def seqOf : Tree → Seq
  | .scan t => .table t
  | .join o i => .seq [seqOf o, seqOf i]

theorem fromSeq_seqOf : (t : Tree) → fromSeq (seqOf t) = some t
  | .scan _ => by simp [seqOf, fromSeq]
  | .join o i => by simp [seqOf, fromSeq, fromSeq_seqOf o, fromSeq_seqOf i]

theorem seqOf_fromSeq (s : Seq) : ∀ t, fromSeq s = some t → s = seqOf t := by
  induction s using fromSeq.induct with
  | case1 t => intro u h; simp only [fromSeq, Option.some.injEq] at h; subst h; rfl
  | case2 o i h1 ih => intro u h; simp [fromSeq, h1] at h
  | case3 o i o' h1 ih1 ih2 =>
    intro u h
    simp only [fromSeq, h1, Option.map_eq_some_iff] at h
    obtain ⟨i', h2, rfl⟩ := h
    rw [seqOf, ← ih1 o' h1, ← ih2 i' h2]
  | case4 l hl => intro u h; simp [fromSeq] at h

/-- **C263.** A join tree is built from exactly the sequences of pairs, and the pairs are its joins, with the outer part first. -/
theorem C263_tree (s : Seq) (t : Tree) : fromSeq s = some t ↔ s = seqOf t := ⟨seqOf_fromSeq s t, fun h => h ▸ fromSeq_seqOf t⟩

end PB.NestedProps
