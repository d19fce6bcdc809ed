import Verif.Model.Refs
import Mathlib.Order.Basic
import Mathlib.Tactic.Tauto

set_option linter.unusedSimpArgs false
set_option linter.unusedVariables false

/-! Properties C03, C04, C65 and C66 (identifiers, table and column references). -/

namespace PB.RefProps
open PB

variable (norm : String → String)

/-! ### C03 -/

theorem beq_iff (a b : TableRef) :
    TableRef.beq norm a b = true ↔ a.hashKey norm = b.hashKey norm := by
  simp [TableRef.beq, TableRef.hashKey, and_assoc]

/-- C03: `==` of table references is an equivalence relation. -/
theorem C03_eq_equivalence :
    Equivalence (fun a b : TableRef => TableRef.beq norm a b = true) := by
  constructor
  · intro a; simp [beq_iff]
  · intro a b; simp only [beq_iff]; exact Eq.symm
  · intro a b c; simp only [beq_iff]; exact Eq.trans

/-- C03: equal table references are hashed from equal tuples. -/
theorem C03_eq_implies_hash (a b : TableRef) (h : TableRef.beq norm a b = true) :
    a.hashKey norm = b.hashKey norm := (beq_iff norm a b).1 h

/-- C03: neither `==`, nor hashing, nor `<` depends on the virtual flag. -/
theorem C03_virtual_irrelevant (a b : TableRef) (v w : Bool) :
    TableRef.beq norm { a with virt := v } { b with virt := w } = TableRef.beq norm a b ∧
    TableRef.hashKey norm { a with virt := v } = TableRef.hashKey norm a ∧
    TableRef.lt norm { a with virt := v } { b with virt := w } = TableRef.lt norm a b := by
  refine ⟨rfl, rfl, rfl⟩

/-- C03: `<` is a strict weak order: irreflexive, transitive, and incomparability is transitive. -/
theorem C03_lt_strict_weak (a b c : TableRef) :
    TableRef.lt norm a a = false ∧
    (TableRef.lt norm a b = true → TableRef.lt norm b c = true → TableRef.lt norm a c = true) ∧
    ((TableRef.lt norm a b = false ∧ TableRef.lt norm b a = false) →
     (TableRef.lt norm b c = false ∧ TableRef.lt norm c b = false) →
     (TableRef.lt norm a c = false ∧ TableRef.lt norm c a = false)) := by
  simp only [TableRef.lt, decide_eq_true_eq, decide_eq_false_iff_not]
  refine ⟨lt_irrefl _, lt_trans, ?_⟩
  rintro ⟨h1, h2⟩ ⟨h3, h4⟩
  have e1 := le_antisymm (not_lt.1 h2) (not_lt.1 h1)
  have e2 := le_antisymm (not_lt.1 h4) (not_lt.1 h3)
  rw [e1, e2]; simp

/-- C03: equal references are interchangeable on both sides of `<` (for a normalisation mapping only the
empty string to the empty string, as lower-casing does). -/
theorem C03_lt_respects_eq (hn : ∀ s, norm s = "" ↔ s = "") (a a' b : TableRef)
    (h : TableRef.beq norm a a' = true) :
    TableRef.lt norm a b = TableRef.lt norm a' b ∧ TableRef.lt norm b a = TableRef.lt norm b a' := by
  simp only [beq_iff, TableRef.hashKey, Prod.mk.injEq] at h
  obtain ⟨h1, h2, _⟩ := h
  have key : norm a.identifier = norm a'.identifier := by
    unfold TableRef.identifier
    by_cases ha : a.als = ""
    · have : a'.als = "" := by rw [← hn, ← h2, hn]; exact ha
      simp [ha, this, h1]
    · have : ¬ a'.als = "" := by rw [← hn, ← h2, hn]; exact ha
      simp [ha, this, h2]
  simp [TableRef.lt, key]

example : ∀ s : String, (id s) = "" ↔ s = "" := by simp

/-- C03 (columns): `==` of column references is an equivalence relation and equal columns are hashed
from equal tuples. -/
theorem C03_col_eq_hash (a b : ColRef) :
    ColRef.beq norm a b = true ↔ a.hashKey norm = b.hashKey norm := by
  obtain ⟨n, t⟩ := a
  obtain ⟨m, u⟩ := b
  cases t <;> cases u <;> simp [ColRef.beq, ColRef.hashKey, ColRef.tabEq, beq_iff]

theorem C03_col_eq_equivalence :
    Equivalence (fun a b : ColRef => ColRef.beq norm a b = true) := by
  constructor
  · intro a; simp [C03_col_eq_hash]
  · intro a b; simp only [C03_col_eq_hash]; exact Eq.symm
  · intro a b c; simp only [C03_col_eq_hash]; exact Eq.trans

theorem tabEq_iff (a b : Option TableRef) :
    ColRef.tabEq norm a b = true ↔ a.map (TableRef.hashKey norm) = b.map (TableRef.hashKey norm) := by
  cases a <;> cases b <;> simp [ColRef.tabEq, beq_iff]

/-- Key order of optional tables: unbound columns first, then by identifier. -/
def TabLt : Option TableRef → Option TableRef → Prop
  | none, some _ => True
  | some a, some b => norm a.identifier < norm b.identifier
  | _, none => False

theorem col_lt_iff (a b : ColRef) :
    ColRef.lt norm a b = true ↔
      (ColRef.tabEq norm a.table b.table = true ∧ norm a.name < norm b.name) ∨
      (ColRef.tabEq norm a.table b.table = false ∧ TabLt norm a.table b.table) := by
  obtain ⟨n, t⟩ := a
  obtain ⟨m, u⟩ := b
  unfold ColRef.lt
  cases h : ColRef.tabEq norm t u
  · cases t <;> cases u <;> simp_all [TabLt, TableRef.lt, ColRef.tabEq]
  · simp

theorem tabLt_trans {a b c : Option TableRef} (h1 : TabLt norm a b) (h2 : TabLt norm b c) :
    TabLt norm a c := by
  cases a <;> cases b <;> cases c <;>
    first
      | exact h2.elim
      | exact h1.elim
      | trivial
      | exact lt_trans (a := norm _) h1 h2

theorem tabLt_irrefl (a : Option TableRef) : ¬ TabLt norm a a := by
  cases a <;> simp [TabLt]

theorem identifier_congr (hn : ∀ s, norm s = "" ↔ s = "") {a a' : TableRef}
    (h : a.hashKey norm = a'.hashKey norm) : norm a.identifier = norm a'.identifier := by
  simp only [TableRef.hashKey, Prod.mk.injEq] at h
  obtain ⟨h1, h2, _⟩ := h
  unfold TableRef.identifier
  by_cases ha : a.als = ""
  · have : a'.als = "" := by rw [← hn, ← h2, hn]; exact ha
    simp [ha, this, h1]
  · have : ¬ a'.als = "" := by rw [← hn, ← h2, hn]; exact ha
    simp [ha, this, h2]

theorem tabLt_congr (hn : ∀ s, norm s = "" ↔ s = "") {a a' b b' : Option TableRef}
    (h : ColRef.tabEq norm a a' = true) (h' : ColRef.tabEq norm b b' = true)
    (hl : TabLt norm a b) : TabLt norm a' b' := by
  rw [tabEq_iff] at h h'
  cases a <;> cases a' <;> cases b <;> cases b' <;> simp_all [TabLt]
  rwa [← identifier_congr norm hn h, ← identifier_congr norm hn h']

/-- Two references name the same table, up to upper and lower case. -/
def SameTable (a b : TableRef) : Prop := norm a.fullName = norm b.fullName ∧ norm a.als = norm b.als ∧ norm a.schema = norm b.schema

/-- The name `s` a table is called by in a query: the alias, if there is one. -/
def CalledBy (t : TableRef) (s : String) : Prop := (t.als ≠ "" ∧ s = t.als) ∨ (t.als = "" ∧ s = t.fullName)

/-- **C03**: two tables are equal if and only if their names, aliases and schemas are the same up to upper and lower case. -/
theorem C03_eq_exact (a b : TableRef) : TableRef.beq norm a b = true ↔ SameTable norm a b := by
  simp [TableRef.beq, SameTable, and_assoc]

/-- **C03**: tables are ordered by the name they are called by in the query, up to upper and lower case. -/
theorem C03_lt_exact (a b : TableRef) (s t : String) (ha : CalledBy a s) (hb : CalledBy b t) :
    TableRef.lt norm a b = true ↔ norm s < norm t := by
  have h : ∀ (x : TableRef) (n : String), CalledBy x n → x.identifier = n := by
    rintro x n (⟨h, rfl⟩ | ⟨h, rfl⟩) <;> simp [TableRef.identifier, h]
  simp [TableRef.lt, h a s ha, h b t hb]

/-- **C03**: two columns are equal if and only if their names are the same up to upper and lower case and their tables are equal or both are unbound. -/
theorem C03_col_eq_exact (n m : String) (t u : TableRef) :
    (ColRef.beq norm ⟨n, some t⟩ ⟨m, some u⟩ = true ↔ norm n = norm m ∧ SameTable norm t u) ∧
    (ColRef.beq norm ⟨n, none⟩ ⟨m, none⟩ = true ↔ norm n = norm m) ∧
    ColRef.beq norm ⟨n, none⟩ ⟨m, some u⟩ = false ∧ ColRef.beq norm ⟨n, some t⟩ ⟨m, none⟩ = false := by
  refine ⟨?_, ?_, ?_, ?_⟩
  · simp [ColRef.beq, ColRef.tabEq, C03_eq_exact]
  all_goals simp [ColRef.beq, ColRef.tabEq]

/-- **C03**: columns of the same table and unbound columns are ordered by name, unbound columns come before all others, and columns of different tables are
ordered by the names their tables are called by. -/
theorem C03_col_lt_exact (n m : String) (t u : TableRef) (a b : String) (ht : CalledBy t a) (hu : CalledBy u b) :
    (SameTable norm t u → (ColRef.lt norm ⟨n, some t⟩ ⟨m, some u⟩ = true ↔ norm n < norm m)) ∧
    (¬ SameTable norm t u → (ColRef.lt norm ⟨n, some t⟩ ⟨m, some u⟩ = true ↔ norm a < norm b)) ∧
    (ColRef.lt norm ⟨n, none⟩ ⟨m, none⟩ = true ↔ norm n < norm m) ∧
    ColRef.lt norm ⟨n, none⟩ ⟨m, some u⟩ = true ∧ ColRef.lt norm ⟨n, some t⟩ ⟨m, none⟩ = false := by
  have hl := C03_lt_exact norm t u a b ht hu
  refine ⟨fun h => ?_, fun h => ?_, ?_, ?_, ?_⟩
  · have := (C03_eq_exact norm t u).2 h
    simp [ColRef.lt, ColRef.tabEq, this]
  · have : TableRef.beq norm t u = false := by
      rw [Bool.eq_false_iff]; exact fun e => h ((C03_eq_exact norm t u).1 e)
    simp only [ColRef.lt, ColRef.tabEq, this]
    exact hl
  all_goals simp [ColRef.lt, ColRef.tabEq]

example : CalledBy ⟨"", "movie_companies", "mc", false⟩ "mc" ∧ CalledBy ⟨"", "title", "", false⟩ "title" := by
  constructor <;> simp [CalledBy]

/-- C03 (columns): `<` is a strict partial order (for a normalisation mapping only the empty string
to the empty string, as lower-casing does). -/
theorem C03_col_lt_strict_order (hn : ∀ s, norm s = "" ↔ s = "") (a b c : ColRef) :
    ColRef.lt norm a a = false ∧
    (ColRef.lt norm a b = true → ColRef.lt norm b c = true → ColRef.lt norm a c = true) := by
  have refl : ∀ t, ColRef.tabEq norm t t = true := fun t => by simp [tabEq_iff]
  constructor
  · rw [← Bool.not_eq_true, col_lt_iff]
    simp [refl]
  · simp only [col_lt_iff]
    have symm : ∀ {t u}, ColRef.tabEq norm t u = true → ColRef.tabEq norm u t = true := by
      intro t u; simp only [tabEq_iff]; exact Eq.symm
    have trans : ∀ {t u v}, ColRef.tabEq norm t u = true → ColRef.tabEq norm u v = true →
        ColRef.tabEq norm t v = true := by
      intro t u v; simp only [tabEq_iff]; exact Eq.trans
    have lt_ne : ∀ {t u}, TabLt norm t u → ColRef.tabEq norm t u = false := by
      intro t u h
      rw [← Bool.not_eq_true]
      intro he
      exact tabLt_irrefl norm u (tabLt_congr norm hn he (refl u) h)
    rintro (⟨h1, h2⟩ | ⟨h1, h2⟩) (⟨h3, h4⟩ | ⟨h3, h4⟩)
    · exact Or.inl ⟨trans h1 h3, lt_trans h2 h4⟩
    · have := tabLt_congr norm hn (symm h1) (refl c.table) h4
      exact Or.inr ⟨lt_ne this, this⟩
    · have := tabLt_congr norm hn (refl a.table) h3 h2
      exact Or.inr ⟨lt_ne this, this⟩
    · have := tabLt_trans norm h2 h4
      exact Or.inr ⟨lt_ne this, this⟩

/-- C03 violated (columns): with two tables sharing an identifier (`R AS x` and `S AS x`) the columns are not
weakly ordered: `x.c` of `S` is incomparable with both `x.a` and `x.b` of `R`, although `x.a < x.b`. -/
theorem C03_col_lt_weak_violated :
    let r : TableRef := ⟨"", "r", "x", false⟩
    let s : TableRef := ⟨"", "s", "x", false⟩
    let a : ColRef := ⟨"a", some r⟩
    let b : ColRef := ⟨"b", some r⟩
    let c : ColRef := ⟨"c", some s⟩
    ColRef.lt id a b = true ∧
    ColRef.lt id a c = false ∧ ColRef.lt id c a = false ∧
    ColRef.lt id c b = false ∧ ColRef.lt id b c = false := by
  decide

/-! ### C04 -/

/-- C04: `drop_alias` removes the alias of a non-virtual table and nothing else. -/
theorem C04_dropAlias (t : TableRef) (hv : t.virt = false) (hf : t.fullName ≠ "") :
    t.dropAlias = .ok { t with als := "" } := by
  simp [TableRef.dropAlias, TableRef.create, hv, hf]

example : (⟨"public", "title", "t", false⟩ : TableRef).virt = false ∧
    (⟨"public", "title", "t", false⟩ : TableRef).fullName ≠ "" := by decide

/-- A reference that the constructor accepts. -/
def Valid (t : TableRef) : Prop := TableRef.create t.fullName t.als t.virt t.schema = .ok t

/-- C04: `make_virtual` sets the flag and nothing else. -/
theorem C04_makeVirtual (t : TableRef) (h : Valid t) : t.makeVirtual = .ok { t with virt := true } := by
  unfold Valid TableRef.create at h
  unfold TableRef.makeVirtual TableRef.create
  split at h
  · cases h
  · split at h
    · cases h
    · rename_i h1 h2; rw [if_neg h1, if_neg h2]

example : Valid ⟨"public", "title", "t", false⟩ := by simp [Valid, TableRef.create]

/-- C04 violated: `with_alias` forgets the schema. -/
theorem C04_withAlias_violated :
    (⟨"public", "title", "", false⟩ : TableRef).withAlias "t" = .ok ⟨"", "title", "t", false⟩ := by
  decide

/-- C04 violated: `update(alias=...)` forgets the schema. -/
theorem C04_update_violated :
    (⟨"public", "title", "", false⟩ : TableRef).update none (some "t") none TableRef.updateDefaultSchema
      = .ok ⟨"", "title", "t", false⟩ := by
  decide

/-- C04 partial: for tables without a schema, `with_alias` changes exactly the alias and
`update` exactly the given attributes. Missing: tables with a schema. -/
theorem C04_partial (t : TableRef) (hf : t.fullName ≠ "") (hs : t.schema = "") (als : String)
    (v : Option Bool) :
    t.withAlias als = .ok { t with als := als } ∧
    t.update none (some als) v TableRef.updateDefaultSchema
      = .ok { t with als := als, virt := v.getD t.virt } := by
  cases t; simp_all [TableRef.withAlias, TableRef.create, TableRef.update, TableRef.updateDefaultSchema]

example : (⟨"", "title", "", false⟩ : TableRef).fullName ≠ "" := by decide

/-- C04 (exact effect): on every named table `with_alias` yields the re-aliased table *without schema*. -/
theorem C04_withAlias_exact (t : TableRef) (hf : t.fullName ≠ "") (als : String) :
    t.withAlias als = .ok { t with als := als, schema := "" } := by
  simp [TableRef.withAlias, TableRef.create, hf]

/-! ### C65: JSON round trip -/

/-- C65 violated: reading back the JSON of a schema-qualified table loses the schema. -/
theorem C65_table_json_violated :
    loadTableJson (TableRef.toJson ⟨"public", "title", "t", false⟩) = .ok ⟨"", "title", "t", false⟩ := by
  decide

/-- C65 partial: the JSON round trip is the identity for every table without schema.
Missing: tables with a schema. -/
theorem C65_table_json_partial (t : TableRef) (h : Valid t) (hs : t.schema = "") :
    loadTableJson t.toJson = .ok t := by
  have : loadTableJson t.toJson = TableRef.create t.fullName t.als t.virt "" := by
    simp [loadTableJson, TableRef.toJson, JObj.getStr, JObj.getBool, List.lookup]
  rw [this]
  unfold Valid at h
  rw [hs] at h
  exact h

/-- C65 partial: same for columns. -/
theorem C65_column_json_partial (c : ColRef) (hn : c.name ≠ "")
    (h : ∀ t, c.table = some t → Valid t ∧ t.schema = "") :
    loadColumnJson c.toJson = .ok c := by
  obtain ⟨n, t⟩ := c
  cases t with
  | none => simp_all [loadColumnJson, ColRef.toJson]
  | some t =>
    obtain ⟨hv, hs⟩ := h t rfl
    have := C65_table_json_partial t hv hs
    simp_all [loadColumnJson, ColRef.toJson, bind, Except.bind]

example : Valid ⟨"", "title", "t", false⟩ := by simp [Valid, TableRef.create]

/-! ### C66: quoting

Specification of SQL identifier tokens (PostgreSQL lexical rules, ASCII letters): an unquoted token is a sequence of
word characters that does not start with a digit or `$` and is not a keyword; it denotes its lower case form. A quoted
token is `"` body `"`, where inside the body every double quote is doubled. -/

/-- Letters and underscores may start an unquoted identifier. -/
def sqlWordStart (c : Char) : Bool := c.isAlpha || c == '_'

/-- Letters, digits, underscores and dollar signs may occur in an unquoted identifier. -/
def sqlWordChar (c : Char) : Bool := c.isAlpha || c.isDigit || c == '_' || c == '$'

/-- Reads the body of a quoted identifier up to and including the closing quote; the whole input has
to be consumed. -/
def readQuoted : List Char → Option (List Char)
  | [] => none
  | '"' :: '"' :: cs => (readQuoted cs).map ('"' :: ·)
  | ['"'] => some []
  | '"' :: _ => none
  | c :: cs => (readQuoted cs).map (c :: ·)

/-- The identifier denoted by a single SQL identifier token, if it is one. -/
def denotes (isKeyword : List Char → Bool) : List Char → Option (List Char)
  | [] => none
  | '"' :: cs => readQuoted cs
  | c :: cs => if sqlWordStart c && cs.all sqlWordChar && !isKeyword ((c :: cs).map Char.toLower)
      then some ((c :: cs).map Char.toLower) else none

theorem identStart_spec {c : Char} (h : identStart c = true) : sqlWordStart c = true ∧ c.toLower = c := by
  simp only [identStart, Bool.or_eq_true, Bool.and_eq_true, decide_eq_true_eq, beq_iff_eq] at h
  rcases h with ⟨h1, h2⟩ | rfl
  · have e1 : (97 : Nat) ≤ c.toNat := h1
    have e2 : c.toNat ≤ 122 := h2
    refine ⟨?_, ?_⟩
    · simp [sqlWordStart, Char.isAlpha, Char.isLower]; left; right; exact ⟨h1, h2⟩
    · unfold Char.toLower
      rw [dif_neg]
      rintro ⟨_, h3⟩
      have h3' : c.toNat ≤ 90 := h3
      omega
  · decide

theorem identRest_spec {c : Char} (h : identRest c = true) : sqlWordChar c = true ∧ c.toLower = c := by
  simp only [identRest, Bool.or_eq_true, Bool.and_eq_true, decide_eq_true_eq, beq_iff_eq] at h
  rcases h with ((⟨h1, h2⟩ | ⟨h1, h2⟩) | rfl) | rfl
  · have := identStart_spec (c := c) (by simp [identStart]; left; exact ⟨h1, h2⟩)
    refine ⟨?_, this.2⟩
    have h3 := this.1
    simp only [sqlWordStart, sqlWordChar, Bool.or_eq_true] at h3 ⊢
    tauto
  · have e1 : (48 : Nat) ≤ c.toNat := h1
    have e2 : c.toNat ≤ 57 := h2
    refine ⟨?_, ?_⟩
    · simp only [sqlWordChar, Char.isDigit, Bool.or_eq_true, Bool.and_eq_true, decide_eq_true_eq]
      left; left; right; exact ⟨h1, h2⟩
    · unfold Char.toLower
      rw [dif_neg]
      rintro ⟨h3, _⟩
      have h3' : 65 ≤ c.toNat := h3
      omega
  · decide
  · decide

theorem readQuoted_append (s : List Char) (h : '"' ∉ s) : readQuoted (s ++ ['"']) = some s := by
  induction s with
  | nil => simp [readQuoted]
  | cons c cs ih =>
    simp only [List.mem_cons, not_or] at h
    have hc : c ≠ '"' := fun e => h.1 e.symm
    rw [List.cons_append, readQuoted.eq_def]
    split <;> simp_all

/-- C66 partial: for every non-empty identifier without a double quote, the quoted form is a SQL token
denoting exactly that identifier. Missing: identifiers containing a double quote. -/
theorem C66_quote_partial (isKeyword : List Char → Bool) (s : List Char) (hne : s ≠ []) (h : '"' ∉ s) :
    denotes isKeyword (quoteIdent isKeyword s) = some s := by
  obtain ⟨c, cs, rfl⟩ := List.exists_cons_of_ne_nil hne
  unfold quoteIdent
  simp only [List.isEmpty_cons, Bool.false_eq_true, if_false]
  by_cases hm : (matchesIdent (c :: cs) && !isKeyword (c :: cs)) = true
  · simp only [hm, if_true]
    have hc : c ≠ '"' := by
      intro e; apply h; simp [e]
    have hm' := hm
    simp only [matchesIdent, Bool.and_eq_true, Bool.not_eq_true', List.all_eq_true] at hm'
    obtain ⟨⟨m1, m2⟩, m3⟩ := hm'
    have hl : (c :: cs).map Char.toLower = c :: cs := by
      rw [List.map_cons, (identStart_spec m1).2]
      congr 1
      exact (List.map_congr_left (fun x hx => (identRest_spec (m2 x hx)).2)).trans (List.map_id _)
    have hw : sqlWordStart c = true := (identStart_spec m1).1
    have hws : cs.all sqlWordChar = true := List.all_eq_true.2 (fun x hx => (identRest_spec (m2 x hx)).1)
    rw [denotes.eq_def]
    split
    · rename_i heq; simp at heq
    · rename_i heq; simp only [List.cons.injEq] at heq; exact absurd heq.1 hc
    · rename_i c' cs' _ heq
      simp only [List.cons.injEq] at heq
      obtain ⟨rfl, rfl⟩ := heq
      rw [hl, hw, hws, m3]; rfl
  · simp only [hm, Bool.false_eq_true, if_false]
    rw [denotes.eq_def]
    simp only
    exact readQuoted_append _ h

example : "movie title".toList ≠ [] ∧ '"' ∉ "movie title".toList := by decide

/-- C66 violated: a double quote inside an identifier is not escaped; the result is no SQL token. -/
theorem C66_quote_violated :
    denotes (fun _ => false) (quoteIdent (fun _ => false) ['a', '"', 'b']) = none := by
  decide

/-- C66 partial: quoting distinguishes identifiers (no two identifiers without double quotes get the same text). -/
theorem C66_quote_injective_partial (isKeyword : List Char → Bool) (s t : List Char)
    (hs : s ≠ []) (ht : t ≠ []) (h1 : '"' ∉ s) (h2 : '"' ∉ t)
    (h : quoteIdent isKeyword s = quoteIdent isKeyword t) : s = t := by
  have a := C66_quote_partial isKeyword s hs h1
  have b := C66_quote_partial isKeyword t ht h2
  rw [h, b] at a
  exact (Option.some.inj a).symm

end PB.RefProps
