import Verif.Model.Schema
import Mathlib.Tactic.Common
import Mathlib.Data.List.Nodup
import Mathlib.Logic.Relation

/-!
# C168–C175: schema information
-/

set_option linter.unusedSimpArgs false
set_option linter.unusedVariables false
set_option linter.unnecessarySimpa false
set_option linter.unnecessarySeqFocus false

namespace PB.SchemaProps

open PB.Schema

/-! ## Specification -/

/-- The schema that a table reference denotes: the one that is written, otherwise the default. -/
def Denotes (default : String) (t : Tab) (s : String) : Prop :=
  (t.schema ≠ "" ∧ s = t.schema) ∨ (t.schema = "" ∧ s = default)

/-- The column is part of the primary key of its table. -/
def InPrimaryKey (cat : Catalog) (s t c : String) : Prop :=
  ∃ k ∈ cat.cons, k.kind = .primary ∧ k.schema = s ∧ k.table = t ∧ c ∈ k.cols

/-- The column is part of a constraint of the given kind. -/
def InConstraint (cat : Catalog) (kind : CKind) (s t c : String) : Prop :=
  ∃ k ∈ cat.cons, k.kind = kind ∧ k.schema = s ∧ k.table = t ∧ c ∈ k.cols

/-- The index contains the column. -/
def Covers (i : Idx) (s t c : String) : Prop := i.schema = s ∧ i.table = t ∧ c ∈ i.cols

/-- The column `c` of table `s.t` references the column `c'` of table `s'.t'`. -/
def References (cat : Catalog) (s t c s' t' c' : String) : Prop :=
  ∃ k ∈ cat.cons, k.kind = .foreign ∧ k.schema = s ∧ k.table = t ∧ k.refSchema = s' ∧ k.refTable = t' ∧
    ∃ i : Nat, k.cols[i]? = some c ∧ k.refCols[i]? = some c'

/-- The names of constraints are unique. (The SQL standard demands this for each schema; Postgres does not.) -/
def DistinctNames (cat : Catalog) : Prop := ∀ c ∈ cat.cons, ∀ d ∈ cat.cons, c.name = d.name → c = d

/-- Foreign keys have one column. -/
def SimpleKeys (cat : Catalog) : Prop :=
  ∀ k ∈ cat.cons, k.kind = .foreign → ∃ a b, k.cols = [a] ∧ k.refCols = [b]

/-- Foreign keys do not leave the schema. -/
def LocalKeys (cat : Catalog) : Prop := ∀ k ∈ cat.cons, k.kind = .foreign → k.refSchema = k.schema

/-! ## Lemmas about the views and their joins -/

theorem base_schema {cat : Catalog} {t : Tab} {s : String} (h : Denotes cat.cur t s) : Base.schemaOf cat t = s := by
  unfold Base.schemaOf
  rcases h with ⟨h, rfl⟩ | ⟨h, rfl⟩ <;> simp [h]

theorem pg_schema {t : Tab} {s : String} (h : Denotes "public" t s) : Pg.schemaOf t = s := by
  unfold Pg.schemaOf
  rcases h with ⟨h, rfl⟩ | ⟨h, rfl⟩ <;> simp [h]

theorem mem_ccu (cat : Catalog) (u : UsageRow) : u ∈ ccu cat ↔
    ∃ d ∈ cat.cons, (d.kind = .foreign ∧ ∃ x ∈ d.refCols, u = ⟨d.name, d.schema, d.refSchema, d.refTable, x⟩) ∨
      (d.kind ≠ .foreign ∧ ∃ x ∈ d.cols, u = ⟨d.name, d.schema, d.schema, d.table, x⟩) := by
  unfold ccu
  rw [List.mem_flatMap]
  constructor
  · rintro ⟨d, hd, h⟩
    refine ⟨d, hd, ?_⟩
    split at h
    · rename_i hk
      obtain ⟨x, hx, rfl⟩ := List.mem_map.mp h
      exact Or.inl ⟨hk, x, hx, rfl⟩
    · rename_i hk
      obtain ⟨x, hx, rfl⟩ := List.mem_map.mp h
      exact Or.inr ⟨hk, x, hx, rfl⟩
  · rintro ⟨d, hd, ⟨hk, x, hx, rfl⟩ | ⟨hk, x, hx, rfl⟩⟩
    · exact ⟨d, hd, by rw [if_pos hk]; exact List.mem_map.mpr ⟨x, hx, rfl⟩⟩
    · exact ⟨d, hd, by rw [if_neg hk]; exact List.mem_map.mpr ⟨x, hx, rfl⟩⟩

theorem mem_kcu (cat : Catalog) (u : UsageRow) : u ∈ kcu cat ↔
    ∃ d ∈ cat.cons, d.kind ≠ .check ∧ ∃ x ∈ d.cols, u = ⟨d.name, d.schema, d.schema, d.table, x⟩ := by
  unfold kcu
  simp only [List.mem_flatMap, List.mem_filter, List.mem_map, bne_iff_ne, and_assoc]
  constructor
  · rintro ⟨d, h1, h2, x, hx, rfl⟩; exact ⟨d, h1, h2, x, hx, rfl⟩
  · rintro ⟨d, h1, h2, x, hx, rfl⟩; exact ⟨d, h1, h2, x, hx, rfl⟩

theorem mem_tc (cat : Catalog) (t : TcRow) : t ∈ tc cat ↔ ∃ c ∈ cat.cons, t = ⟨c.name, c.schema, c.table, c.kind⟩ := by
  unfold tc
  simp only [List.mem_map, eq_comm]

theorem mem_tcCcu (cat : Catalog) (t : TcRow) (u : UsageRow) : (t, u) ∈ Base.tcCcu cat ↔
    t ∈ tc cat ∧ u ∈ ccu cat ∧ t.name = u.name ∧ t.schema = u.schema ∧ t.table = u.table := by
  unfold Base.tcCcu
  simp only [List.mem_flatMap, List.mem_map, List.mem_filter, Prod.mk.injEq, Bool.and_eq_true, beq_iff_eq]
  constructor
  · rintro ⟨t', ht, u', ⟨hu, ⟨h1, h2⟩, h3⟩, rfl, rfl⟩
    exact ⟨ht, hu, h1, h2, h3⟩
  · rintro ⟨ht, hu, h1, h2, h3⟩
    exact ⟨t, ht, u, ⟨hu, ⟨h1, h2⟩, h3⟩, rfl, rfl⟩

theorem mem_tcKcu (cat : Catalog) (t : TcRow) (u : UsageRow) : (t, u) ∈ Base.tcKcu cat ↔
    t ∈ tc cat ∧ u ∈ kcu cat ∧ t.name = u.name ∧ t.schema = u.schema ∧ t.table = u.table := by
  unfold Base.tcKcu
  simp only [List.mem_flatMap, List.mem_map, List.mem_filter, Prod.mk.injEq, Bool.and_eq_true, beq_iff_eq]
  constructor
  · rintro ⟨t', ht, u', ⟨hu, ⟨h1, h2⟩, h3⟩, rfl, rfl⟩
    exact ⟨ht, hu, h1, h2, h3⟩
  · rintro ⟨ht, hu, h1, h2, h3⟩
    exact ⟨t, ht, u, ⟨hu, ⟨h1, h2⟩, h3⟩, rfl, rfl⟩

/-- With distinct names, the join of constraints and used columns gives the columns of the constraint. -/
theorem any_tcCcu (cat : Catalog) (hn : DistinctNames cat) (kind : CKind) (hk : kind ≠ .foreign) (s t c : String) :
    ((Base.tcCcu cat).any fun (r, u) => r.table == t && u.col == c && r.kind == kind && r.schema == s) = true ↔
      InConstraint cat kind s t c := by
  rw [List.any_eq_true]
  constructor
  · rintro ⟨⟨r, u⟩, hm, h⟩
    simp only [Bool.and_eq_true, beq_iff_eq] at h
    obtain ⟨⟨⟨h1, h2⟩, h3⟩, h4⟩ := h
    obtain ⟨hr, hu, e1, e2, e3⟩ := (mem_tcCcu cat r u).mp hm
    obtain ⟨k, hkm, rfl⟩ := (mem_tc cat r).mp hr
    obtain ⟨d, hd, ⟨hdk, x, hx, rfl⟩ | ⟨hdk, x, hx, rfl⟩⟩ := (mem_ccu cat u).mp hu
    · have := hn k hkm d hd e1
      subst this
      exact absurd (h3.symm.trans hdk) hk
    · have := hn k hkm d hd e1
      subst this
      simp only at h1 h2 h3 h4
      exact ⟨k, hkm, h3, h4, h1, h2 ▸ hx⟩
  · rintro ⟨k, hkm, h1, h2, h3, h4⟩
    refine ⟨(⟨k.name, k.schema, k.table, k.kind⟩, ⟨k.name, k.schema, k.schema, k.table, c⟩), ?_, ?_⟩
    · rw [mem_tcCcu]
      refine ⟨(mem_tc _ _).mpr ⟨k, hkm, rfl⟩, (mem_ccu _ _).mpr ⟨k, hkm, Or.inr ⟨?_, c, h4, rfl⟩⟩, rfl, rfl, rfl⟩
      rw [h1]; exact hk
    · simp [h1, h2, h3]

/-- The join of constraints and constrained columns gives the columns of the constraint, provided that names are distinct. -/
theorem any_tcKcu (cat : Catalog) (hn : DistinctNames cat) (kind : CKind) (hk : kind ≠ .check) (s t c : String) :
    ((Base.tcKcu cat).any fun (r, u) => r.table == t && u.col == c && r.kind == kind && r.schema == s) = true ↔
      InConstraint cat kind s t c := by
  rw [List.any_eq_true]
  constructor
  · rintro ⟨⟨r, u⟩, hm, h⟩
    simp only [Bool.and_eq_true, beq_iff_eq] at h
    obtain ⟨⟨⟨h1, h2⟩, h3⟩, h4⟩ := h
    obtain ⟨hr, hu, e1, e2, e3⟩ := (mem_tcKcu cat r u).mp hm
    obtain ⟨k, hkm, rfl⟩ := (mem_tc cat r).mp hr
    obtain ⟨d, hd, hdk, x, hx, rfl⟩ := (mem_kcu cat u).mp hu
    have := hn k hkm d hd e1
    subst this
    simp only at h1 h2 h3 h4
    exact ⟨k, hkm, h3, h4, h1, h2 ▸ hx⟩
  · rintro ⟨k, hkm, h1, h2, h3, h4⟩
    refine ⟨(⟨k.name, k.schema, k.table, k.kind⟩, ⟨k.name, k.schema, k.schema, k.table, c⟩), ?_, ?_⟩
    · rw [mem_tcKcu]
      refine ⟨(mem_tc _ _).mpr ⟨k, hkm, rfl⟩, (mem_kcu _ _).mpr ⟨k, hkm, ?_, c, h4, rfl⟩, rfl, rfl, rfl⟩
      rw [h1]; exact hk
    · simp [h1, h2, h3]

/-! ## A catalog for examples -/

/-- Two tables, a primary key, a foreign key and three indexes. -/
def shop : Catalog where
  cur := "public"
  tabs := [⟨"public", "users", false, [⟨"id", "integer", false⟩, ⟨"mail", "text", true⟩]⟩,
    ⟨"public", "orders", false, [⟨"nr", "integer", false⟩, ⟨"uid", "integer", true⟩]⟩]
  cons := [{ kind := .primary, name := "users_pkey", schema := "public", table := "users", cols := ["id"] },
    { kind := .unique, name := "users_mail_key", schema := "public", table := "users", cols := ["mail"] },
    { kind := .primary, name := "orders_pkey", schema := "public", table := "orders", cols := ["nr"] },
    { kind := .foreign, name := "orders_uid_fkey", schema := "public", table := "orders", cols := ["uid"],
      refSchema := "public", refTable := "users", refCols := ["id"] }]
  idxs := [⟨"users_pkey", "public", "users", ["id"], true⟩, ⟨"users_mail_key", "public", "users", ["mail"], false⟩,
    ⟨"orders_pkey", "public", "orders", ["nr"], true⟩]

theorem shop_names : DistinctNames shop := by
  intro c hc d hd h
  simp only [shop, List.mem_cons, List.not_mem_nil, or_false] at hc hd
  rcases hc with rfl | rfl | rfl | rfl <;> rcases hd with rfl | rfl | rfl | rfl <;> first | rfl | (exfalso; revert h; decide)

theorem shop_simple : SimpleKeys shop := by
  intro k hk hf
  simp only [shop, List.mem_cons, List.not_mem_nil, or_false] at hk
  rcases hk with rfl | rfl | rfl | rfl <;> simp at hf ⊢

theorem shop_local : LocalKeys shop := by
  intro k hk hf
  simp only [shop, List.mem_cons, List.not_mem_nil, or_false] at hk
  rcases hk with rfl | rfl | rfl | rfl <;> simp at hf ⊢

/-! ## C168: primary keys -/

/-- **C168** (partial).  If the names of constraints are unique, the generic interface recognises exactly the columns of the
primary keys.

Missing: constraints of different tables with the same name (`C168_names_violated`). -/
theorem C168_primary_partial (cat : Catalog) (hn : DistinctNames cat) (c : Col) (s : String)
    (hs : Denotes cat.cur c.table s) :
    Base.isPrimaryKey cat c = true ↔ InPrimaryKey cat s c.table.name c.name := by
  unfold Base.isPrimaryKey
  rw [base_schema hs]
  exact any_tcCcu cat hn .primary (by decide) s c.table.name c.name

example : InPrimaryKey shop "public" "users" "id" ∧ ¬ InPrimaryKey shop "public" "users" "mail" := by
  constructor
  · exact ⟨_, List.mem_cons_self, rfl, rfl, rfl, by decide⟩
  · rintro ⟨k, hk, h1, h2, h3, h4⟩
    simp only [shop, List.mem_cons, List.not_mem_nil, or_false] at hk
    rcases hk with rfl | rfl | rfl | rfl <;> simp_all

/-- Postgres only demands unique names of constraints for each table.  If a foreign key of another table has the name of a
primary key, the column that it references counts as a primary key. -/
theorem C168_names_violated : ∃ cat : Catalog, ∃ c : Col, ¬ InPrimaryKey cat "public" c.table.name c.name ∧
    Base.isPrimaryKey cat c = true := by
  refine ⟨{ cur := "public", tabs := [], idxs := [], cons :=
    [{ kind := .primary, name := "k", schema := "public", table := "users", cols := ["id"] },
     { kind := .foreign, name := "k", schema := "public", table := "orders", cols := ["mail"], refSchema := "public",
       refTable := "users", refCols := ["mail"] }] }, ⟨"mail", ⟨"users", "", false⟩⟩, ?_, by decide +kernel⟩
  rintro ⟨k, hk, h1, h2, h3, h4⟩
  simp only [List.mem_cons, List.not_mem_nil, or_false] at hk
  rcases hk with rfl | rfl <;> simp_all

theorem flatMap_single {α β : Type} {l : List α} (hl : l.Nodup) {k : α} (hk : k ∈ l) (f : α → List β)
    (h : ∀ x ∈ l, x ≠ k → f x = []) : l.flatMap f = f k := by
  induction l with
  | nil => simp at hk
  | cons a l ih =>
    rw [List.nodup_cons] at hl
    rw [List.flatMap_cons]
    by_cases ha : a = k
    · subst ha
      have : l.flatMap f = [] := by
        rw [List.flatMap_eq_nil_iff]
        intro x hx
        exact h x (by simp [hx]) (fun e => hl.1 (e ▸ hx))
      rw [this, List.append_nil]
    · rw [h a (by simp) ha, List.nil_append]
      exact ih hl.2 (by simpa [Ne.symm ha] using hk) (fun x hx => h x (by simp [hx]))

theorem filter_flatMap {α β : Type} (l : List α) (f : α → List β) (p : β → Bool) :
    (l.flatMap f).filter p = l.flatMap fun a => (f a).filter p := by
  induction l with
  | nil => rfl
  | cons a l ih => rw [List.flatMap_cons, List.filter_append, ih, List.flatMap_cons]

/-- **C168** (partial).  The primary key column of a table is its only one; tables without a primary key have none, and
tables with a composite primary key are rejected. -/
theorem C168_key_column_partial (cat : Catalog) (hn : DistinctNames cat) (hd : cat.cons.Nodup) (t : Tab) (s : String)
    (hs : Denotes cat.cur t s) :
    ((∀ k ∈ cat.cons, k.kind = .primary → k.schema = s → k.table ≠ t.name) → Base.primaryKeyColumn cat t = some none) ∧
    (∀ k ∈ cat.cons, k.kind = .primary → k.schema = s → k.table = t.name →
      (∀ k' ∈ cat.cons, k'.kind = .primary → k'.schema = s → k'.table = t.name → k' = k) →
      (∀ x, k.cols = [x] → Base.primaryKeyColumn cat t = some (some ⟨x, t⟩)) ∧
      (2 ≤ k.cols.length → Base.primaryKeyColumn cat t = none)) := by
  have hsch := base_schema hs
  constructor
  · intro h
    have : ((Base.tcCcu cat).filter fun (r, _) =>
        r.table == t.name && r.kind == .primary && r.schema == Base.schemaOf cat t) = [] := by
      rw [List.filter_eq_nil_iff]
      rintro ⟨r, u⟩ hm
      obtain ⟨hr, _⟩ := (mem_tcCcu cat r u).mp hm
      obtain ⟨k, hk, rfl⟩ := (mem_tc cat r).mp hr
      rw [hsch]
      simp only [Bool.and_eq_true, beq_iff_eq, not_and]
      rintro ⟨h1, h2⟩ h3
      exact h k hk h2 h3 h1
    unfold Base.primaryKeyColumn
    simp only [this]
  · intro k hk h1 h2 h3 hu
    have hrows : ((Base.tcCcu cat).filter fun (r, _) =>
        r.table == t.name && r.kind == .primary && r.schema == Base.schemaOf cat t) =
        k.cols.map fun x => (⟨k.name, k.schema, k.table, k.kind⟩, ⟨k.name, k.schema, k.schema, k.table, x⟩) := by
      rw [hsch]
      unfold Base.tcCcu tc
      rw [filter_flatMap, List.flatMap_map]
      rw [flatMap_single hd hk]
      · unfold ccu
        rw [filter_flatMap, flatMap_single hd hk]
        · rw [if_neg (by rw [h1]; decide)]
          rw [List.filter_eq_self.mpr (by simp [h1, h2, h3])]
          rw [List.filter_eq_self.mpr (by simp), List.map_map]
          rfl
        · intro d hdm hne
          have : k.name ≠ d.name := fun e => hne (hn k hk d hdm e).symm
          split <;> simp [this]
      · intro d hdm hne
        rw [List.filter_eq_nil_iff]
        rintro ⟨r, u⟩ hm
        simp only [List.mem_map, Prod.mk.injEq] at hm
        obtain ⟨u', _, rfl, rfl⟩ := hm
        simp only [Bool.and_eq_true, beq_iff_eq, not_and]
        rintro ⟨e1, e2⟩ e3
        exact hne (hu d hdm e2 e3 e1)
    constructor
    · intro x hx
      unfold Base.primaryKeyColumn
      simp only [hrows, hx, List.map_cons, List.map_nil]
    · intro hl
      match hc : k.cols, hl with
      | a :: b :: l, _ =>
        unfold Base.primaryKeyColumn
        simp only [hrows, hc, List.map_cons]

example : Base.primaryKeyColumn shop ⟨"users", "", false⟩ = some (some ⟨"id", ⟨"users", "", false⟩⟩) := by decide +kernel

/-! ### Indexes of Postgres -/

/-- The last index that contains the column decides. -/
theorem fetch_spec (cat : Catalog) (c : Col) (s : String) (hs : Denotes "public" c.table s) (b : Bool) :
    Dict.get? (Pg.fetchIndexes cat c.table) c.name = some b →
      ∃ i ∈ cat.idxs, Covers i s c.table.name c.name ∧ i.primary = b := by
  intro h
  unfold Pg.fetchIndexes Dict.ofList at h
  have h' := Dict.get?_update_list ([] : Dict String Bool)
    ((cat.idxs.filter fun i => i.table == c.table.name && i.schema == Pg.schemaOf c.table).flatMap fun i =>
      i.cols.map fun x => (x, i.primary)) c.name
  rw [show Dict.update _ _ = _ from rfl] at h'
  unfold Dict.update at h'
  rw [h'] at h
  simp only [Dict.get?, Option.or_none] at h
  have := Dict.mem_of_get? h
  rw [List.mem_reverse, List.mem_flatMap] at this
  obtain ⟨i, hi, hm⟩ := this
  obtain ⟨x, hx, he⟩ := List.mem_map.mp hm
  simp only [Prod.mk.injEq] at he
  simp only [List.mem_filter, Bool.and_eq_true, beq_iff_eq] at hi
  rw [pg_schema hs] at hi
  exact ⟨i, hi.1, ⟨hi.2.2, hi.2.1, he.1 ▸ hx⟩, he.2⟩

theorem fetch_none (cat : Catalog) (c : Col) (s : String) (hs : Denotes "public" c.table s) :
    Dict.get? (Pg.fetchIndexes cat c.table) c.name = none ↔ ∀ i ∈ cat.idxs, ¬ Covers i s c.table.name c.name := by
  have h' := Dict.get?_update_list ([] : Dict String Bool)
    ((cat.idxs.filter fun i => i.table == c.table.name && i.schema == Pg.schemaOf c.table).flatMap fun i =>
      i.cols.map fun x => (x, i.primary)) c.name
  unfold Dict.update at h'
  unfold Pg.fetchIndexes Dict.ofList
  rw [h']
  simp only [Dict.get?, Option.or_none]
  rw [Dict.get?_eq_none]
  simp only [Dict.keys, List.map_reverse, List.mem_reverse, List.mem_map, List.mem_flatMap, List.mem_filter,
    Bool.and_eq_true, beq_iff_eq, pg_schema hs]
  constructor
  · rintro h i hi ⟨h1, h2, h3⟩
    exact h ⟨(c.name, i.primary), ⟨i, ⟨hi, h2, h1⟩, c.name, h3, rfl⟩, rfl⟩
  · rintro h ⟨p, ⟨i, ⟨hi, h2, h1⟩, x, hx, rfl⟩, rfl⟩
    exact h i hi ⟨h1, h2, hx⟩

/-- **C168** (partial).  On Postgres, a column is a primary key exactly if the index of a primary key contains it — if it is not
contained in another index as well (`C169_both_violated`). -/
theorem C168_postgres_partial (cat : Catalog) (c : Col) (s : String) (hs : Denotes "public" c.table s)
    (hv : c.table.isVirtual = false)
    (hone : (∀ i ∈ cat.idxs, Covers i s c.table.name c.name → i.primary = true) ∨
      (∀ i ∈ cat.idxs, Covers i s c.table.name c.name → i.primary = false)) :
    ∃ b, Pg.isPrimaryKey cat c = some b ∧
      (b = true ↔ ∃ i ∈ cat.idxs, Covers i s c.table.name c.name ∧ i.primary = true) := by
  refine ⟨_, by rw [Pg.isPrimaryKey, if_neg (by simp [hv])], ?_⟩
  cases h : Dict.get? (Pg.fetchIndexes cat c.table) c.name with
  | none =>
    have := (fetch_none cat c s hs).mp h
    simp only [Option.getD_none, Bool.false_eq_true, false_iff]
    rintro ⟨i, hi, hc, _⟩
    exact this i hi hc
  | some b =>
    obtain ⟨i, hi, hc, hb⟩ := fetch_spec cat c s hs b h
    simp only [Option.getD_some]
    constructor
    · rintro rfl; exact ⟨i, hi, hc, hb⟩
    · rintro ⟨j, hj, hcj, hbj⟩
      rcases hone with ho | ho
      · rw [← hb]; exact ho i hi hc
      · rw [ho j hj hcj] at hbj; exact absurd hbj (by simp)

example : Pg.isPrimaryKey shop ⟨"id", ⟨"users", "", false⟩⟩ = some true ∧
    Pg.isPrimaryKey shop ⟨"mail", ⟨"users", "", false⟩⟩ = some false := by decide +kernel

/-! ## C169: secondary indexes -/

/-- **C169** (partial).  If the names of constraints are unique, the generic interface reports exactly the columns of *UNIQUE* and
*FOREIGN KEY* constraints as columns with a secondary index. -/
theorem C169_secondary_partial (cat : Catalog) (hn : DistinctNames cat) (c : Col) (s : String)
    (hs : Denotes cat.cur c.table s) :
    Base.hasSecondaryIndex cat c = true ↔
      InConstraint cat .unique s c.table.name c.name ∨ InConstraint cat .foreign s c.table.name c.name := by
  unfold Base.hasSecondaryIndex
  rw [base_schema hs, Bool.or_eq_true, any_tcCcu cat hn .unique (by decide), any_tcKcu cat hn .foreign (by decide)]

/-- The generic interface does not know indexes that do not belong to constraints, and takes foreign keys for indexes. -/
theorem C169_constraints_violated : ∃ cat : Catalog, ∃ c d : Col, DistinctNames cat ∧
    (∃ i ∈ cat.idxs, Covers i "public" c.table.name c.name) ∧ Base.hasIndex cat c = false ∧
    (∀ i ∈ cat.idxs, ¬ Covers i "public" d.table.name d.name) ∧ Base.hasIndex cat d = true := by
  refine ⟨{ shop with idxs := ⟨"i", "public", "orders", ["x"], false⟩ :: shop.idxs }, ⟨"x", ⟨"orders", "", false⟩⟩,
    ⟨"uid", ⟨"orders", "", false⟩⟩, shop_names, ?_, by decide +kernel, ?_, by decide +kernel⟩
  · exact ⟨_, List.mem_cons_self, rfl, rfl, by decide⟩
  · intro i hi
    simp only [shop, List.mem_cons, List.not_mem_nil, or_false] at hi
    rcases hi with rfl | rfl | rfl | rfl <;> simp [Covers]

/-- **C169** (partial).  On Postgres, a column has a secondary index exactly if an index contains it that does not belong to a
primary key — if it is not contained in the index of the primary key as well. -/
theorem C169_postgres_partial (cat : Catalog) (c : Col) (s : String) (hs : Denotes "public" c.table s)
    (hv : c.table.isVirtual = false)
    (hone : (∀ i ∈ cat.idxs, Covers i s c.table.name c.name → i.primary = true) ∨
      (∀ i ∈ cat.idxs, Covers i s c.table.name c.name → i.primary = false)) :
    ∃ b, Pg.hasSecondaryIndex cat c = some b ∧
      (b = true ↔ ∃ i ∈ cat.idxs, Covers i s c.table.name c.name ∧ i.primary = false) := by
  refine ⟨_, by rw [Pg.hasSecondaryIndex, if_neg (by simp [hv])], ?_⟩
  cases h : Dict.get? (Pg.fetchIndexes cat c.table) c.name with
  | none =>
    have := (fetch_none cat c s hs).mp h
    simp only [Option.getD_none, Bool.not_true, Bool.false_eq_true, false_iff]
    rintro ⟨i, hi, hc, _⟩
    exact this i hi hc
  | some b =>
    obtain ⟨i, hi, hc, hb⟩ := fetch_spec cat c s hs b h
    simp only [Option.getD_some, Bool.not_eq_true']
    constructor
    · rintro rfl; exact ⟨i, hi, hc, hb⟩
    · rintro ⟨j, hj, hcj, hbj⟩
      rcases hone with ho | ho
      · rw [ho j hj hcj] at hbj; exact absurd hbj (by simp)
      · rw [← hb]; exact ho i hi hc

/-- If a column belongs to the primary key *and* to a secondary index, one of the two answers is wrong, whatever the order of
the indexes is. -/
theorem C169_both_violated (cat : Catalog) (c : Col) (s : String) (hs : Denotes "public" c.table s)
    (hv : c.table.isVirtual = false) (i j : Idx) (hi : i ∈ cat.idxs) (hj : j ∈ cat.idxs)
    (hci : Covers i s c.table.name c.name) (hcj : Covers j s c.table.name c.name) (hp : i.primary = true)
    (hq : j.primary = false) :
    Pg.isPrimaryKey cat c = some false ∨ Pg.hasSecondaryIndex cat c = some false := by
  unfold Pg.isPrimaryKey Pg.hasSecondaryIndex
  rw [if_neg (by simp [hv]), if_neg (by simp [hv])]
  cases h : Dict.get? (Pg.fetchIndexes cat c.table) c.name with
  | none => exact absurd hci ((fetch_none cat c s hs).mp h i hi)
  | some b => cases b <;> simp

/-- For example, an additional index on the primary key hides it. -/
example : Pg.isPrimaryKey { shop with idxs := shop.idxs ++ [⟨"i", "public", "users", ["id", "mail"], false⟩] }
    ⟨"id", ⟨"users", "", false⟩⟩ = some false := by decide +kernel

/-- **C169**.  On Postgres, the question whether there is any index on a column is always answered correctly, and the indexes
on a column are exactly those that contain it. -/
theorem C169_indexes (cat : Catalog) (c : Col) (s : String) (hs : Denotes "public" c.table s)
    (hv : c.table.isVirtual = false) :
    (∃ p q l, Pg.isPrimaryKey cat c = some p ∧ Pg.hasSecondaryIndex cat c = some q ∧ Pg.indexesOn cat c = some l ∧
      ((p || q) = true ↔ ∃ i ∈ cat.idxs, Covers i s c.table.name c.name) ∧
      ∀ n, n ∈ l ↔ ∃ i ∈ cat.idxs, Covers i s c.table.name c.name ∧ i.name = n) := by
  refine ⟨_, _, _, by rw [Pg.isPrimaryKey, if_neg (by simp [hv])], by rw [Pg.hasSecondaryIndex, if_neg (by simp [hv])],
    by rw [Pg.indexesOn, if_neg (by simp [hv])], ?_, ?_⟩
  · cases h : Dict.get? (Pg.fetchIndexes cat c.table) c.name with
    | none =>
      have := (fetch_none cat c s hs).mp h
      simp only [Option.getD_none, Bool.not_true, Bool.or_self, Bool.false_eq_true, false_iff]
      rintro ⟨i, hi, hc⟩
      exact this i hi hc
    | some b =>
      obtain ⟨i, hi, hc, _⟩ := fetch_spec cat c s hs b h
      simp only [Option.getD_some]
      constructor
      · intro _; exact ⟨i, hi, hc⟩
      · intro _; cases b <;> rfl
  · intro n
    simp only [List.mem_map, List.mem_filter, Bool.and_eq_true, beq_iff_eq, List.contains_iff_mem, pg_schema hs]
    constructor
    · rintro ⟨i, ⟨hi, ⟨h1, h2⟩, h3⟩, rfl⟩; exact ⟨i, hi, ⟨h3, h1, h2⟩, rfl⟩
    · rintro ⟨i, hi, ⟨h3, h1, h2⟩, rfl⟩; exact ⟨i, ⟨hi, ⟨h1, h2⟩, h3⟩, rfl⟩

/-! ## C170: foreign keys -/

theorem pair_index {a b c d : String} : (∃ i : Nat, [a][i]? = some c ∧ [b][i]? = some d) ↔ a = c ∧ b = d := by
  constructor
  · rintro ⟨i, h1, h2⟩
    match i with
    | 0 => simp at h1 h2; exact ⟨h1, h2⟩
    | i + 1 => simp at h1
  · rintro ⟨rfl, rfl⟩; exact ⟨0, rfl, rfl⟩

/-- The rows of the query of Postgres. -/
theorem mem_pg_fk (cat : Catalog) (c r : Col) (s : String) (hs : Denotes "public" c.table s)
    (hv : c.table.isVirtual = false) :
    (∃ l, Pg.foreignKeysOn cat c = some l ∧ r ∈ l) ↔
      ∃ k ∈ cat.cons, ∃ t ∈ cat.cons, ∃ u ∈ ccu cat, k.kind ≠ .check ∧ c.name ∈ k.cols ∧ k.schema = s ∧
        k.table = c.table.name ∧ t.name = k.name ∧ t.schema = s ∧ t.kind = .foreign ∧ u.name = k.name ∧ u.schema = s ∧
        r = ⟨u.col, ⟨u.table, "", false⟩⟩ := by
  have he : Pg.foreignKeysOn cat c = some ((kcu cat).flatMap fun k =>
    ((tc cat).filter fun t => k.name == t.name && k.schema == t.schema).flatMap fun t =>
      ((ccu cat).filter fun u => k.name == u.name && k.schema == u.schema &&
          k.table == c.table.name && k.col == c.name && k.schema == Pg.schemaOf c.table && t.kind == .foreign).map
        fun u => ⟨u.col, ⟨u.table, "", false⟩⟩) := by
    rw [Pg.foreignKeysOn, if_neg (by simp [hv])]
  rw [he]
  simp only [Option.some.injEq, exists_eq_left', List.mem_flatMap, List.mem_filter, List.mem_map, Bool.and_eq_true,
    beq_iff_eq, pg_schema hs]
  constructor
  · rintro ⟨k', hk', t', ⟨ht', e1, e2⟩, u, ⟨hu, ⟨⟨⟨⟨e3, e4⟩, e5⟩, e6⟩, e7⟩, e8⟩, rfl⟩
    obtain ⟨k, hk, hkk, x, hx, rfl⟩ := (mem_kcu cat k').mp hk'
    obtain ⟨t, ht, rfl⟩ := (mem_tc cat t').mp ht'
    simp only at e1 e2 e3 e4 e5 e6 e7 e8
    exact ⟨k, hk, t, ht, u, hu, hkk, e6 ▸ hx, e7, e5, e1.symm, e2.symm.trans e7, e8, e3.symm, e4.symm.trans e7, rfl⟩
  · rintro ⟨k, hk, t, ht, u, hu, hkk, hx, e1, e2, e3, e4, e5, e6, e7, rfl⟩
    refine ⟨⟨k.name, k.schema, k.schema, k.table, c.name⟩, (mem_kcu _ _).mpr ⟨k, hk, hkk, c.name, hx, rfl⟩,
      ⟨t.name, t.schema, t.table, t.kind⟩, ⟨(mem_tc _ _).mpr ⟨t, ht, rfl⟩, e3.symm, e1.trans e4.symm⟩, u,
      ⟨hu, ⟨⟨⟨⟨e6.symm, e1.trans e7.symm⟩, e2⟩, rfl⟩, e1⟩, e5⟩, rfl⟩

/-- **C170** (partial).  On Postgres, the foreign keys on a column are exactly the columns that it references, if the names of
constraints are unique, foreign keys have a single column and do not leave the schema.

Missing: see the `_violated` theorems. -/
theorem C170_postgres_partial (cat : Catalog) (hn : DistinctNames cat) (hk1 : SimpleKeys cat) (hk2 : LocalKeys cat)
    (c : Col) (s : String) (hs : Denotes "public" c.table s) (hv : c.table.isVirtual = false) :
    ∃ l, Pg.foreignKeysOn cat c = some l ∧
      ∀ r, r ∈ l ↔ ∃ t' c', r = ⟨c', ⟨t', "", false⟩⟩ ∧ References cat s c.table.name c.name s t' c' := by
  refine ⟨_, by rw [Pg.foreignKeysOn, if_neg (by simp [hv])], ?_⟩
  intro r
  have key := mem_pg_fk cat c r s hs hv
  rw [Pg.foreignKeysOn, if_neg (by simp [hv])] at key
  simp only [Option.some.injEq, exists_eq_left'] at key
  rw [key]
  constructor
  · rintro ⟨k, hk, t, ht, u, hu, hkk, hx, e1, e2, e3, e4, e5, e6, e7, rfl⟩
    have := hn t ht k hk e3
    subst this
    obtain ⟨d, hd, ⟨hdk, x, hxx, rfl⟩ | ⟨hdk, x, hxx, rfl⟩⟩ := (mem_ccu cat u).mp hu
    · have := hn d hd t ht e6
      subst this
      obtain ⟨a, b, ha, hb⟩ := hk1 d hd hdk
      rw [ha, List.mem_singleton] at hx
      rw [hb, List.mem_singleton] at hxx
      refine ⟨d.refTable, x, rfl, d, hd, hdk, e1, e2, e7, rfl, ?_⟩
      rw [ha, hb, pair_index]
      exact ⟨hx.symm, hxx.symm⟩
    · have := hn d hd t ht e6
      subst this
      exact absurd e5 hdk
  · rintro ⟨t', c', rfl, k, hk, hkf, h1, h2, h3, h4, hi⟩
    obtain ⟨a, b, ha, hb⟩ := hk1 k hk hkf
    rw [ha, hb, pair_index] at hi
    refine ⟨k, hk, k, hk, ⟨k.name, k.schema, k.refSchema, k.refTable, c'⟩, ?_, by rw [hkf]; decide, ?_, h1, h2, rfl, h1, hkf,
      rfl, h3, by rw [h4]⟩
    · exact (mem_ccu _ _).mpr ⟨k, hk, Or.inl ⟨hkf, c', by rw [hb]; simp [hi.2], rfl⟩⟩
    · rw [ha]; simp [hi.1]

example : Pg.foreignKeysOn shop ⟨"uid", ⟨"orders", "", false⟩⟩ = some [⟨"id", ⟨"users", "", false⟩⟩] := by decide +kernel

/-- Every column of a composite foreign key is reported to reference *all* of the referenced columns. -/
theorem C170_composite_violated (cat : Catalog) (k : Constr) (hk : k ∈ cat.cons) (hf : k.kind = .foreign)
    (hl : k.refSchema = k.schema) (hs : k.schema ≠ "") (a b : String) (ha : a ∈ k.cols) (hb : b ∈ k.refCols) :
    ∃ l, Pg.foreignKeysOn cat ⟨a, ⟨k.table, k.schema, false⟩⟩ = some l ∧ ⟨b, ⟨k.refTable, "", false⟩⟩ ∈ l := by
  refine (mem_pg_fk cat ⟨a, ⟨k.table, k.schema, false⟩⟩ _ k.schema (Or.inl ⟨hs, rfl⟩) rfl).mpr
    ⟨k, hk, k, hk, ⟨k.name, k.schema, k.refSchema, k.refTable, b⟩, ?_, by rw [hf]; decide, ha, rfl, rfl, rfl, rfl, hf, rfl, hl,
      rfl⟩
  exact (mem_ccu _ _).mpr ⟨k, hk, Or.inl ⟨hf, b, hb, rfl⟩⟩

/-- A composite foreign key `(a, b) REFERENCES t (x, y)`: `a` does not reference `y`, but is reported to. -/
example : ∃ cat : Catalog, ¬ References cat "public" "r" "a" "public" "t" "y" ∧
    Pg.foreignKeysOn cat ⟨"a", ⟨"r", "", false⟩⟩ = some [⟨"x", ⟨"t", "", false⟩⟩, ⟨"y", ⟨"t", "", false⟩⟩] := by
  refine ⟨{ cur := "public", tabs := [], idxs := [], cons :=
    [{ kind := .foreign, name := "f", schema := "public", table := "r", cols := ["a", "b"], refSchema := "public",
       refTable := "t", refCols := ["x", "y"] }] }, ?_,
    by decide +kernel⟩
  rintro ⟨k, hk, h1, h2, h3, h4, h5, i, h6, h7⟩
  simp only [List.mem_singleton] at hk
  subst hk
  match i with
  | 0 => simp at h7
  | 1 => simp at h6
  | i + 2 => simp at h6

/-- Foreign keys into another schema are not found. -/
theorem C170_schema_violated (cat : Catalog) (c : Col) (s : String) (hs : Denotes "public" c.table s)
    (hv : c.table.isVirtual = false) (hn : DistinctNames cat) (hl : ∀ k ∈ cat.cons, k.kind = .foreign → k.refSchema ≠ s) :
    Pg.foreignKeysOn cat c = some [] := by
  have he : ∃ l, Pg.foreignKeysOn cat c = some l := ⟨_, by rw [Pg.foreignKeysOn, if_neg (by simp [hv])]⟩
  obtain ⟨l, hl'⟩ := he
  rw [hl']
  congr 1
  rw [List.eq_nil_iff_forall_not_mem]
  intro r hr
  obtain ⟨k, hk, t, ht, u, hu, hkk, hx, e1, e2, e3, e4, e5, e6, e7, rfl⟩ := (mem_pg_fk cat c r s hs hv).mp ⟨l, hl', hr⟩
  obtain ⟨d, hd, ⟨hdk, x, hxx, rfl⟩ | ⟨hdk, x, hxx, rfl⟩⟩ := (mem_ccu cat u).mp hu
  · exact hl d hd hdk e7
  · have h1 := hn d hd k hk e6
    have h2 := hn t ht k hk e3
    rw [h1, ← h2] at hdk
    exact hdk e5

/-- A foreign key of table `r` and one of table `s` with the same name (which Postgres permits) are mixed up: a column of `r` is
reported to reference the target of the column of `s`. -/
theorem C170_names_violated : ∃ cat : Catalog, ∃ c r : Col,
    (¬ ∃ t' c', r = ⟨c', ⟨t', "", false⟩⟩ ∧ References cat "public" c.table.name c.name "public" t' c') ∧
    ∃ l, Pg.foreignKeysOn cat c = some l ∧ r ∈ l := by
  refine ⟨{ cur := "public", tabs := [], idxs := [], cons :=
    [{ kind := .foreign, name := "f", schema := "public", table := "r", cols := ["a"], refSchema := "public",
       refTable := "t", refCols := ["x"] },
     { kind := .foreign, name := "f", schema := "public", table := "s", cols := ["b"], refSchema := "public",
       refTable := "u", refCols := ["y"] }] }, ⟨"a", ⟨"r", "", false⟩⟩, ⟨"y", ⟨"u", "", false⟩⟩, ?_,
    ⟨_, by with_unfolding_all rfl, by decide +kernel⟩⟩
  rintro ⟨t', c', he, k, hk, h1, h2, h3, h4, h5, i, h6, h7⟩
  simp only [Col.mk.injEq, Tab.mk.injEq, and_true] at he
  obtain ⟨rfl, rfl⟩ := he
  simp only [List.mem_cons, List.not_mem_nil, or_false] at hk
  rcases hk with rfl | rfl
  · simp at h5
  · simp at h3

/-- The generic interface uses the wrong columns of its result: what it returns is the name of the referenced *table* as the name
of the column, and the name of the *schema* as the name of the table. -/
theorem C170_generic_violated (cat : Catalog) (hn : DistinctNames cat) (c r : Col)
    (h : r ∈ Base.foreignKeysOn cat c) :
    ∃ k ∈ cat.cons, k.kind = .foreign ∧ k.table = c.table.name ∧ c.name ∈ k.cols ∧
      r.name = k.refTable ∧ r.table.name = k.refSchema := by
  unfold Base.foreignKeysOn Base.fkRows at h
  simp only [List.mem_map, List.mem_flatMap, List.mem_filter, Bool.and_eq_true, beq_iff_eq] at h
  obtain ⟨⟨r0, r1, r2⟩, ⟨t', ht', k', ⟨hk', _⟩, u, ⟨hu, ⟨⟨⟨⟨⟨e1, e2⟩, e3⟩, e4⟩, e5⟩, e6⟩⟩, he⟩, rfl⟩ := h
  rename_i h4
  obtain ⟨k, hk, hkk, x, hx, rfl⟩ := (mem_kcu cat k').mp hk'
  obtain ⟨t, ht, rfl⟩ := (mem_tc cat t').mp ht'
  obtain ⟨⟨⟨g1, g2⟩, g3⟩, g4⟩ := h4
  simp only at e1 e2 e3 e4 e5 e6 g1 g2 g3 g4
  have h1 := hn t ht k hk g4
  subst h1
  obtain ⟨d, hd, ⟨hdk, y, hy, rfl⟩ | ⟨hdk, y, hy, rfl⟩⟩ := (mem_ccu cat u).mp hu
  · have h2 := hn t ht d hd e2
    subst h2
    simp only [Prod.mk.injEq] at he
    exact ⟨t, ht, e3, e5, e6 ▸ hx, he.2.1.symm, he.1.symm⟩
  · have h2 := hn t ht d hd e2
    subst h2
    exact absurd e3 hdk

example : Base.foreignKeysOn shop ⟨"uid", ⟨"orders", "", false⟩⟩ = [⟨"users", ⟨"public", "", false⟩⟩] := by decide +kernel

/-- **C170** (partial).  On DuckDB, the foreign keys on a column are exactly the columns that it references, if foreign keys have
a single column. -/
theorem C170_duckdb_partial (cat : Catalog) (hk1 : SimpleKeys cat) (c : Col) (s : String) (hs : Denotes cat.cur c.table s)
    (r : Col) :
    r ∈ Duck.foreignKeysOn cat c ↔
      ∃ s' t' c', r = ⟨c', ⟨t', c.table.schema, false⟩⟩ ∧ References cat s c.table.name c.name s' t' c' := by
  unfold Duck.foreignKeysOn
  simp only [List.mem_filterMap, List.mem_filter, Bool.and_eq_true, beq_iff_eq, base_schema hs]
  constructor
  · rintro ⟨k, ⟨hk, ⟨⟨h1, h2⟩, h3⟩, h4⟩, h5⟩
    obtain ⟨a, b, ha, hb⟩ := hk1 k hk h4
    rw [hb] at h5
    simp only [Option.some.injEq] at h5
    refine ⟨k.refSchema, k.refTable, b, h5.symm, k, hk, h4, h1, h2, rfl, rfl, ?_⟩
    rw [h3, hb, pair_index]
    exact ⟨rfl, rfl⟩
  · rintro ⟨s', t', c', rfl, k, hk, h1, h2, h3, h4, h5, h6⟩
    obtain ⟨a, b, ha, hb⟩ := hk1 k hk h1
    rw [ha, hb, pair_index] at h6
    refine ⟨k, ⟨hk, ⟨⟨h2, h3⟩, by rw [ha, h6.1]⟩, h1⟩, ?_⟩
    rw [hb]
    simp [h5, h6.2]

/-- On DuckDB, composite foreign keys are not found at all. -/
theorem C170_duckdb_violated (cat : Catalog) (c : Col)
    (h : ∀ k ∈ cat.cons, k.kind = .foreign → c.name ∈ k.cols → 2 ≤ k.cols.length) : Duck.foreignKeysOn cat c = [] := by
  unfold Duck.foreignKeysOn
  rw [List.filter_eq_nil_iff.mpr]
  · rfl
  · intro k hk
    simp only [Bool.and_eq_true, beq_iff_eq, not_and]
    rintro ⟨⟨_, _⟩, h3⟩ h4
    have := h k hk h4 (by rw [h3]; simp)
    rw [h3] at this
    simp at this

/-! ## C171: tables -/

/-- The answers to a sequence of calls of `tables()`. -/
def answers (cat : Catalog) : List Tab → List Pg.TablesArgs → List (List Tab)
  | _, [] => []
  | cache, a :: rest => (Pg.tables cat cache a).1 :: answers cat (Pg.tables cat cache a).2 rest

/-- The tables of a schema. -/
def IsTable (cat : Catalog) (a : Pg.TablesArgs) (t : Tab) : Prop :=
  ∃ d ∈ cat.tabs, d.schema = a.schema ∧ t = ⟨d.name, "", false⟩ ∧ (a.includeSystem = false → "pg_".isPrefixOf d.name = false)

theorem mem_fetchTables (cat : Catalog) (a : Pg.TablesArgs) (t : Tab) : t ∈ Pg.fetchTables cat a ↔ IsTable cat a t := by
  unfold Pg.fetchTables IsTable
  simp only [List.mem_filter, List.mem_map, beq_iff_eq, Bool.or_eq_true, Bool.not_eq_true']
  constructor
  · rintro ⟨⟨d, ⟨hd, h1⟩, rfl⟩, h2⟩
    refine ⟨d, hd, h1, rfl, ?_⟩
    intro h
    rcases h2 with h2 | h2
    · rw [h] at h2; exact absurd h2 (by simp)
    · exact h2
  · rintro ⟨d, hd, h1, rfl, h2⟩
    refine ⟨⟨d, ⟨hd, h1⟩, rfl⟩, ?_⟩
    cases h : a.includeSystem with
    | true => simp
    | false => right; exact h2 h

/-- **C171** (partial).  If all calls use the same arguments, each answer consists of exactly the tables of the schema.

Missing: different arguments, see `C171_cache_violated`. -/
theorem C171_tables_partial (cat : Catalog) (a : Pg.TablesArgs) (n : Nat) :
    ∀ l ∈ answers cat [] (List.replicate n a), ∀ t, t ∈ l ↔ IsTable cat a t := by
  have key : ∀ (n : Nat) (cache : List Tab), cache = [] ∨ cache = Pg.fetchTables cat a →
      ∀ l ∈ answers cat cache (List.replicate n a), l = Pg.fetchTables cat a := by
    intro n
    induction n with
    | zero => intro c _ l hl; simp [answers] at hl
    | succ n ih =>
      intro c hc l hl
      rw [List.replicate_succ, answers, List.mem_cons] at hl
      have hcase : Pg.tables cat c a = (Pg.fetchTables cat a, Pg.fetchTables cat a) := by
        unfold Pg.tables
        rcases hc with rfl | rfl
        · simp
        · split <;> rfl
      rw [hcase] at hl
      rcases hl with rfl | hl
      · rfl
      · exact ih _ (Or.inr rfl) l hl
  intro l hl t
  rw [key n [] (Or.inl rfl) l hl, mem_fetchTables]

/-- After the first non-empty answer, the arguments are ignored: all later answers are the same, for any schema. -/
theorem C171_cache_violated (cat : Catalog) (a : Pg.TablesArgs) (rest : List Pg.TablesArgs)
    (h : ∃ t, IsTable cat a t) :
    ∀ l ∈ answers cat [] (a :: rest), ∀ t, t ∈ l ↔ IsTable cat a t := by
  have hne : Pg.fetchTables cat a ≠ [] := by
    obtain ⟨t, ht⟩ := h
    intro e
    have := (mem_fetchTables cat a t).mpr ht
    rw [e] at this
    simp at this
  have key : ∀ rest : List Pg.TablesArgs, ∀ l ∈ answers cat (Pg.fetchTables cat a) rest, l = Pg.fetchTables cat a := by
    intro rest
    induction rest with
    | nil => intro l hl; simp [answers] at hl
    | cons b rest ih =>
      intro l hl
      have : Pg.tables cat (Pg.fetchTables cat a) b = (Pg.fetchTables cat a, Pg.fetchTables cat a) := by
        simp [Pg.tables, hne]
      rw [answers, this, List.mem_cons] at hl
      rcases hl with rfl | hl
      · rfl
      · exact ih l hl
  intro l hl t
  rw [answers, List.mem_cons] at hl
  rw [← mem_fetchTables]
  have h0 : Pg.tables cat [] a = (Pg.fetchTables cat a, Pg.fetchTables cat a) := by simp [Pg.tables]
  rw [h0] at hl
  rcases hl with rfl | hl
  · rfl
  · rw [key rest l hl]

example : answers { shop with tabs := ⟨"other", "x", false, []⟩ :: shop.tabs } []
    [{ includeSystem := true }, { includeSystem := true, schema := "other" }] =
    [[⟨"users", "", false⟩, ⟨"orders", "", false⟩], [⟨"users", "", false⟩, ⟨"orders", "", false⟩]] := by decide +kernel

/-! ## C172: columns, data types, nullability and views -/

/-- Tables are identified by schema and name, columns of a table by their name. -/
def ProperTables (cat : Catalog) : Prop :=
  (∀ t ∈ cat.tabs, ∀ u ∈ cat.tabs, t.schema = u.schema → t.name = u.name → t = u) ∧ cat.tabs.Nodup ∧
  ∀ t ∈ cat.tabs, ∀ c ∈ t.cols, ∀ d ∈ t.cols, c.name = d.name → c = d

theorem mem_columnRows (cat : Catalog) (r : ColRow) :
    r ∈ columnRows cat ↔ ∃ t ∈ cat.tabs, ∃ c ∈ t.cols, r = ⟨t.schema, t.name, c⟩ := by
  unfold columnRows
  simp only [List.mem_flatMap, List.mem_map, eq_comm]

theorem find_row (cat : Catalog) (hp : ProperTables cat) (t : TabDef) (ht : t ∈ cat.tabs) (c : ColDef) (hc : c ∈ t.cols)
    (p : ColRow → Bool) (hpp : ∀ r, p r = true ↔ r.table = t.name ∧ r.col.name = c.name ∧ r.schema = t.schema) :
    (columnRows cat).find? p = some ⟨t.schema, t.name, c⟩ := by
  cases h : (columnRows cat).find? p with
  | none =>
    rw [List.find?_eq_none] at h
    exact absurd ((hpp ⟨t.schema, t.name, c⟩).mpr ⟨rfl, rfl, rfl⟩)
      (h _ ((mem_columnRows cat _).mpr ⟨t, ht, c, hc, rfl⟩))
  | some r =>
    have h1 := (hpp r).mp (List.find?_some h)
    obtain ⟨u, hu, d, hd, rfl⟩ := (mem_columnRows cat r).mp (List.mem_of_find?_eq_some h)
    simp only at h1
    have := hp.1 u hu t ht h1.2.2 h1.1
    subst this
    have := hp.2.2 u hu d hd c hc h1.2.1
    subst this
    rfl

/-- **C172**.  Data type and nullability of a column are those of the catalog, for the generic interface (with the current schema
as default) and for Postgres (with the schema `public` as default). -/
theorem C172_column_info (cat : Catalog) (hp : ProperTables cat) (t : TabDef) (ht : t ∈ cat.tabs) (c : ColDef)
    (hc : c ∈ t.cols) (ref : Tab) (hname : ref.name = t.name) (hv : ref.isVirtual = false) :
    (Denotes cat.cur ref t.schema →
      Base.datatype cat ⟨c.name, ref⟩ = some c.dtype ∧ Base.isNullable cat ⟨c.name, ref⟩ = some c.nullable) ∧
    (Denotes "public" ref t.schema →
      Pg.datatype cat ⟨c.name, ref⟩ = some c.dtype ∧ Pg.isNullable cat ⟨c.name, ref⟩ = some c.nullable) := by
  constructor
  · intro hs
    have : Base.columnRow cat ⟨c.name, ref⟩ = some ⟨t.schema, t.name, c⟩ := by
      apply find_row cat hp t ht c hc
      intro r
      simp [base_schema hs, hname, and_assoc]
    simp [Base.datatype, Base.isNullable, this]
  · intro hs
    have : Pg.columnRow cat ⟨c.name, ref⟩ = some ⟨t.schema, t.name, c⟩ := by
      apply find_row cat hp t ht c hc
      intro r
      simp [pg_schema hs, hname, and_assoc]
    simp [Pg.datatype, Pg.isNullable, this, hv]

/-- **C172**.  The columns of a table are those of the catalog, in their order. -/
theorem C172_columns (cat : Catalog) (hp : ProperTables cat) (t : TabDef) (ht : t ∈ cat.tabs)
    (ref : Tab) (hname : ref.name = t.name) (hv : ref.isVirtual = false) (hs : Denotes cat.cur ref t.schema) :
    Base.columns cat ref = some (t.cols.map fun c => ⟨c.name, ref⟩) := by
  unfold Base.columns columnRows
  rw [if_neg (by simp [hv]), filter_flatMap, flatMap_single hp.2.1 ht]
  · rw [List.filter_eq_self.mpr (by simp [hname, base_schema hs]), List.map_map]
    rfl
  · intro u hu hne
    rw [List.filter_eq_nil_iff]
    intro r hr
    obtain ⟨c, _, rfl⟩ := List.mem_map.mp hr
    simp only [Bool.and_eq_true, beq_iff_eq, not_and, base_schema hs]
    intro h1 h2
    exact hne (hp.1 u hu t ht h2 (h1.trans hname))

example : ProperTables shop := by
  refine ⟨?_, by decide +kernel, ?_⟩
  · intro t ht u hu h1 h2
    simp only [shop, List.mem_cons, List.not_mem_nil, or_false] at ht hu
    rcases ht with rfl | rfl <;> rcases hu with rfl | rfl <;> first | rfl | (exfalso; revert h2; decide)
  · intro t ht c hc d hd h
    simp only [shop, List.mem_cons, List.not_mem_nil, or_false] at ht
    rcases ht with rfl | rfl <;>
      (simp only [List.mem_cons, List.not_mem_nil, or_false] at hc hd
       rcases hc with rfl | rfl <;> rcases hd with rfl | rfl <;> first | rfl | (exfalso; revert h; decide))

/-- **C172** (partial).  Views are recognised, if no other schema contains a table or view with the same name. -/
theorem C172_view_partial (cat : Catalog) (t : TabDef) (ht : t ∈ cat.tabs) (ref : Tab) (hname : ref.name = t.name)
    (hv : ref.isVirtual = false) (hu : ∀ u ∈ cat.tabs, u.name = t.name → u = t) : Base.isView cat ref = some t.view := by
  unfold Base.isView
  rw [if_neg (by simp [hv])]
  cases h : cat.tabs.filter fun r => r.name == ref.name with
  | nil =>
    rw [List.filter_eq_nil_iff] at h
    exact absurd (h t ht) (by simp [hname])
  | cons u l =>
    have : u ∈ cat.tabs.filter fun r => r.name == ref.name := by rw [h]; simp
    simp only [List.mem_filter, beq_iff_eq] at this
    rw [hu u this.1 (this.2.trans hname)]
    rfl

/-- The schema of the reference is ignored: a table of another schema decides whether the table is a view. -/
theorem C172_view_violated (cat : Catalog) (n s s' : String) :
    Base.isView cat ⟨n, s, false⟩ = Base.isView cat ⟨n, s', false⟩ := rfl

example : ∃ cat : Catalog, ProperTables cat ∧ (⟨"b", "t", true, []⟩ : TabDef) ∈ cat.tabs ∧
    Base.isView cat ⟨"t", "b", false⟩ = some false := by
  refine ⟨{ cur := "a", tabs := [⟨"a", "t", false, []⟩, ⟨"b", "t", true, []⟩], cons := [], idxs := [] }, ⟨?_, by decide, ?_⟩,
    by decide, by decide +kernel⟩
  · intro t ht u hu h1 h2
    simp only [List.mem_cons, List.not_mem_nil, or_false] at ht hu
    rcases ht with rfl | rfl <;> rcases hu with rfl | rfl <;> first | rfl | (exfalso; revert h1; decide)
  · intro t ht c hc
    simp only [List.mem_cons, List.not_mem_nil, or_false] at ht
    rcases ht with rfl | rfl <;> simp at hc

/-! ## C173: the table of a column -/

/-- The table has the column (as it is written, or in lower case). -/
def HasColumn (cat : Catalog) (t : Tab) (name : String) : Prop :=
  ∃ d ∈ cat.tabs, d.name = t.name ∧ Denotes "public" t d.schema ∧ ∃ c ∈ d.cols, c.name = name ∨ c.name = name.toLower

theorem denotes_iff (t : Tab) (s : String) : Denotes "public" t s ↔ s = Pg.schemaOf t := by
  unfold Denotes Pg.schemaOf
  by_cases h : t.schema = "" <;> simp [h]

theorem fetchColumns_spec (cat : Catalog) (t : Tab) (name : String) (hv : t.isVirtual = false) :
    ∃ cols, Pg.fetchColumns cat t = some cols ∧
      ((cols.contains name || cols.contains name.toLower) = true ↔ HasColumn cat t name) := by
  refine ⟨_, by rw [Pg.fetchColumns, if_neg (by simp [hv])], ?_⟩
  simp only [Bool.or_eq_true, List.contains_iff_mem, List.mem_map, List.mem_filter, Bool.and_eq_true, beq_iff_eq,
    mem_columnRows, HasColumn, denotes_iff]
  constructor
  · rintro (⟨r, ⟨⟨d, hd, c, hc, rfl⟩, h1, h2⟩, h3⟩ | ⟨r, ⟨⟨d, hd, c, hc, rfl⟩, h1, h2⟩, h3⟩)
    · exact ⟨d, hd, h1, h2, c, hc, Or.inl h3⟩
    · exact ⟨d, hd, h1, h2, c, hc, Or.inr h3⟩
  · rintro ⟨d, hd, h1, h2, c, hc, h3 | h3⟩
    · exact Or.inl ⟨⟨d.schema, d.name, c⟩, ⟨⟨d, hd, c, hc, rfl⟩, h1, h2⟩, h3⟩
    · exact Or.inr ⟨⟨d.schema, d.name, c⟩, ⟨⟨d, hd, c, hc, rfl⟩, h1, h2⟩, h3⟩

theorem lookupLoop_spec (cat : Catalog) (name : String) (cands : List Tab) (hv : ∀ t ∈ cands, t.isVirtual = false) :
    ∃ r, Pg.lookupLoop cat name cands = some r ∧ (r = none → ∀ t ∈ cands, ¬ HasColumn cat t name) ∧
      ∀ t, r = some t → ∃ pre post, cands = pre ++ t :: post ∧ HasColumn cat t name ∧ ∀ u ∈ pre, ¬ HasColumn cat u name := by
  induction cands with
  | nil => exact ⟨none, rfl, by simp, by simp⟩
  | cons t cands ih =>
    obtain ⟨cols, h1, h2⟩ := fetchColumns_spec cat t name (hv t (by simp))
    rw [Pg.lookupLoop, h1]
    by_cases h : (cols.contains name || cols.contains name.toLower) = true
    · refine ⟨some t, by simp only [h, if_true], by simp, ?_⟩
      rintro t' ht
      cases ht
      exact ⟨[], cands, rfl, h2.mp h, by simp⟩
    · obtain ⟨r, hr, hn, hs⟩ := ih (fun u hu => hv u (by simp [hu]))
      have hno : ¬ HasColumn cat t name := fun x => h (h2.mpr x)
      refine ⟨r, by simp only [h, if_false, hr]; simp, ?_, ?_⟩
      · intro e u hu
        rcases List.mem_cons.mp hu with rfl | hu
        · exact hno
        · exact hn e u hu
      · intro t' ht'
        obtain ⟨pre, post, rfl, hc, hp⟩ := hs t' ht'
        refine ⟨t :: pre, post, rfl, hc, ?_⟩
        intro u hu
        rcases List.mem_cons.mp hu with rfl | hu
        · exact hno
        · exact hp u hu

/-- **C173** (partial).  On Postgres, the lookup of a column among at most five tables yields the first table that has the column,
and nothing exactly if there is none.

Missing: more than five tables (`C173_many_partial`, `C173_order_violated`), virtual tables (which raise an error). -/
theorem C173_lookup_partial (order : List Tab → List Tab) (cat : Catalog) (name : String) (cands : List Tab)
    (hl : cands.length ≤ 5) (hv : ∀ t ∈ cands, t.isVirtual = false) :
    ∃ r, Pg.lookupColumn order cat name cands = some r ∧ (r = none → ∀ t ∈ cands, ¬ HasColumn cat t name) ∧
      ∀ t, r = some t → ∃ pre post, cands = pre ++ t :: post ∧ HasColumn cat t name ∧ ∀ u ∈ pre, ¬ HasColumn cat u name := by
  unfold Pg.lookupColumn
  rw [if_neg (by omega)]
  exact lookupLoop_spec cat name cands hv

/-- **C173** (partial).  Among more candidates, some table with the column is found if there is one. -/
theorem C173_many_partial (order : List Tab → List Tab) (ho : ∀ l t, t ∈ order l ↔ t ∈ l) (cat : Catalog) (name : String)
    (cands : List Tab) (hv : ∀ t ∈ cands, t.isVirtual = false) :
    ∃ r, Pg.lookupColumn order cat name cands = some r ∧ (r = none ↔ ∀ t ∈ cands, ¬ HasColumn cat t name) ∧
      ∀ t, r = some t → t ∈ cands ∧ HasColumn cat t name := by
  unfold Pg.lookupColumn
  have hm : ∀ t, t ∈ (if cands.length > 5 then order cands else cands) ↔ t ∈ cands := by
    intro t; split
    · exact ho cands t
    · rfl
  obtain ⟨r, h1, h2, h3⟩ := lookupLoop_spec cat name (if cands.length > 5 then order cands else cands)
    (fun t ht => hv t ((hm t).mp ht))
  refine ⟨r, h1, ⟨fun e t ht => h2 e t ((hm t).mpr ht), ?_⟩, ?_⟩
  · intro h
    cases r with
    | none => rfl
    | some t =>
      obtain ⟨pre, post, e, hc, _⟩ := h3 t rfl
      exact absurd hc (h t ((hm t).mp (by rw [e]; simp)))
  · intro t ht
    obtain ⟨pre, post, e, hc, _⟩ := h3 t ht
    exact ⟨(hm t).mp (by rw [e]; simp), hc⟩

/-- Six tables `t0`, …, `t5`, the first and the last of which have a column `x`. -/
def six : Catalog where
  cur := "public"
  tabs := [⟨"public", "t0", false, [⟨"x", "integer", true⟩]⟩, ⟨"public", "t5", false, [⟨"x", "integer", true⟩]⟩]
  cons := []
  idxs := []

/-- With more than five candidates, the answer depends on the order of a set, which is not the order of the candidates. -/
theorem C173_order_violated : ∃ order : List Tab → List Tab, (∀ l t, t ∈ order l ↔ t ∈ l) ∧
    ∃ t0 t5 : Tab, Pg.lookupColumn order six "x"
      [t0, ⟨"t1", "", false⟩, ⟨"t2", "", false⟩, ⟨"t3", "", false⟩, ⟨"t4", "", false⟩, t5] = some (some t5) ∧
      HasColumn six t0 "x" ∧ t0 ≠ t5 := by
  refine ⟨List.reverse, by simp, ⟨"t0", "", false⟩, ⟨"t5", "", false⟩, by decide +kernel, ?_, by decide⟩
  exact ⟨_, List.mem_cons_self, rfl, Or.inr ⟨rfl, rfl⟩, _, List.mem_cons_self, Or.inl rfl⟩

/-- The generic interface never finds the table of a column that is not bound to a table yet. -/
theorem C173_generic_violated (cat : Catalog) (name : String) (cands : List Tab) :
    Base.lookupColumn cat name none cands = none := by
  unfold Base.lookupColumn
  rw [List.find?_eq_none]
  intro t _
  cases Base.columns cat t with
  | none => simp
  | some cols => simp

/-! ## C174: the schema graph -/

/-- The foreign keys of the tables that are no views. -/
def GraphKey (s : Iface) (c d : Col) : Prop := (∃ t ∈ s.tables, s.isView t = false ∧ c ∈ s.columns t) ∧ d ∈ s.foreignKeysOn c

theorem fold_addFk (pairs : List (Col × Col)) (g : FkEdges) (a b : Tab) :
    (Dict.get? (pairs.foldl (fun g p => addFk g p.1 p.2) g) (a, b)) =
      match Dict.get? g (a, b), pairs.filter (fun p => p.1.table == a && p.2.table == b) with
      | none, [] => none
      | none, l => some l
      | some l, l' => some (l ++ l') := by
  induction pairs generalizing g with
  | nil => cases h : Dict.get? g (a, b) <;> simp [h]
  | cons p pairs ih =>
    rw [List.foldl_cons, ih, List.filter_cons]
    unfold addFk
    by_cases h : p.1.table = a ∧ p.2.table = b
    · obtain ⟨rfl, rfl⟩ := h
      simp only [beq_self_eq_true, Bool.and_self, if_true]
      cases hg : Dict.get? g (p.1.table, p.2.table) with
      | none => simp [Dict.get?_set]
      | some l => simp [Dict.get?_set]
    · have h1 : (p.1.table == a && p.2.table == b) = false := by
        rw [Bool.and_eq_false_iff]
        simp only [beq_eq_false_iff_ne]
        by_cases h2 : p.1.table = a
        · exact Or.inr (fun h3 => h ⟨h2, h3⟩)
        · exact Or.inl h2
      have h2 : (p.1.table, p.2.table) ≠ (a, b) := by
        intro e; cases e; exact h ⟨rfl, rfl⟩
      rw [h1]
      have hset : ∀ v, Dict.get? (Dict.set g (p.1.table, p.2.table) v) (a, b) = Dict.get? g (a, b) := by
        intro v; rw [Dict.get?_set, if_neg h2]
      cases hg : Dict.get? g (p.1.table, p.2.table) with
      | none => simp [hset]
      | some l => simp [hset]

/-- The foreign keys in the order in which they are visited. -/
def visited (s : Iface) : List (Col × Col) :=
  ((s.tables.filter fun t => !s.isView t).flatMap s.columns).dedup.flatMap fun c => (s.foreignKeysOn c).map fun t => (c, t)

theorem mem_visited (s : Iface) (c d : Col) : (c, d) ∈ visited s ↔ GraphKey s c d := by
  simp only [visited, List.mem_flatMap, List.mem_dedup, List.mem_filter, List.mem_map, Prod.mk.injEq, GraphKey,
    Bool.not_eq_true']
  constructor
  · rintro ⟨c', ⟨t, ⟨h1, h2⟩, h3⟩, d', h4, rfl, rfl⟩; exact ⟨⟨t, h1, h2, h3⟩, h4⟩
  · rintro ⟨⟨t, h1, h2, h3⟩, h4⟩; exact ⟨c, ⟨t, ⟨h1, h2⟩, h3⟩, d, h4, rfl, rfl⟩

theorem fold_nil (pairs : List (Col × Col)) (a b : Tab) (l : List (Col × Col)) :
    Dict.get? (pairs.foldl (fun g p => addFk g p.1 p.2) []) (a, b) = some l ↔
      l ≠ [] ∧ l = pairs.filter fun p => p.1.table == a && p.2.table == b := by
  rw [fold_addFk]
  simp only [Dict.get?]
  generalize pairs.filter (fun p => p.1.table == a && p.2.table == b) = q
  cases q with
  | nil => simp
  | cons x q =>
    simp only [Option.some.injEq]
    constructor
    · rintro rfl; exact ⟨by simp, rfl⟩
    · rintro ⟨_, rfl⟩; rfl

theorem fold_WF (pairs : List (Col × Col)) (g : FkEdges) (hg : Dict.WF g) :
    Dict.WF (pairs.foldl (fun g p => addFk g p.1 p.2) g) := by
  induction pairs generalizing g with
  | nil => exact hg
  | cons p pairs ih =>
    rw [List.foldl_cons]
    apply ih
    unfold addFk
    split <;> exact Dict.WF_set hg _ _

/-- **C174** (partial).  If no table has a composite primary key, the schema graph exists.  Its nodes are the tables that are no
views and the tables of foreign keys; two tables are connected by an edge exactly if there is a foreign key from the first to
the second, and the edge carries exactly these foreign keys.

Missing: composite primary keys (`C174_composite_violated`). -/
theorem C174_graph_partial (s : Iface) (hp : ∀ t ∈ s.tables, s.isView t = false → s.primaryKey t ≠ none) :
    ∃ nodes edges, asGraph s = some (nodes, edges) ∧
    (∀ t, t ∈ nodes ↔ (t ∈ s.tables ∧ s.isView t = false) ∨ ∃ c d, GraphKey s c d ∧ (t = c.table ∨ t = d.table)) ∧
    (∀ a b, (∃ l, Dict.get? edges (a, b) = some l) ↔ ∃ c d, GraphKey s c d ∧ c.table = a ∧ d.table = b) ∧
    ∀ a b l, Dict.get? edges (a, b) = some l → ∀ c d, (c, d) ∈ l ↔ GraphKey s c d ∧ c.table = a ∧ d.table = b := by
  have hg : (((s.tables.filter fun t => !s.isView t).flatMap s.columns).dedup.foldl
      (fun g c => (s.foreignKeysOn c).foldl (fun g t => addFk g c t) g) ([] : FkEdges)) =
      (visited s).foldl (fun g p => addFk g p.1 p.2) [] := by
    simp only [visited, List.foldl_flatMap, List.foldl_map]
  have hany : ((s.tables.filter fun t => !s.isView t).any fun t => (s.primaryKey t).isNone) = false := by
    rw [List.any_eq_false]
    intro t ht
    rw [List.mem_filter] at ht
    have := hp t ht.1 (by simpa using ht.2)
    simpa [Option.isNone_iff_eq_none] using this
  have hedge : ∀ a b, (∃ l, Dict.get? ((visited s).foldl (fun g p => addFk g p.1 p.2) ([] : FkEdges)) (a, b) = some l) ↔
      ∃ c d, GraphKey s c d ∧ c.table = a ∧ d.table = b := by
    intro a b
    constructor
    · rintro ⟨l, h⟩
      obtain ⟨h1, h2⟩ := (fold_nil _ a b l).mp h
      obtain ⟨p, hp⟩ := List.exists_mem_of_ne_nil l h1
      rw [h2, List.mem_filter] at hp
      simp only [Bool.and_eq_true, beq_iff_eq] at hp
      exact ⟨p.1, p.2, (mem_visited s _ _).mp hp.1, hp.2.1, hp.2.2⟩
    · rintro ⟨c, d, hk, rfl, rfl⟩
      refine ⟨_, (fold_nil _ _ _ _).mpr ⟨?_, rfl⟩⟩
      intro h
      have : (c, d) ∈ (visited s).filter fun p => p.1.table == c.table && p.2.table == d.table := by
        rw [List.mem_filter]
        exact ⟨(mem_visited s c d).mpr hk, by simp⟩
      rw [h] at this; simp at this
  refine ⟨_, _, by rw [asGraph, if_neg (by rw [hany]; simp)], ?_, ?_, ?_⟩
  · intro t
    rw [hg]
    simp only [addEndpoints, List.mem_dedup, List.mem_append, List.mem_filter, Bool.not_eq_true', List.mem_flatMap,
      List.mem_cons, List.not_mem_nil, or_false]
    refine or_congr Iff.rfl ?_
    constructor
    · rintro ⟨⟨⟨a, b⟩, l⟩, he, ht⟩
      obtain ⟨c, d, hk, rfl, rfl⟩ := (hedge a b).mp ⟨l, Dict.get?_of_mem (fold_WF _ _ Dict.WF_nil) he⟩
      exact ⟨c, d, hk, ht⟩
    · rintro ⟨c, d, hk, ht⟩
      obtain ⟨l, hl⟩ := (hedge c.table d.table).mpr ⟨c, d, hk, rfl, rfl⟩
      exact ⟨_, Dict.mem_of_get? hl, ht⟩
  · intro a b
    rw [hg]
    exact hedge a b
  · intro a b l h c d
    rw [hg] at h
    rw [((fold_nil _ a b l).mp h).2, List.mem_filter, mem_visited]
    simp

/-- A single table with a composite primary key prevents the schema graph (`hu`: tables have at most one primary key). -/
theorem C174_composite_violated (cat : Catalog) (hn : DistinctNames cat) (hd : cat.cons.Nodup) (s : Iface)
    (hs : ∀ t, s.primaryKey t = Base.primaryKeyColumn cat t) (t : Tab) (ht : t ∈ s.tables) (hv : s.isView t = false)
    (k : Constr) (hk : k ∈ cat.cons) (hkk : k.kind = .primary) (h1 : k.table = t.name) (h2 : Denotes cat.cur t k.schema)
    (hu : ∀ k' ∈ cat.cons, k'.kind = .primary → k'.schema = k.schema → k'.table = t.name → k' = k)
    (h3 : 2 ≤ k.cols.length) : asGraph s = none := by
  have h : s.primaryKey t = none := by
    rw [hs]
    exact ((C168_key_column_partial cat hn hd t k.schema h2).2 k hk hkk rfl h1 hu).2 h3
  unfold asGraph
  rw [if_pos]
  rw [List.any_eq_true]
  exact ⟨t, by simp [ht, hv], by simp [h]⟩

/-- The interface of Postgres for the catalog of the example. -/
def shopIface : Iface where
  tables := (Pg.tables shop [] {includeSystem := true}).1
  isView t := (Base.isView shop t).getD false
  primaryKey t := Base.primaryKeyColumn shop t
  columns t := (Base.columns shop t).getD []
  foreignKeysOn c := (Pg.foreignKeysOn shop c).getD []

example : ((asGraph shopIface).bind fun g => Dict.get? g.2 (⟨"orders", "", false⟩, ⟨"users", "", false⟩)) =
    some [(⟨"uid", ⟨"orders", "", false⟩⟩, ⟨"id", ⟨"users", "", false⟩⟩)] := by decide +kernel

/-! ## C175: join equivalences -/

/-- A foreign key from a column of a table. -/
def Key (s : Iface) (c d : Col) : Prop := (∃ t ∈ s.tables, c ∈ s.columns t) ∧ d ∈ s.foreignKeysOn c

theorem eqGraph_spec (s : Iface) : (eqGraph s).WF ∧ (∀ c d, (c, d) ∈ (eqGraph s).edges ↔ Key s c d) ∧
    ∀ c, c ∈ (eqGraph s).nodes ↔ ∃ d, Key s c d ∨ Key s d c := by
  have hg : eqGraph s = (((s.tables.flatMap s.columns).flatMap fun c => (s.foreignKeysOn c).map fun t => (c, t)).foldl
      (fun g p => g.addEdge p.1 p.2) Nx.Graph.empty) := by
    unfold eqGraph
    simp only [List.foldl_flatMap, List.foldl_map]
  have hmem : ∀ c d, (c, d) ∈ ((s.tables.flatMap s.columns).flatMap fun c => (s.foreignKeysOn c).map fun t => (c, t)) ↔
      Key s c d := by
    intro c d
    simp only [List.mem_flatMap, List.mem_map, Prod.mk.injEq, Key]
    constructor
    · rintro ⟨c', ⟨t, h1, h3⟩, d', h4, rfl, rfl⟩; exact ⟨⟨t, h1, h3⟩, h4⟩
    · rintro ⟨⟨t, h1, h3⟩, h4⟩; exact ⟨c, ⟨t, h1, h3⟩, d, h4, rfl, rfl⟩
  have key : ∀ (ps : List (Col × Col)) (g : Nx.Graph Col), g.WF →
      (ps.foldl (fun g p => g.addEdge p.1 p.2) g).WF ∧
      (∀ c d, (c, d) ∈ (ps.foldl (fun g p => g.addEdge p.1 p.2) g).edges ↔ (c, d) ∈ g.edges ∨ (c, d) ∈ ps) ∧
      ∀ c, c ∈ (ps.foldl (fun g p => g.addEdge p.1 p.2) g).nodes ↔ c ∈ g.nodes ∨ ∃ d, (c, d) ∈ ps ∨ (d, c) ∈ ps := by
    intro ps
    induction ps with
    | nil => intro g hw; exact ⟨hw, by simp, by simp⟩
    | cons p ps ih =>
      intro g hw
      obtain ⟨h1, h2, h3⟩ := ih (g.addEdge p.1 p.2) (Nx.addEdge_WF hw p.1 p.2)
      refine ⟨h1, ?_, ?_⟩
      · intro c d
        rw [List.foldl_cons, h2]
        simp only [Nx.Graph.addEdge, Finset.mem_insert, List.mem_cons, Prod.mk.eta]
        constructor
        · rintro ((rfl | h) | h)
          · exact Or.inr (Or.inl rfl)
          · exact Or.inl h
          · exact Or.inr (Or.inr h)
        · rintro (h | rfl | h)
          · exact Or.inl (Or.inr h)
          · exact Or.inl (Or.inl rfl)
          · exact Or.inr h
      · intro c
        rw [List.foldl_cons, h3]
        simp only [Nx.Graph.addEdge, Finset.mem_insert, List.mem_cons]
        constructor
        · rintro ((rfl | rfl | h) | ⟨d, h | h⟩)
          · exact Or.inr ⟨p.2, Or.inl (Or.inl rfl)⟩
          · exact Or.inr ⟨p.1, Or.inr (Or.inl rfl)⟩
          · exact Or.inl h
          · exact Or.inr ⟨d, Or.inl (Or.inr h)⟩
          · exact Or.inr ⟨d, Or.inr (Or.inr h)⟩
        · rintro (h | ⟨d, (rfl | h) | (rfl | h)⟩)
          · exact Or.inl (Or.inr (Or.inr h))
          · exact Or.inl (Or.inl rfl)
          · exact Or.inr ⟨d, Or.inl h⟩
          · exact Or.inl (Or.inr (Or.inl rfl))
          · exact Or.inr ⟨d, Or.inr h⟩
  rw [hg]
  obtain ⟨h1, h2, h3⟩ := key _ Nx.Graph.empty Nx.empty_WF
  refine ⟨h1, ?_, ?_⟩
  · intro c d
    rw [h2, hmem]; simp [Nx.Graph.empty]
  · intro c
    rw [h3]
    simp only [hmem]
    simp [Nx.Graph.empty]

/-- **C175**.  Columns have a join equivalence class exactly if they take part in a foreign key; the class consists of the columns
that are connected with it by a chain of foreign keys, in any direction. The list of classes contains exactly these. -/
theorem C175_classes (s : Iface) :
    (∀ c, (∃ cls, joinEquivalenceKeys s c = some cls) ↔ ∃ d, Key s c d ∨ Key s d c) ∧
    (∀ c cls, joinEquivalenceKeys s c = some cls → ∀ d, d ∈ cls ↔ Relation.EqvGen (Key s) c d) ∧
    ∀ cls, cls ∈ joinEquivalenceClasses s ↔ ∃ c, joinEquivalenceKeys s c = some cls := by
  obtain ⟨hw, he, hn⟩ := eqGraph_spec s
  have hadj : ∀ a b, (eqGraph s).Adj a b ↔ Key s a b ∨ Key s b a := by
    intro a b
    unfold Nx.Graph.Adj
    rw [he, he]
  have heqv : ∀ a b, Relation.ReflTransGen (eqGraph s).Adj a b ↔ Relation.EqvGen (Key s) a b := by
    intro a b
    constructor
    · intro h
      induction h with
      | refl => exact .refl _
      | tail _ h ih =>
        rcases (hadj _ _).mp h with h | h
        · exact ih.trans _ _ _ (.rel _ _ h)
        · exact ih.trans _ _ _ (.symm _ _ (.rel _ _ h))
    · intro h
      induction h with
      | rel x y h => exact .single ((hadj _ _).mpr (Or.inl h))
      | refl x => exact .refl
      | symm x y _ ih => exact Nx.reach_symm ih
      | trans x y z _ _ ih1 ih2 => exact ih1.trans ih2
  refine ⟨?_, ?_, ?_⟩
  · intro c
    rw [← hn]
    unfold joinEquivalenceKeys
    split <;> simp_all
  · intro c cls h d
    unfold joinEquivalenceKeys at h
    split at h
    · rename_i hc
      cases h
      rw [Nx.mem_component hw hc, heqv]
    · exact absurd h (by simp)
  · intro cls
    unfold joinEquivalenceClasses Nx.Graph.components joinEquivalenceKeys
    rw [Finset.mem_image]
    constructor
    · rintro ⟨c, hc, rfl⟩; exact ⟨c, by rw [if_pos hc]⟩
    · rintro ⟨c, h⟩
      split at h
      · rename_i hc; cases h; exact ⟨c, hc, rfl⟩
      · exact absurd h (by simp)

example : joinEquivalenceKeys shopIface ⟨"id", ⟨"users", "", false⟩⟩ =
    some {⟨"id", ⟨"users", "", false⟩⟩, ⟨"uid", ⟨"orders", "", false⟩⟩} := by decide +kernel

end PB.SchemaProps
