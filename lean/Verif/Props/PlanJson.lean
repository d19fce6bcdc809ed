import Verif.Model.PlanJson
import Verif.Props.JsonText

set_option linter.unusedSimpArgs false
set_option linter.unusedVariables false
set_option linter.unusedSectionVars false
set_option linter.unnecessarySimpa false
set_option linter.unnecessarySeqFocus false

/-! Property C217: query plans and operator assignments are read as they were written. -/

namespace PB.PlanJsonProps
open PB PB.JsonText PB.PlanJson PB.JsonTextProps
open PB.Hints (ScanOp JoinOp InterOp PhysOp)

variable {F P E : Type}

/-! ### Specification -/

/-- Values made of `None`, booleans, numbers, strings, lists and dictionaries with (distinct) string keys. -/
def Plain (v : Val F) : Prop := ∃ j, Distinct j ∧ v = value j

/-- Additional attributes: no reserved name, no name twice, plain values. -/
def PlainExtra (reserved : List String) (l : List (Str × Val F)) : Prop :=
  (reserved.map String.toList ++ l.map Prod.fst).Nodup ∧ ∀ e ∈ l, Plain e.2

/-- The cardinality is exact as a float. -/
def ExactCard (num : Num F) : Count → Prop
  | .val i => ∃ x, num.ofInt i = some x ∧ num.round x = i
  | _ => True

/-- A valid table: it has a name, and the full name if it has a schema. -/
def ValidTable (t : Table) : Prop := (t.1 ≠ [] ∨ t.2.1 ≠ []) ∧ (t.2.2.1 ≠ [] → t.1 ≠ [])

/-- What the lookup key of a written plan can be: `None`, an expression or another truthy plain value. -/
def LookupOk (num : Num F) : Lookup F E → Prop
  | .raw v => Plain v ∧ truthy num v = true
  | _ => True

/-- A node that can be written: the additional attributes are plain, the node type is not empty, the operator is an
operator, workers and index are as `PlanParams` stores them (truthy or the default), cardinalities fit into floats. -/
structure NodeOk (num : Num F) (sql : Sql P E) (n : Node F P E) : Prop where
  type : n.type ≠ []
  operator : n.operator = none ∨ ∃ o, n.operator = some (.op o)
  base : ∀ t, n.params.base = some t → ValidTable t
  filter : ∀ f, n.params.filter = some f → ∀ t ∈ sql.predTables f, ValidTable t
  workers : Plain n.params.workers ∧ (truthy num n.params.workers = true ∨ n.params.workers = .int 0)
  index : Plain n.params.index ∧ (truthy num n.params.index = true ∨ n.params.index = .str [])
  lookup : LookupOk num n.params.lookup
  extra : PlainExtra ["base_table", "filter_predicate", "sort_keys", "parallel_workers", "index", "lookup_key"] n.params.extra
  estCard : ExactCard num n.est.card
  cost : Plain n.est.cost
  estExtra : PlainExtra ["cardinality", "cost"] n.est.extra
  measCard : ExactCard num n.meas.card
  time : Plain n.meas.time
  hits : Plain n.meas.hits
  misses : Plain n.meas.misses
  measExtra : PlainExtra ["cardinality", "execution_time", "cache_hits", "cache_misses"] n.meas.extra

mutual
/-- All nodes of the plan, including those in subplans, satisfy the predicate. -/
def All (φ : Node F P E → Prop) : Plan F P E → Prop
  | .node n cs sub => φ n ∧ AllL φ cs ∧ AllO φ sub
def AllL (φ : Node F P E → Prop) : List (Plan F P E) → Prop
  | [] => True
  | p :: ps => All φ p ∧ AllL φ ps
def AllO (φ : Node F P E → Prop) : Option (Plan F P E) → Prop
  | none => True
  | some p => All φ p
end

mutual
/-- No node of the plan has a subplan; no name of a subplan is set. -/
def NoSubplans : Plan F P E → Prop
  | .node n cs sub => sub = none ∧ n.target = [] ∧ NoSubplansL cs
def NoSubplansL : List (Plan F P E) → Prop
  | [] => True
  | p :: ps => NoSubplans p ∧ NoSubplansL ps
end

/-- The table without its schema. -/
def dropSchema (t : Table) : Table := (t.1, t.2.1, [], t.2.2.2)

/-- The node has no sort keys, and the parser reads its filter from the text if the tables without schemas are in the
FROM clause; there is at least one such table. -/
def Supported (sql : Sql P E) (n : Node F P E) : Prop :=
  n.params.sortKeys = [] ∧ ∀ f, n.params.filter = some f →
    sql.predTables f ≠ [] ∧ ∃ f', sql.parse ((sql.predTables f).map dropSchema) (sql.predText f) = some f'

/-- The dictionary that represents a table. -/
def tableDict (t : Table) : Val F :=
  .dict [(.str "full_name".toList, .str t.1), (.str "alias".toList, .str t.2.1), (.str "virtual".toList, .bool t.2.2.2),
    (.str "schema".toList, .str t.2.2.1)]

/-- What becomes of a lookup key: an expression becomes a dictionary. -/
def lookupDict (sql : Sql P E) : Lookup F E → Lookup F E
  | .none => .none
  | .expr e => .raw (.dict [(.str "node_type".toList, .str "expression".toList),
      (.str "tables".toList, .list ((sql.exprTables e).map tableDict)), (.str "expression".toList, .str (sql.exprText e))])
  | .raw v => .raw v

/-- The predicate that is parsed. -/
def reparsed (sql : Sql P E) (f : P) : P :=
  (sql.parse ((sql.predTables f).map dropSchema) (sql.predText f)).getD f

/-- What becomes of a node. -/
def rereadNode (sql : Sql P E) (n : Node F P E) : Node F P E :=
  { n with params := { n.params with
      base := n.params.base.map dropSchema, filter := n.params.filter.map (reparsed sql),
      lookup := lookupDict sql n.params.lookup } }

mutual
/-- What becomes of a plan without subplans: tables lose their schemas and lookup keys become dictionaries; everything
else stays. -/
def reread (sql : Sql P E) : Plan F P E → Plan F P E
  | .node n cs sub => .node (rereadNode sql n) (rereadL sql cs) sub
def rereadL (sql : Sql P E) : List (Plan F P E) → List (Plan F P E)
  | [] => []
  | p :: ps => reread sql p :: rereadL sql ps
end

/-! ### Documents -/

mutual
theorem loaded_value (j : Json F) : loaded j = value j := by
  match j with
  | .null => rw [loaded, value]
  | .bool _ => rw [loaded, value]
  | .int _ => rw [loaded, value]
  | .flt _ => rw [loaded, value]
  | .str _ => rw [loaded, value]
  | .arr l => rw [loaded, value, loadedL_value l]
  | .obj l => rw [loaded, value, loadedE_value l]
theorem loadedL_value (l : List (Json F)) : loadedL l = valueL l := by
  match l with
  | [] => rw [loadedL, valueL]
  | v :: l => rw [loadedL, valueL, loaded_value v, loadedL_value l]
theorem loadedE_value (l : List (Str × Json F)) : loadedE l = valueE l := by
  match l with
  | [] => rw [loadedE, valueE]
  | (k, v) :: l => rw [loadedE, valueE, loaded_value v, loadedE_value l]
end

/-- The document of a plain value. -/
def valDoc (ft : FloatText F) (v : Val F) : Json F := (encode ft false v).getD .null

theorem Plain.doc (ft : FloatText F) {v : Val F} (h : Plain v) :
    (∀ b, encode ft b v = some (valDoc ft v)) ∧ loaded (valDoc ft v) = v ∧ Distinct (valDoc ft v) := by
  obtain ⟨j, hd, rfl⟩ := h
  have : valDoc ft (value j) = j := by rw [valDoc, encode_value]; rfl
  rw [this]
  exact ⟨fun b => encode_value ft b j, loaded_value j, hd⟩

def tableDoc (t : Table) : Json F :=
  .obj [("full_name".toList, .str t.1), ("alias".toList, .str t.2.1), ("virtual".toList, .bool t.2.2.2), ("schema".toList, .str t.2.2.1)]

def predDoc (sql : Sql P E) (p : P) : Json F :=
  .obj [("node_type".toList, .str "predicate".toList), ("tables".toList, .arr ((sql.predTables p).map tableDoc)),
    ("predicate".toList, .str (sql.predText p))]

def exprDoc (sql : Sql P E) (p : E) : Json F :=
  .obj [("node_type".toList, .str "expression".toList), ("tables".toList, .arr ((sql.exprTables p).map tableDoc)),
    ("expression".toList, .str (sql.exprText p))]

def cardDoc (num : Num F) : Count → Json F
  | .nan => .flt .nan
  | .inf => .flt .inf
  | .val i => match num.ofInt i with
    | some x => .flt (.fin x)
    | none => .null

def optDoc {α : Type} (f : α → Json F) : Option α → Json F
  | none => .null
  | some a => f a

def sortDoc (sql : Sql P E) (s : SortKey E) : Json F :=
  .obj [("equivalence_class".toList, .arr (s.members.map (exprDoc sql))), ("ascending".toList, .bool s.asc)]

def lookupDoc (ft : FloatText F) (sql : Sql P E) : Lookup F E → Json F
  | .none => .null
  | .expr e => exprDoc sql e
  | .raw v => valDoc ft v

def operatorDoc (ft : FloatText F) : Operator F → Json F
  | .op o => .str (opText o).toList
  | .scan o t w => .obj [("operator".toList, .str (opText (.scan o)).toList), ("table".toList, tableDoc t),
      ("parallel_workers".toList, valDoc ft w)]
  | .join o ts w => .obj [("directional".toList, .bool false), ("operator".toList, .str (opText (.join o)).toList),
      ("join".toList, .arr (ts.map tableDoc)), ("parallel_workers".toList, valDoc ft w)]
  | .djoin o i u w => .obj [("directional".toList, .bool true), ("operator".toList, .str (opText (.join o)).toList),
      ("inner".toList, .arr (i.map tableDoc)), ("outer".toList, .arr (u.map tableDoc)), ("parallel_workers".toList, valDoc ft w)]

def extraDoc (ft : FloatText F) (l : List (Str × Val F)) : List (Str × Json F) := l.map fun e => (e.1, valDoc ft e.2)

def paramsList (ft : FloatText F) (sql : Sql P E) (p : Params F P E) : List (Str × Json F) :=
  [("base_table".toList, optDoc tableDoc p.base), ("filter_predicate".toList, optDoc (predDoc sql) p.filter),
    ("sort_keys".toList, .arr (p.sortKeys.map (sortDoc sql))), ("parallel_workers".toList, valDoc ft p.workers),
    ("index".toList, valDoc ft p.index), ("lookup_key".toList, lookupDoc ft sql p.lookup)] ++ extraDoc ft p.extra

def paramsDoc (ft : FloatText F) (sql : Sql P E) (p : Params F P E) : Json F := .obj (paramsList ft sql p)

def estDoc (ft : FloatText F) (num : Num F) (e : Estimates F) : Json F :=
  .obj ([("cardinality".toList, cardDoc num e.card), ("cost".toList, valDoc ft e.cost)] ++ extraDoc ft e.extra)

def measDoc (ft : FloatText F) (num : Num F) (m : Measures F) : Json F :=
  .obj ([("cardinality".toList, cardDoc num m.card), ("execution_time".toList, valDoc ft m.time),
    ("cache_hits".toList, valDoc ft m.hits), ("cache_misses".toList, valDoc ft m.misses)] ++ extraDoc ft m.extra)

mutual
def planDoc (ft : FloatText F) (num : Num F) (sql : Sql P E) : Plan F P E → Json F
  | .node n cs sub => .obj [("node_type".toList, .str n.type), ("operator".toList, optDoc (operatorDoc ft) n.operator),
      ("children".toList, .arr (planDocs ft num sql cs)), ("plan_params".toList, paramsDoc ft sql n.params),
      ("estimates".toList, estDoc ft num n.est), ("measures".toList, measDoc ft num n.meas),
      ("subplan".toList, subDoc ft num sql n.target sub)]
def planDocs (ft : FloatText F) (num : Num F) (sql : Sql P E) : List (Plan F P E) → List (Json F)
  | [] => []
  | p :: ps => planDoc ft num sql p :: planDocs ft num sql ps
def subDoc (ft : FloatText F) (num : Num F) (sql : Sql P E) (target : Str) : Option (Plan F P E) → Json F
  | none => .null
  | some r => .obj [("root".toList, planDoc ft num sql r), ("target_name".toList, .str target)]
end

/-! ### Encoding -/

theorem encodeList_map {α : Type} (ft : FloatText F) (b : Bool) (f : α → Val F) (g : α → Json F) (l : List α)
    (h : ∀ a ∈ l, encode ft b (f a) = some (g a)) : encodeList ft b (l.map f) = some (l.map g) := by
  induction l with
  | nil => simp [encodeList]
  | cons a l ih =>
    rw [List.map_cons, encodeList, h a List.mem_cons_self, ih fun x hx => h x (List.mem_cons_of_mem _ hx)]
    rfl

theorem encodeDict_append (ft : FloatText F) (b : Bool) (l₁ l₂ : List (Key F × Val F)) (r₁ r₂ : List (Str × Json F))
    (h₁ : encodeDict ft b l₁ = some r₁) (h₂ : encodeDict ft b l₂ = some r₂) : encodeDict ft b (l₁ ++ l₂) = some (r₁ ++ r₂) := by
  induction l₁ generalizing r₁ with
  | nil => simp [encodeDict] at h₁; subst h₁; simpa using h₂
  | cons e l₁ ih =>
    obtain ⟨k, v⟩ := e
    rw [encodeDict] at h₁
    rw [List.cons_append, encodeDict]
    cases hk : keyText ft k with
    | none => rw [hk] at h₁; simp at h₁
    | some t =>
      cases hv : encode ft b v with
      | none => rw [hk, hv] at h₁; simp at h₁
      | some j =>
        cases hr : encodeDict ft b l₁ with
        | none => rw [hk, hv, hr] at h₁; simp at h₁
        | some r =>
          rw [hk, hv, hr] at h₁
          simp at h₁
          subst h₁
          rw [ih r hr]
          rfl

theorem encodeDict_extra (ft : FloatText F) (b : Bool) (l : List (Str × Val F)) (h : ∀ e ∈ l, Plain e.2) :
    encodeDict ft b (extraEntries l) = some (extraDoc ft l) := by
  induction l with
  | nil => simp [extraEntries, extraDoc, encodeDict]
  | cons e l ih =>
    have h1 := (Plain.doc ft (h e List.mem_cons_self)).1 b
    have h2 := ih fun x hx => h x (List.mem_cons_of_mem _ hx)
    simp only [extraEntries, extraDoc, List.map_cons] at h2 ⊢
    rw [encodeDict, h1, h2]
    rfl

theorem encode_obj (ft : FloatText F) (b : Bool) (l : List (Key F × Val F)) (r : List (Str × Json F))
    (h : encodeDict ft false l = some r) : encode ft b (obj l) = some (.obj r) := by
  rw [obj, encode, encode, h]; rfl

theorem encodeDict_cons (ft : FloatText F) (b : Bool) (k : String) (v : Val F) (j : Json F) (l : List (Key F × Val F))
    (r : List (Str × Json F)) (hv : encode ft b v = some j) (h : encodeDict ft b l = some r) :
    encodeDict ft b ((key k, v) :: l) = some ((k.toList, j) :: r) := by
  rw [encodeDict, hv, h]; rfl

theorem encodeDict_nil (ft : FloatText F) (b : Bool) : encodeDict ft b [] = some [] := by rw [encodeDict]

theorem encode_str (ft : FloatText F) (b : Bool) (s : Str) : encode ft b (.str s) = some (.str s) := by rw [encode]

theorem encode_bool (ft : FloatText F) (b c : Bool) : encode ft b (.bool c) = some (.bool c) := by rw [encode]

theorem encode_table (ft : FloatText F) (b : Bool) (t : Table) : encode ft b (tableVal t) = some (tableDoc t) :=
  encode_obj ft b _ _ (encodeDict_cons ft _ _ _ _ _ _ (encode_str ft _ _) (encodeDict_cons ft _ _ _ _ _ _ (encode_str ft _ _)
    (encodeDict_cons ft _ _ _ _ _ _ (encode_bool ft _ _) (encodeDict_cons ft _ _ _ _ _ _ (encode_str ft _ _) (encodeDict_nil ft _)))))

theorem encode_set {α : Type} (ft : FloatText F) (b : Bool) (f : α → Val F) (g : α → Json F) (l : List α)
    (h : ∀ a ∈ l, encode ft false (f a) = some (g a)) : encode ft b (.set (l.map f)) = some (.arr (l.map g)) := by
  rw [encode, encodeList_map ft false f g l h]; rfl

theorem encode_pred (ft : FloatText F) (sql : Sql P E) (b : Bool) (p : P) : encode ft b (predVal sql p) = some (predDoc sql p) :=
  encode_obj ft b _ _ (encodeDict_cons ft _ _ _ _ _ _ (encode_str ft _ _) (encodeDict_cons ft _ _ _ _ _ _
    (encode_set ft _ _ _ _ fun t _ => encode_table ft _ t)
    (encodeDict_cons ft _ _ _ _ _ _ (encode_str ft _ _) (encodeDict_nil ft _))))

theorem encode_expr (ft : FloatText F) (sql : Sql P E) (b : Bool) (p : E) : encode ft b (exprVal sql p) = some (exprDoc sql p) :=
  encode_obj ft b _ _ (encodeDict_cons ft _ _ _ _ _ _ (encode_str ft _ _) (encodeDict_cons ft _ _ _ _ _ _
    (encode_set ft _ _ _ _ fun t _ => encode_table ft _ t)
    (encodeDict_cons ft _ _ _ _ _ _ (encode_str ft _ _) (encodeDict_nil ft _))))

theorem encode_sort (ft : FloatText F) (sql : Sql P E) (b : Bool) (s : SortKey E) :
    encode ft b (sortVal sql s) = some (sortDoc sql s) :=
  encode_obj ft b _ _ (encodeDict_cons ft _ _ _ _ _ _ (encode_set ft _ _ _ _ fun t _ => encode_expr ft sql _ t)
    (encodeDict_cons ft _ _ _ _ _ _ (encode_bool ft _ _) (encodeDict_nil ft _)))

theorem encode_card (ft : FloatText F) (num : Num F) (b : Bool) (c : Count) (h : ExactCard num c) :
    encode ft b (cardVal num c) = some (cardDoc num c) := by
  cases c with
  | nan => simp [cardVal, cardDoc, encode]
  | inf => simp [cardVal, cardDoc, encode]
  | val i =>
    obtain ⟨x, hx, _⟩ := h
    simp [cardVal, cardDoc, encode, hx]

theorem encode_opt {α : Type} (ft : FloatText F) (b : Bool) (f : α → Val F) (g : α → Json F) (o : Option α)
    (h : ∀ a, o = some a → encode ft b (f a) = some (g a)) : encode ft b (optVal f o) = some (optDoc g o) := by
  cases o with
  | none => simp [optVal, optDoc, encode]
  | some a => exact h a rfl

theorem encode_lookup (ft : FloatText F) (num : Num F) (sql : Sql P E) (b : Bool) (l : Lookup F E) (h : LookupOk num l) :
    encode ft b (lookupVal sql l) = some (lookupDoc ft sql l) := by
  cases l with
  | none => simp [lookupVal, lookupDoc, encode]
  | expr e => exact encode_expr ft sql b e
  | raw v => exact (Plain.doc ft h.1).1 b

theorem encode_tuple {α : Type} (ft : FloatText F) (b : Bool) (f : α → Val F) (g : α → Json F) (l : List α)
    (h : ∀ a ∈ l, encode ft b (f a) = some (g a)) : encode ft b (.tuple (l.map f)) = some (.arr (l.map g)) := by
  rw [encode, encodeList_map ft b f g l h]; rfl

variable {num : Num F} {sql : Sql P E}

theorem encode_params (ft : FloatText F) (b : Bool) (n : Node F P E) (h : NodeOk num sql n) :
    encode ft b (paramsVal sql n.params) = some (paramsDoc ft sql n.params) := by
  refine encode_obj ft b _ _ (encodeDict_append ft _ _ _ _ _ ?_ (encodeDict_extra ft _ _ h.extra.2))
  exact encodeDict_cons ft _ _ _ _ _ _ (encode_opt ft _ _ _ _ fun t _ => encode_table ft _ t)
    (encodeDict_cons ft _ _ _ _ _ _ (encode_opt ft _ _ _ _ fun t _ => encode_pred ft sql _ t)
    (encodeDict_cons ft _ _ _ _ _ _ (encode_tuple ft _ _ _ _ fun t _ => encode_sort ft sql _ t)
    (encodeDict_cons ft _ _ _ _ _ _ ((Plain.doc ft h.workers.1).1 _)
    (encodeDict_cons ft _ _ _ _ _ _ ((Plain.doc ft h.index.1).1 _)
    (encodeDict_cons ft _ _ _ _ _ _ (encode_lookup ft num sql _ _ h.lookup) (encodeDict_nil ft _))))))

theorem encode_est (ft : FloatText F) (b : Bool) (n : Node F P E) (h : NodeOk num sql n) :
    encode ft b (estVal num n.est) = some (estDoc ft num n.est) := by
  refine encode_obj ft b _ _ (encodeDict_append ft _ _ _ _ _ ?_ (encodeDict_extra ft _ _ h.estExtra.2))
  exact encodeDict_cons ft _ _ _ _ _ _ (encode_card ft num _ _ h.estCard)
    (encodeDict_cons ft _ _ _ _ _ _ ((Plain.doc ft h.cost).1 _) (encodeDict_nil ft _))

theorem encode_meas (ft : FloatText F) (b : Bool) (n : Node F P E) (h : NodeOk num sql n) :
    encode ft b (measVal num n.meas) = some (measDoc ft num n.meas) := by
  refine encode_obj ft b _ _ (encodeDict_append ft _ _ _ _ _ ?_ (encodeDict_extra ft _ _ h.measExtra.2))
  exact encodeDict_cons ft _ _ _ _ _ _ (encode_card ft num _ _ h.measCard)
    (encodeDict_cons ft _ _ _ _ _ _ ((Plain.doc ft h.time).1 _)
    (encodeDict_cons ft _ _ _ _ _ _ ((Plain.doc ft h.hits).1 _)
    (encodeDict_cons ft _ _ _ _ _ _ ((Plain.doc ft h.misses).1 _) (encodeDict_nil ft _))))

theorem encode_op (ft : FloatText F) (b : Bool) (o : Option (Operator F)) (h : o = none ∨ ∃ p, o = some (.op p)) :
    encode ft b (optVal operatorVal o) = some (optDoc (operatorDoc ft) o) := by
  rcases h with rfl | ⟨p, rfl⟩
  · simp [optVal, optDoc, encode]
  · simp [optVal, optDoc, encode, operatorVal, operatorDoc]

mutual
theorem encode_plan (ft : FloatText F) (b : Bool) (p : Plan F P E) (h : All (NodeOk num sql) p) :
    encode ft b (planVal num sql p) = some (planDoc ft num sql p) := by
  match p with
  | .node n cs sub =>
    rw [All] at h
    rw [planVal, planDoc]
    refine encode_obj ft b _ _ (encodeDict_cons ft _ _ _ _ _ _ (encode_str ft _ _)
      (encodeDict_cons ft _ _ _ _ _ _ (encode_op ft _ _ h.1.operator)
      (encodeDict_cons ft _ _ _ _ _ _ ?_
      (encodeDict_cons ft _ _ _ _ _ _ (encode_params ft _ n h.1)
      (encodeDict_cons ft _ _ _ _ _ _ (encode_est ft _ n h.1)
      (encodeDict_cons ft _ _ _ _ _ _ (encode_meas ft _ n h.1)
      (encodeDict_cons ft _ _ _ _ _ _ (encode_sub ft _ n.target sub h.2.2) (encodeDict_nil ft _))))))))
    rw [encode, encode_plans ft false cs h.2.1]
    rfl
theorem encode_plans (ft : FloatText F) (b : Bool) (ps : List (Plan F P E)) (h : AllL (NodeOk num sql) ps) :
    encodeList ft b (planVals num sql ps) = some (planDocs ft num sql ps) := by
  match ps with
  | [] => rw [planVals, planDocs, encodeList]
  | p :: ps =>
    rw [AllL] at h
    rw [planVals, planDocs, encodeList, encode_plan ft b p h.1, encode_plans ft b ps h.2]
    rfl
theorem encode_sub (ft : FloatText F) (b : Bool) (target : Str) (o : Option (Plan F P E)) (h : AllO (NodeOk num sql) o) :
    encode ft b (subVal num sql target o) = some (subDoc ft num sql target o) := by
  match o with
  | none => rw [subVal, subDoc, encode]
  | some r =>
    rw [AllO] at h
    rw [subVal, subDoc]
    exact encode_obj ft b _ _ (encodeDict_cons ft _ _ _ _ _ _ (encode_plan ft _ r h)
      (encodeDict_cons ft _ _ _ _ _ _ (encode_str ft _ _) (encodeDict_nil ft _)))
end

/-! ### The documents have distinct keys -/

theorem distinctL_map {α : Type} (g : α → Json F) (l : List α) (h : ∀ a ∈ l, Distinct (g a)) : DistinctL (l.map g) := by
  induction l with
  | nil => simp [DistinctL]
  | cons a l ih =>
    rw [List.map_cons, DistinctL]
    exact ⟨h a List.mem_cons_self, ih fun x hx => h x (List.mem_cons_of_mem _ hx)⟩

theorem distinctE_append (l₁ l₂ : List (Str × Json F)) (h₁ : DistinctE l₁) (h₂ : DistinctE l₂) : DistinctE (l₁ ++ l₂) := by
  induction l₁ with
  | nil => exact h₂
  | cons e l ih => obtain ⟨k, v⟩ := e; rw [DistinctE] at h₁; rw [List.cons_append, DistinctE]; exact ⟨h₁.1, ih h₁.2⟩

theorem distinctE_cons (k : Str) (v : Json F) (l : List (Str × Json F)) (h : Distinct v) (h' : DistinctE l) :
    DistinctE ((k, v) :: l) := by rw [DistinctE]; exact ⟨h, h'⟩

theorem distinctE_nil : DistinctE ([] : List (Str × Json F)) := by rw [DistinctE]; trivial

theorem distinctE_extra (ft : FloatText F) (l : List (Str × Val F)) (h : ∀ e ∈ l, Plain e.2) : DistinctE (extraDoc ft l) := by
  induction l with
  | nil => exact distinctE_nil
  | cons e l ih =>
    exact distinctE_cons _ _ _ (Plain.doc ft (h e List.mem_cons_self)).2.2 (ih fun x hx => h x (List.mem_cons_of_mem _ hx))

theorem distinct_obj (l : List (Str × Json F)) (h : (l.map Prod.fst).Nodup) (h' : DistinctE l) : Distinct (.obj l) := by
  rw [Distinct]; exact ⟨h, h'⟩

theorem distinct_str (s : Str) : Distinct (.str s : Json F) := by simp [Distinct]
theorem distinct_bool (b : Bool) : Distinct (.bool b : Json F) := by simp [Distinct]
theorem distinct_arr (l : List (Json F)) (h : DistinctL l) : Distinct (.arr l) := by rw [Distinct]; exact h

theorem distinct_table (t : Table) : Distinct (tableDoc t : Json F) :=
  distinct_obj _ (by simp only [List.map_cons, List.map_nil]; decide +kernel)
    (distinctE_cons _ _ _ (distinct_str _) (distinctE_cons _ _ _ (distinct_str _) (distinctE_cons _ _ _ (distinct_bool _)
      (distinctE_cons _ _ _ (distinct_str _) distinctE_nil))))

theorem distinct_pred (p : P) : Distinct (predDoc sql p : Json F) :=
  distinct_obj _ (by simp only [List.map_cons, List.map_nil]; decide +kernel)
    (distinctE_cons _ _ _ (distinct_str _) (distinctE_cons _ _ _ (distinct_arr _ (distinctL_map _ _ fun t _ => distinct_table t))
      (distinctE_cons _ _ _ (distinct_str _) distinctE_nil)))

theorem distinct_expr (p : E) : Distinct (exprDoc sql p : Json F) :=
  distinct_obj _ (by simp only [List.map_cons, List.map_nil]; decide +kernel)
    (distinctE_cons _ _ _ (distinct_str _) (distinctE_cons _ _ _ (distinct_arr _ (distinctL_map _ _ fun t _ => distinct_table t))
      (distinctE_cons _ _ _ (distinct_str _) distinctE_nil)))

theorem distinct_sort (s : SortKey E) : Distinct (sortDoc sql s : Json F) :=
  distinct_obj _ (by simp only [List.map_cons, List.map_nil]; decide +kernel)
    (distinctE_cons _ _ _ (distinct_arr _ (distinctL_map _ _ fun t _ => distinct_expr t))
      (distinctE_cons _ _ _ (distinct_bool _) distinctE_nil))

theorem distinct_card (c : Count) : Distinct (cardDoc num c) := by
  cases c with
  | nan => simp [cardDoc, Distinct]
  | inf => simp [cardDoc, Distinct]
  | val i => simp only [cardDoc]; split <;> simp [Distinct]

theorem distinct_opt {α : Type} (g : α → Json F) (o : Option α) (h : ∀ a, Distinct (g a)) : Distinct (optDoc g o) := by
  cases o with
  | none => simp [optDoc, Distinct]
  | some a => exact h a

theorem distinct_lookup (ft : FloatText F) (l : Lookup F E) (h : LookupOk num l) : Distinct (lookupDoc ft sql l) := by
  cases l with
  | none => simp [lookupDoc, Distinct]
  | expr e => exact distinct_expr e
  | raw v => exact (Plain.doc ft h.1).2.2

theorem extra_keys (ft : FloatText F) (l : List (Str × Val F)) : (extraDoc ft l).map Prod.fst = l.map Prod.fst := by
  simp [extraDoc]

theorem distinct_params (ft : FloatText F) (n : Node F P E) (h : NodeOk num sql n) : Distinct (paramsDoc ft sql n.params) := by
  refine distinct_obj _ ?_ (distinctE_append _ _ ?_ (distinctE_extra ft _ h.extra.2))
  · rw [paramsList, List.map_append, extra_keys]; exact h.extra.1
  · exact distinctE_cons _ _ _ (distinct_opt _ _ distinct_table) (distinctE_cons _ _ _ (distinct_opt _ _ distinct_pred)
      (distinctE_cons _ _ _ (distinct_arr _ (distinctL_map _ _ fun t _ => distinct_sort t))
      (distinctE_cons _ _ _ (Plain.doc ft h.workers.1).2.2 (distinctE_cons _ _ _ (Plain.doc ft h.index.1).2.2
      (distinctE_cons _ _ _ (distinct_lookup ft _ h.lookup) distinctE_nil)))))

theorem distinct_est (ft : FloatText F) (n : Node F P E) (h : NodeOk num sql n) : Distinct (estDoc ft num n.est) := by
  refine distinct_obj _ ?_ (distinctE_append _ _ ?_ (distinctE_extra ft _ h.estExtra.2))
  · rw [List.map_append, extra_keys]; exact h.estExtra.1
  · exact distinctE_cons _ _ _ (distinct_card _) (distinctE_cons _ _ _ (Plain.doc ft h.cost).2.2 distinctE_nil)

theorem distinct_meas (ft : FloatText F) (n : Node F P E) (h : NodeOk num sql n) : Distinct (measDoc ft num n.meas) := by
  refine distinct_obj _ ?_ (distinctE_append _ _ ?_ (distinctE_extra ft _ h.measExtra.2))
  · rw [List.map_append, extra_keys]; exact h.measExtra.1
  · exact distinctE_cons _ _ _ (distinct_card _) (distinctE_cons _ _ _ (Plain.doc ft h.time).2.2
      (distinctE_cons _ _ _ (Plain.doc ft h.hits).2.2 (distinctE_cons _ _ _ (Plain.doc ft h.misses).2.2 distinctE_nil)))

theorem distinct_op (ft : FloatText F) (o : Option (Operator F)) (h : o = none ∨ ∃ p, o = some (.op p)) :
    Distinct (optDoc (operatorDoc ft) o) := by
  rcases h with rfl | ⟨p, rfl⟩ <;> simp [optDoc, operatorDoc, Distinct]

mutual
theorem distinct_plan (ft : FloatText F) (p : Plan F P E) (h : All (NodeOk num sql) p) : Distinct (planDoc ft num sql p) := by
  match p with
  | .node n cs sub =>
    rw [All] at h
    rw [planDoc]
    exact distinct_obj _ (by simp only [List.map_cons, List.map_nil]; decide +kernel)
      (distinctE_cons _ _ _ (distinct_str _) (distinctE_cons _ _ _ (distinct_op ft _ h.1.operator)
      (distinctE_cons _ _ _ (distinct_arr _ (distinct_plans ft cs h.2.1)) (distinctE_cons _ _ _ (distinct_params ft n h.1)
      (distinctE_cons _ _ _ (distinct_est ft n h.1) (distinctE_cons _ _ _ (distinct_meas ft n h.1)
      (distinctE_cons _ _ _ (distinct_sub ft n.target sub h.2.2) distinctE_nil)))))))
theorem distinct_plans (ft : FloatText F) (ps : List (Plan F P E)) (h : AllL (NodeOk num sql) ps) :
    DistinctL (planDocs ft num sql ps) := by
  match ps with
  | [] => rw [planDocs, DistinctL]; trivial
  | p :: ps => rw [AllL] at h; rw [planDocs, DistinctL]; exact ⟨distinct_plan ft p h.1, distinct_plans ft ps h.2⟩
theorem distinct_sub (ft : FloatText F) (target : Str) (o : Option (Plan F P E)) (h : AllO (NodeOk num sql) o) :
    Distinct (subDoc ft num sql target o) := by
  match o with
  | none => rw [subDoc]; simp [Distinct]
  | some r =>
    rw [AllO] at h
    rw [subDoc]
    exact distinct_obj _ (by simp only [List.map_cons, List.map_nil]; decide +kernel)
      (distinctE_cons _ _ _ (distinct_plan ft r h) (distinctE_cons _ _ _ (distinct_str _) distinctE_nil))
end

/-! ### Reading -/

theorem field_here (k : String) (v : Json F) (l : List (Str × Json F)) : field ((k.toList, v) :: l) k = some v := by
  simp [field, Dict.get?]

theorem field_there (k k' : String) (v : Json F) (l : List (Str × Json F)) (h : k' ≠ k) :
    field ((k'.toList, v) :: l) k = field l k := by
  simp [field, Dict.get?, h, String.toList_inj]

theorem field_nil (k : String) : field ([] : List (Str × Json F)) k = none := rfl

theorem read_table (t : Table) (h : ValidTable t) : readTable (tableDoc t : Json F) = some (dropSchema t) := by
  have e1 : strField [("full_name".toList, (.str t.1 : Json F)), ("alias".toList, .str t.2.1), ("virtual".toList, .bool t.2.2.2), ("schema".toList, .str t.2.2.1)] "full_name" = some t.1 := by
    rw [strField, field_here]
  have e2 : strField [("full_name".toList, (.str t.1 : Json F)), ("alias".toList, .str t.2.1), ("virtual".toList, .bool t.2.2.2), ("schema".toList, .str t.2.2.1)] "alias" = some t.2.1 := by
    rw [strField, field_there _ _ _ _ (by decide), field_here]
  have e3 : boolField [("full_name".toList, (.str t.1 : Json F)), ("alias".toList, .str t.2.1), ("virtual".toList, .bool t.2.2.2), ("schema".toList, .str t.2.2.1)] "virtual" = some t.2.2.2 := by
    rw [boolField, field_there _ _ _ _ (by decide), field_there _ _ _ _ (by decide), field_here]
  have e4 : strField [("full_name".toList, (.str t.1 : Json F)), ("alias".toList, .str t.2.1), ("virtual".toList, .bool t.2.2.2), ("schema".toList, .str t.2.2.1)] "schemaname" = some [] := by
    rw [strField, field_there _ _ _ _ (by decide), field_there _ _ _ _ (by decide), field_there _ _ _ _ (by decide),
      field_there _ _ _ _ (by decide), field_nil]
  rw [readTable, tableDoc, entries, Option.bind_some, e1, Option.bind_some, e2, Option.bind_some, e3, Option.bind_some, e4,
    Option.bind_some, mkTable, if_neg, if_neg]
  · rfl
  · simp
  · rintro ⟨h1, h2⟩
    rcases h.1 with h | h
    · exact h h1
    · exact h h2

theorem mapM_map {α β : Type} (f : Json F → Option β) (g : α → Json F) (r : α → β) (l : List α)
    (h : ∀ a ∈ l, f (g a) = some (r a)) : (l.map g).mapM f = some (l.map r) := by
  induction l with
  | nil => rfl
  | cons a l ih =>
    rw [List.map_cons, List.mapM_cons, h a List.mem_cons_self, ih fun x hx => h x (List.mem_cons_of_mem _ hx)]
    rfl

theorem read_tables (l : List Table) (h : ∀ t ∈ l, ValidTable t) :
    readTables (.arr (l.map tableDoc) : Json F) = some (l.map dropSchema) :=
  mapM_map readTable tableDoc dropSchema l fun t ht => read_table t (h t ht)

theorem read_pred (f : P) (h : ∀ t ∈ sql.predTables f, ValidTable t) :
    readPred sql (predDoc sql f : Json F) =
      if sql.predTables f = [] then none else sql.parse ((sql.predTables f).map dropSchema) (sql.predText f) := by
  rw [readPred, predDoc, entries, Option.bind_some, field_there _ _ _ _ (by decide), field_here, Option.getD_some, read_tables _ h,
    Option.bind_some, field_there _ _ _ _ (by decide), field_there _ _ _ _ (by decide), field_here]
  simp

theorem opOf_text (o : PhysOp) : opOf (opText o).toList = some o := by
  have : ∀ o ∈ PB.Hints.allOps, opOf (opText o).toList = some o := by decide +kernel
  apply this
  cases o with
  | scan o => cases o <;> decide
  | join o => cases o <;> decide
  | inter o => cases o <;> decide

theorem truthy_obj (l : List (Str × Json F)) (h : l ≠ []) : truthy num (loaded (.obj l)) = true := by
  cases l with
  | nil => exact absurd rfl h
  | cons e l => obtain ⟨k, v⟩ := e; rw [loaded, loadedE]; rfl

theorem read_op (ft : FloatText F) (o : Option (Operator F)) (h : o = none ∨ ∃ p, o = some (.op p)) :
    readOperator ft num (optDoc (operatorDoc ft) o) = some o := by
  rcases h with rfl | ⟨p, rfl⟩
  · simp [optDoc, readOperator, loaded, truthy]
  · have hne : ∀ o ∈ PB.Hints.allOps, (opText o).toList.isEmpty = false := by decide +kernel
    have hp : (opText p).toList.isEmpty = false := by
      apply hne
      cases p with
      | scan o => cases o <;> decide
      | join o => cases o <;> decide
      | inter o => cases o <;> decide
    simp only [optDoc, operatorDoc, readOperator, loaded, truthy, hp, opOf_text]
    rfl

theorem optRead_some {α : Type} (f : Json F → Option α) (l : List (Str × Json F)) (h : l ≠ []) :
    optRead num f (some (.obj l)) = (f (.obj l)).map some := by
  rw [optRead, if_pos (truthy_obj l h)]

theorem optRead_null {α : Type} (f : Json F → Option α) : optRead num f (some .null) = some none := by
  simp [optRead, loaded, truthy]

theorem orElse_plain (ft : FloatText F) (v d : Val F) (h : Plain v) (h' : truthy num v = true ∨ v = d) :
    orElse num (some (valDoc ft v)) d = v := by
  have hl := (Plain.doc ft h).2.1
  rw [orElse, hl]
  rcases h' with h' | h'
  · rw [if_pos h']
  · subst h'; simp

theorem others_append (names : List String) (l₁ l₂ : List (Str × Json F)) :
    others names (l₁ ++ l₂) = others names l₁ ++ others names l₂ := by simp [others]

theorem others_extra (ft : FloatText F) (names : List String) (l : List (Str × Val F)) (h : PlainExtra names l) :
    others names (extraDoc ft l) = l := by
  have h1 : ∀ e ∈ l, e.1 ∉ names.map String.toList := by
    intro e he hm
    exact (List.nodup_append.1 h.1).2.2 _ hm _ (List.mem_map_of_mem he) rfl
  have h2 := h.2
  clear h
  induction l with
  | nil => rfl
  | cons e l ih =>
    have ih := ih (fun x hx => h1 x (List.mem_cons_of_mem _ hx)) (fun x hx => h2 x (List.mem_cons_of_mem _ hx))
    have hc : (names.map String.toList).contains e.1 = false := by
      simpa using h1 e List.mem_cons_self
    have hv := (Plain.doc ft (h2 e List.mem_cons_self)).2.1
    simp only [others, extraDoc, List.map_cons] at ih ⊢
    rw [List.filter_cons_of_pos (by simp only [hc]; rfl), List.map_cons, ih, hv]

theorem others_named (names : List String) (l : List (Str × Json F)) (h : ∀ e ∈ l, e.1 ∈ names.map String.toList) :
    others names l = [] := by
  rw [others, List.filter_eq_nil_iff.2, List.map_nil]
  intro e he
  have := h e he
  simpa using this

theorem others_doc (ft : FloatText F) (names : List String) (l : List (Str × Json F)) (x : List (Str × Val F))
    (h : PlainExtra names x) (hl : ∀ e ∈ l, e.1 ∈ names.map String.toList) : others names (l ++ extraDoc ft x) = x := by
  rw [others_append, others_extra ft _ _ h, others_named _ _ hl, List.nil_append]

theorem loadedL_map {α : Type} (f : α → Json F) (g : α → Val F) (l : List α) (h : ∀ a, loaded (f a) = g a) :
    loadedL (l.map f) = l.map g := by
  induction l with
  | nil => rw [List.map_nil, List.map_nil, loadedL]
  | cons a l ih => rw [List.map_cons, List.map_cons, loadedL, h a, ih]

theorem loaded_table (t : Table) : loaded (tableDoc t : Json F) = tableDict t := by
  simp only [tableDoc, tableDict, loaded, loadedE]

theorem loaded_expr (e : E) : (Lookup.raw (loaded (exprDoc sql e : Json F)) : Lookup F E) = lookupDict sql (.expr e) := by
  simp only [exprDoc, lookupDict, loaded, loadedE, loadedL_map tableDoc tableDict _ loaded_table]

theorem params_fields (ft : FloatText F) (p : Params F P E) :
    field (paramsList ft sql p) "base_table" = some (optDoc tableDoc p.base) ∧
    field (paramsList ft sql p) "filter_predicate" = some (optDoc (predDoc sql) p.filter) ∧
    field (paramsList ft sql p) "sort_keys" = some (.arr (p.sortKeys.map (sortDoc sql))) ∧
    field (paramsList ft sql p) "parallel_workers" = some (valDoc ft p.workers) ∧
    field (paramsList ft sql p) "index" = some (valDoc ft p.index) ∧
    field (paramsList ft sql p) "lookup_key" = some (lookupDoc ft sql p.lookup) := by
  simp only [paramsList, List.cons_append, List.nil_append]
  refine ⟨?_, ?_, ?_, ?_, ?_, ?_⟩
  · rw [field_here]
  · rw [field_there _ _ _ _ (by decide), field_here]
  · rw [field_there _ _ _ _ (by decide), field_there _ _ _ _ (by decide), field_here]
  · rw [field_there _ _ _ _ (by decide), field_there _ _ _ _ (by decide), field_there _ _ _ _ (by decide), field_here]
  · rw [field_there _ _ _ _ (by decide), field_there _ _ _ _ (by decide), field_there _ _ _ _ (by decide),
      field_there _ _ _ _ (by decide), field_here]
  · rw [field_there _ _ _ _ (by decide), field_there _ _ _ _ (by decide), field_there _ _ _ _ (by decide),
      field_there _ _ _ _ (by decide), field_there _ _ _ _ (by decide), field_here]

theorem params_others (ft : FloatText F) (n : Node F P E) (h : NodeOk num sql n) :
    others ["base_table", "filter_predicate", "sort_keys", "parallel_workers", "index", "lookup_key"] (paramsList ft sql n.params) =
      n.params.extra := by
  rw [paramsList]
  exact others_doc ft _ _ _ h.extra (by simp)

theorem read_base (n : Node F P E) (h : NodeOk num sql n) :
    optRead num readTable (some (optDoc tableDoc n.params.base)) = some (n.params.base.map dropSchema) := by
  cases hb : n.params.base with
  | none => exact optRead_null _
  | some t =>
    simp only [optDoc, Option.map_some]
    rw [tableDoc, optRead_some _ _ (by simp), ← tableDoc, read_table t (h.base t hb)]; rfl

theorem read_filter (n : Node F P E) (h : NodeOk num sql n) (hf : ∀ f, n.params.filter = some f →
    sql.predTables f ≠ [] ∧ ∃ f', sql.parse ((sql.predTables f).map dropSchema) (sql.predText f) = some f') :
    optRead num (readPred sql) (some (optDoc (predDoc sql) n.params.filter)) = some (n.params.filter.map (reparsed sql)) := by
  cases hb : n.params.filter with
  | none => exact optRead_null _
  | some f =>
    obtain ⟨h1, f', h2⟩ := hf f hb
    simp only [optDoc, Option.map_some]
    rw [predDoc, optRead_some _ _ (by simp), ← predDoc, read_pred f (h.filter f hb), if_neg h1, reparsed, h2]; rfl

theorem read_lookup (ft : FloatText F) (l : Lookup F E) (h : LookupOk num l) :
    readLookup num (some (lookupDoc ft sql l)) = lookupDict sql l := by
  cases l with
  | none => simp [lookupDoc, loaded, truthy, lookupDict, readLookup]
  | expr e =>
    have ht : truthy num (loaded (exprDoc sql e : Json F)) = true := truthy_obj _ (by simp)
    rw [show lookupDoc ft sql (.expr e) = exprDoc sql e from rfl, readLookup, if_pos ht, loaded_expr]
  | raw v =>
    simp only [lookupDoc, readLookup, (Plain.doc ft h.1).2.1, lookupDict]
    rw [if_pos h.2]

theorem read_params (ft : FloatText F) (n : Node F P E) (h : NodeOk num sql n) (hs : Supported sql n) :
    readParams num sql (paramsDoc ft sql n.params) = some (rereadNode sql n).params := by
  obtain ⟨hk, hf⟩ := hs
  obtain ⟨h1, h2, h3, h4, h5, h6⟩ := params_fields (sql := sql) ft n.params
  rw [readParams, paramsDoc, entries, Option.bind_some, h1, h2, h3, h4, h5, h6, params_others ft n h, read_base n h,
    Option.bind_some, read_filter n h hf, Option.bind_some, hk, List.map_nil, readSortKeys, Option.map_some,
    orElse_plain ft _ _ h.workers.1 h.workers.2, orElse_plain ft _ _ h.index.1 h.index.2, read_lookup ft _ h.lookup, ← hk]
  rfl

theorem read_card (c : Count) (h : ExactCard num c) : readCard num (cardDoc num c) = some c := by
  cases c with
  | nan => rfl
  | inf => rfl
  | val i =>
    obtain ⟨x, h1, h2⟩ := h
    simp [cardDoc, h1, readCard, h2]

theorem read_est (ft : FloatText F) (n : Node F P E) (h : NodeOk num sql n) : readEst num (estDoc ft num n.est) = some n.est := by
  have ho := others_doc ft ["cardinality", "cost"] [("cardinality".toList, cardDoc num n.est.card),
    ("cost".toList, valDoc ft n.est.cost)] _ h.estExtra (by simp)
  rw [readEst, estDoc, entries, Option.bind_some, ho]
  simp only [List.cons_append, List.nil_append]
  rw [field_here, Option.getD_some, read_card _ h.estCard, field_there _ _ _ _ (by decide), field_here, Option.getD_some,
    (Plain.doc ft h.cost).2.1]
  rfl

theorem read_meas (ft : FloatText F) (n : Node F P E) (h : NodeOk num sql n) : readMeas num (measDoc ft num n.meas) = some n.meas := by
  have ho := others_doc ft ["cardinality", "execution_time", "cache_hits", "cache_misses"]
    [("cardinality".toList, cardDoc num n.meas.card), ("execution_time".toList, valDoc ft n.meas.time),
    ("cache_hits".toList, valDoc ft n.meas.hits), ("cache_misses".toList, valDoc ft n.meas.misses)] _ h.measExtra (by simp)
  rw [readMeas, measDoc, entries, Option.bind_some, ho]
  simp only [List.cons_append, List.nil_append]
  rw [field_here, Option.getD_some, read_card _ h.measCard, field_there _ _ _ _ (by decide), field_here, Option.getD_some,
    (Plain.doc ft h.time).2.1, field_there _ _ _ _ (by decide), field_there _ _ _ _ (by decide), field_here, Option.getD_some,
    (Plain.doc ft h.hits).2.1, field_there _ _ _ _ (by decide), field_there _ _ _ _ (by decide), field_there _ _ _ _ (by decide),
    field_here, Option.getD_some, (Plain.doc ft h.misses).2.1]
  rfl

theorem read_type (s : Str) (h : s ≠ []) : readType (some (.str s : Json F)) = some s := by
  cases s with
  | nil => exact absurd rfl h
  | cons c s => rfl

/-- Reading a node, in terms of what is read for its parts. -/
theorem read_node (ft : FloatText F) (n : Node F P E) (cs : List (Plan F P E)) (sub : Option (Plan F P E)) (m : Nat)
    (h : NodeOk num sql n) :
    readPlan ft num sql (m + 1) (planDoc ft num sql (.node n cs sub)) =
      (readList (readPlan ft num sql m) (.arr (planDocs ft num sql cs))).bind fun cs' =>
        (readParams num sql (paramsDoc ft sql n.params)).bind fun ps =>
          if sub.isSome then none else some (.node ⟨n.type, n.operator, ps, n.est, n.meas, []⟩ cs' none) := by
  have hs : truthy num (loaded (subDoc ft num sql n.target sub)) = sub.isSome := by
    cases sub with
    | none => rw [subDoc, loaded]; rfl
    | some r => rw [subDoc, truthy_obj _ (by simp)]; rfl
  rw [planDoc, readPlan, entries, Option.bind_some, field_here, read_type _ h.type, Option.bind_some,
    field_there _ _ _ _ (by decide), field_here, Option.getD_some, read_op ft _ h.operator, Option.bind_some,
    field_there _ _ _ _ (by decide), field_there _ _ _ _ (by decide), field_here, Option.getD_some,
    field_there _ _ _ _ (by decide), field_there _ _ _ _ (by decide), field_there _ _ _ _ (by decide), field_here, Option.getD_some,
    field_there _ _ _ _ (by decide), field_there _ _ _ _ (by decide), field_there _ _ _ _ (by decide),
    field_there _ _ _ _ (by decide), field_here, Option.getD_some, read_est ft n h,
    field_there _ _ _ _ (by decide), field_there _ _ _ _ (by decide), field_there _ _ _ _ (by decide),
    field_there _ _ _ _ (by decide), field_there _ _ _ _ (by decide), field_here, Option.getD_some, read_meas ft n h,
    field_there _ _ _ _ (by decide), field_there _ _ _ _ (by decide), field_there _ _ _ _ (by decide),
    field_there _ _ _ _ (by decide), field_there _ _ _ _ (by decide), field_there _ _ _ _ (by decide), field_here, Option.getD_some, hs]
  rfl

theorem depthL_le (l : List (Json F)) (v : Json F) (h : v ∈ l) : depth v ≤ depthL l := by
  induction l with
  | nil => simp at h
  | cons w l ih =>
    rw [depthL]
    rcases List.mem_cons.1 h with rfl | h
    · omega
    · have := ih h; omega

theorem depth_plan (ft : FloatText F) (n : Node F P E) (cs : List (Plan F P E)) (sub : Option (Plan F P E)) :
    depthL (planDocs ft num sql cs) + 2 ≤ depth (planDoc ft num sql (.node n cs sub)) := by
  rw [planDoc, depth, depthE, depthE, depthE, depth.eq_1]
  omega

mutual
theorem read_plan (ft : FloatText F) (p : Plan F P E) (h : All (NodeOk num sql) p) (hs : All (Supported sql) p) (hn : NoSubplans p)
    (m : Nat) (hm : depth (planDoc ft num sql p) ≤ m) :
    readPlan ft num sql m (planDoc ft num sql p) = some (reread sql p) := by
  match p with
  | .node n cs sub =>
    rw [All] at h hs
    rw [NoSubplans] at hn
    obtain ⟨rfl, ht, hn⟩ := hn
    have hd := depth_plan (num := num) (sql := sql) ft n cs none
    obtain ⟨k, rfl⟩ : ∃ k, m = k + 1 := ⟨m - 1, by omega⟩
    have hc := read_plans ft cs h.2.1 hs.2.1 hn k (by omega)
    rw [read_node ft n cs none k h.1, readList, hc, Option.bind_some, read_params ft n h.1 hs.1, Option.bind_some, reread]
    simp only [Option.isSome_none, if_false, Bool.false_eq_true, rereadNode, ht]
theorem read_plans (ft : FloatText F) (ps : List (Plan F P E)) (h : AllL (NodeOk num sql) ps) (hs : AllL (Supported sql) ps)
    (hn : NoSubplansL ps) (m : Nat) (hm : depthL (planDocs ft num sql ps) ≤ m) :
    (planDocs ft num sql ps).mapM (readPlan ft num sql m) = some (rereadL sql ps) := by
  match ps with
  | [] => rw [planDocs, rereadL]; rfl
  | p :: ps =>
    rw [AllL] at h hs
    rw [NoSubplansL] at hn
    rw [planDocs, depthL] at hm
    rw [planDocs, rereadL, List.mapM_cons, read_plan ft p h.1 hs.1 hn.1 m (by omega), read_plans ft ps h.2 hs.2 hn.2 m (by omega)]
    rfl
end

theorem text_plan (ft : FloatText F) (p : Plan F P E) (h : All (NodeOk num sql) p) :
    toJson ft (planVal num sql p) = some (some (dumps ft (planDoc ft num sql p))) := by
  refine toJson_encode ft _ _ (encode_plan ft false p h) ?_
  cases p with
  | node n cs sub => rw [planVal, obj]; simp

theorem loads_plan (ft : FloatText F) (hft : FloatLaw ft) (p : Plan F P E) (h : All (NodeOk num sql) p) :
    loads ft (dumps ft (planDoc ft num sql p)) = some (planDoc ft num sql p) := by
  rw [C216_loads ft hft, lastValues_distinct _ (distinct_plan ft p h)]

/-- C217 (general form): a plan without subplans and sort keys, whose filters have tables and can be parsed, can be written
and read. The result is the plan, except that tables lose their schemas and lookup keys become dictionaries. -/
theorem C217_read_partial (ft : FloatText F) (hft : FloatLaw ft) (p : Plan F P E) (h : All (NodeOk num sql) p)
    (hs : All (Supported sql) p) (hn : NoSubplans p) :
    ∃ t, toJson ft (planVal num sql p) = some (some t) ∧ readPlanText ft num sql t = some (reread sql p) := by
  refine ⟨_, text_plan ft p h, ?_⟩
  rw [readPlanText, loads_plan ft hft p h, Option.bind_some, read_plan ft p h hs hn _ (Nat.le_refl _)]

/-- The tables of the node have no schemas, the filter is parsed as it was, and the lookup key is no expression. -/
def Simple (sql : Sql P E) (n : Node F P E) : Prop :=
  (∀ t, n.params.base = some t → t.2.2.1 = []) ∧
  (∀ f, n.params.filter = some f → (∀ t ∈ sql.predTables f, t.2.2.1 = []) ∧ sql.predTables f ≠ [] ∧
    sql.parse (sql.predTables f) (sql.predText f) = some f) ∧
  n.params.sortKeys = [] ∧ ∀ e, n.params.lookup ≠ .expr e

theorem dropSchema_simple (t : Table) (h : t.2.2.1 = []) : dropSchema t = t := by
  obtain ⟨a, b, c, d⟩ := t
  simp only at h
  rw [dropSchema, h]

theorem map_dropSchema (l : List Table) (h : ∀ t ∈ l, t.2.2.1 = []) : l.map dropSchema = l := by
  induction l with
  | nil => rfl
  | cons t l ih =>
    rw [List.map_cons, dropSchema_simple t (h t List.mem_cons_self), ih fun x hx => h x (List.mem_cons_of_mem _ hx)]

theorem Simple.supported {n : Node F P E} (h : Simple sql n) : Supported sql n := by
  refine ⟨h.2.2.1, fun f hf => ?_⟩
  obtain ⟨h1, h2, h3⟩ := h.2.1 f hf
  exact ⟨h2, f, by rw [map_dropSchema _ h1, h3]⟩

theorem Simple.reread {n : Node F P E} (h : Simple sql n) : rereadNode sql n = n := by
  obtain ⟨h1, h2, _, h4⟩ := h
  have e1 : n.params.base.map dropSchema = n.params.base := by
    cases hb : n.params.base with
    | none => rfl
    | some t => rw [Option.map_some, dropSchema_simple t (h1 t hb)]
  have e2 : n.params.filter.map (reparsed sql) = n.params.filter := by
    cases hb : n.params.filter with
    | none => rfl
    | some f =>
      obtain ⟨h1, _, h3⟩ := h2 f hb
      rw [Option.map_some, reparsed, map_dropSchema _ h1, h3]
      rfl
  have e3 : lookupDict sql n.params.lookup = n.params.lookup := by
    cases hb : n.params.lookup with
    | none => rfl
    | expr e => exact absurd hb (h4 e)
    | raw v => rfl
  rw [rereadNode, e1, e2, e3]

mutual
theorem all_mono (φ ψ : Node F P E → Prop) (hφ : ∀ n, φ n → ψ n) (p : Plan F P E) (h : All φ p) : All ψ p := by
  match p with
  | .node n cs sub => rw [All] at h ⊢; exact ⟨hφ n h.1, allL_mono φ ψ hφ cs h.2.1, allO_mono φ ψ hφ sub h.2.2⟩
theorem allL_mono (φ ψ : Node F P E → Prop) (hφ : ∀ n, φ n → ψ n) (ps : List (Plan F P E)) (h : AllL φ ps) : AllL ψ ps := by
  match ps with
  | [] => rw [AllL]; trivial
  | p :: ps => rw [AllL] at h ⊢; exact ⟨all_mono φ ψ hφ p h.1, allL_mono φ ψ hφ ps h.2⟩
theorem allO_mono (φ ψ : Node F P E → Prop) (hφ : ∀ n, φ n → ψ n) (o : Option (Plan F P E)) (h : AllO φ o) : AllO ψ o := by
  match o with
  | none => rw [AllO]; trivial
  | some p => rw [AllO] at h ⊢; exact all_mono φ ψ hφ p h
end

mutual
theorem reread_simple (p : Plan F P E) (h : All (Simple sql) p) : reread sql p = p := by
  match p with
  | .node n cs sub => rw [All] at h; rw [reread, h.1.reread, rereadL_simple cs h.2.1]
theorem rereadL_simple (ps : List (Plan F P E)) (h : AllL (Simple sql) ps) : rereadL sql ps = ps := by
  match ps with
  | [] => rw [rereadL]
  | p :: ps => rw [AllL] at h; rw [rereadL, reread_simple p h.1, rereadL_simple ps h.2]
end

/-- C217: a plan of any shape, whose tables have no schemas, without subplans, sort keys and lookup keys, and whose filters
have tables and are parsed as they were, is exactly the plan that is read from its text: node types, operators, tables,
filters, all estimates and measures and all additional attributes. -/
theorem C217_plan_partial (ft : FloatText F) (hft : FloatLaw ft) (p : Plan F P E) (h : All (NodeOk num sql) p)
    (hs : All (Simple sql) p) (hn : NoSubplans p) :
    ∃ t, toJson ft (planVal num sql p) = some (some t) ∧ readPlanText ft num sql t = some p := by
  obtain ⟨t, h1, h2⟩ := C217_read_partial ft hft p h (all_mono _ _ (fun n => Simple.supported) p hs) hn
  exact ⟨t, h1, by rw [h2, reread_simple p hs]⟩

/-! ### Violations -/

/-- The root of a plan. -/
def root : Plan F P E → Node F P E
  | .node n _ _ => n

/-- C217 (violated): whenever a table of the root has a schema, the plan that is read has the table without it. -/
theorem C217_schema_violated (ft : FloatText F) (hft : FloatLaw ft) (p : Plan F P E) (h : All (NodeOk num sql) p)
    (hs : All (Supported sql) p) (hn : NoSubplans p) (t : Table) (hb : (root p).params.base = some t) (ht : t.2.2.1 ≠ []) :
    ∃ s p', toJson ft (planVal num sql p) = some (some s) ∧ readPlanText ft num sql s = some p' ∧
      (root p').params.base = some (t.1, t.2.1, [], t.2.2.2) ∧ p' ≠ p := by
  obtain ⟨s, h1, h2⟩ := C217_read_partial ft hft p h hs hn
  have hr : (root (reread sql p)).params.base = some (dropSchema t) := by
    cases p with
    | node n cs sub =>
      rw [root] at hb
      rw [reread, root, rereadNode]
      simp [hb]
  refine ⟨s, _, h1, h2, hr, fun he => ?_⟩
  rw [he, hb] at hr
  have := congrArg (fun t => t.2.2.1) (Option.some.inj hr)
  exact ht this

/-- C217 (violated): a lookup key that is an expression comes back as a dictionary. -/
theorem C217_lookup_violated (ft : FloatText F) (hft : FloatLaw ft) (p : Plan F P E) (h : All (NodeOk num sql) p)
    (hs : All (Supported sql) p) (hn : NoSubplans p) (e : E) (hb : (root p).params.lookup = .expr e) :
    ∃ s p' d, toJson ft (planVal num sql p) = some (some s) ∧ readPlanText ft num sql s = some p' ∧
      (root p').params.lookup = .raw (.dict d) := by
  obtain ⟨s, h1, h2⟩ := C217_read_partial ft hft p h hs hn
  cases p with
  | node n cs sub =>
    rw [root] at hb
    have hr : ∃ d, (root (reread sql (.node n cs sub))).params.lookup = .raw (.dict d) := by
      rw [reread, root, rereadNode]
      simp only [hb, lookupDict]
      exact ⟨_, rfl⟩
    obtain ⟨d, hd⟩ := hr
    exact ⟨s, _, d, h1, h2, hd⟩

/-- Plans that cannot be read: some node has a sort key, a subplan or a filter without tables. -/
inductive Unreadable (sql : Sql P E) : Plan F P E → Prop
  | sort {n : Node F P E} {cs : List (Plan F P E)} {sub : Option (Plan F P E)} :
      n.params.sortKeys ≠ [] → Unreadable sql (.node n cs sub)
  | subplan {n : Node F P E} {cs : List (Plan F P E)} {r : Plan F P E} : Unreadable sql (.node n cs (some r))
  | filter {n : Node F P E} {cs : List (Plan F P E)} {sub : Option (Plan F P E)} {f : P} :
      n.params.filter = some f → sql.predTables f = [] → Unreadable sql (.node n cs sub)
  | child {n : Node F P E} {cs : List (Plan F P E)} {sub : Option (Plan F P E)} {c : Plan F P E} :
      c ∈ cs → Unreadable sql c → Unreadable sql (.node n cs sub)

theorem readParams_sort (ft : FloatText F) (n : Node F P E) (h : n.params.sortKeys ≠ []) :
    readParams num sql (paramsDoc ft sql n.params) = none := by
  obtain ⟨_, _, h3, _⟩ := params_fields (sql := sql) ft n.params
  have hs : readSortKeys (E := E) (some (.arr (n.params.sortKeys.map (sortDoc sql)) : Json F)) = none := by
    cases hk : n.params.sortKeys with
    | nil => exact absurd hk h
    | cons a l => rfl
  rw [readParams, paramsDoc, entries, Option.bind_some, h3, hs]
  cases optRead num readTable (field (paramsList ft sql n.params) "base_table") with
  | none => rfl
  | some b =>
    rw [Option.bind_some]
    cases optRead num (readPred sql) (field (paramsList ft sql n.params) "filter_predicate") <;> rfl

theorem readParams_filter (ft : FloatText F) (n : Node F P E) (hn : NodeOk num sql n) (f : P) (hf : n.params.filter = some f)
    (h : sql.predTables f = []) : readParams num sql (paramsDoc ft sql n.params) = none := by
  obtain ⟨_, h2, _⟩ := params_fields (sql := sql) ft n.params
  have hp : optRead num (readPred sql) (some (optDoc (predDoc sql) n.params.filter)) = none := by
    rw [hf]
    simp only [optDoc]
    rw [predDoc, optRead_some _ _ (by simp), ← predDoc, read_pred f (hn.filter f hf), if_pos h]
    rfl
  rw [readParams, paramsDoc, entries, Option.bind_some, h2, hp]
  cases optRead num readTable (field (paramsList ft sql n.params) "base_table") <;> rfl

theorem mapM_none {β : Type} (f : Json F → Option β) (l : List (Json F)) (v : Json F) (hv : v ∈ l) (h : f v = none) :
    l.mapM f = none := by
  induction l with
  | nil => simp at hv
  | cons w l ih =>
    rw [List.mapM_cons]
    rcases List.mem_cons.1 hv with rfl | hv
    · rw [h]; rfl
    · rw [ih hv]
      cases f w <;> rfl

theorem planDocs_mem (ft : FloatText F) (ps : List (Plan F P E)) (p : Plan F P E) (h : p ∈ ps) :
    planDoc ft num sql p ∈ planDocs ft num sql ps := by
  induction ps with
  | nil => simp at h
  | cons q ps ih =>
    rw [planDocs]
    rcases List.mem_cons.1 h with rfl | h
    · exact List.mem_cons_self
    · exact List.mem_cons_of_mem _ (ih h)

theorem allL_mem (φ : Node F P E → Prop) (ps : List (Plan F P E)) (p : Plan F P E) (h : p ∈ ps) (ha : AllL φ ps) : All φ p := by
  induction ps with
  | nil => simp at h
  | cons q ps ih =>
    rw [AllL] at ha
    rcases List.mem_cons.1 h with rfl | h
    · exact ha.1
    · exact ih h ha.2

theorem read_unreadable (ft : FloatText F) (p : Plan F P E) (hu : Unreadable sql p) (h : All (NodeOk num sql) p) (m : Nat) :
    readPlan ft num sql m (planDoc ft num sql p) = none := by
  induction hu generalizing m with
  | @sort n cs sub hk =>
    rw [All] at h
    cases m with
    | zero => rfl
    | succ m =>
      rw [read_node ft n cs sub m h.1, readParams_sort ft n hk]
      cases readList (readPlan ft num sql m) (.arr (planDocs ft num sql cs)) <;> rfl
  | @subplan n cs r =>
    rw [All] at h
    cases m with
    | zero => rfl
    | succ m =>
      rw [read_node ft n cs (some r) m h.1]
      cases readList (readPlan ft num sql m) (.arr (planDocs ft num sql cs)) with
      | none => rfl
      | some cs' =>
        rw [Option.bind_some]
        cases readParams num sql (paramsDoc ft sql n.params) <;> rfl
  | @filter n cs sub f hf ht =>
    rw [All] at h
    cases m with
    | zero => rfl
    | succ m =>
      rw [read_node ft n cs sub m h.1, readParams_filter ft n h.1 f hf ht]
      cases readList (readPlan ft num sql m) (.arr (planDocs ft num sql cs)) <;> rfl
  | @child n cs sub c hc hu ih =>
    rw [All] at h
    cases m with
    | zero => rfl
    | succ m =>
      rw [read_node ft n cs sub m h.1, readList,
        mapM_none _ _ _ (planDocs_mem ft cs c hc) (ih (allL_mem _ _ _ hc h.2.1) m)]
      rfl

/-- C217 (violated): plans with a sort key, a subplan or a filter without tables in any node can be written, but reading
the text always raises an exception. -/
theorem C217_fails_violated (ft : FloatText F) (hft : FloatLaw ft) (p : Plan F P E) (h : All (NodeOk num sql) p)
    (hu : Unreadable sql p) : ∃ t, toJson ft (planVal num sql p) = some (some t) ∧ readPlanText ft num sql t = none := by
  refine ⟨_, text_plan ft p h, ?_⟩
  rw [readPlanText, loads_plan ft hft p h, Option.bind_some, read_unreadable ft p hu h]

/-- The node with another estimated cardinality. -/
def withCard (n : Node F P E) (i : Int) : Node F P E := { n with est := { n.est with card := .val i } }

/-- C217 (violated): plans whose estimated cardinalities are equal as floats (e.g. 2^53 and 2^53 + 1) have the same
text, although cardinalities are integers. -/
theorem C217_precision_violated (ft : FloatText F) (n : Node F P E) (cs : List (Plan F P E)) (sub : Option (Plan F P E))
    (i k : Int) (h : num.ofInt i = num.ofInt k) :
    toJson ft (planVal num sql (.node (withCard n i) cs sub)) = toJson ft (planVal num sql (.node (withCard n k) cs sub)) := by
  have : planVal num sql (.node (withCard n i) cs sub) = planVal num sql (.node (withCard n k) cs sub) := by
    rw [planVal, planVal, withCard, withCard, estVal, estVal, cardVal, cardVal, h]
  rw [this]

/-- C217 (violated): a plan whose estimated cardinality is too large for a float cannot be written. -/
theorem C217_overflow_violated (ft : FloatText F) (n : Node F P E) (cs : List (Plan F P E)) (sub : Option (Plan F P E))
    (i : Int) (h : num.ofInt i = none) : toJson ft (planVal num sql (.node (withCard n i) cs sub)) = none := by
  rw [C216_errors]
  rw [planVal]
  refine .inJson (.inDict (k := key "estimates") (v := estVal num (withCard n i).est) (by simp) ?_)
  refine .inJson (.inDict (k := key "cardinality") (v := cardVal num (.val i)) (by simp [withCard]) ?_)
  simp only [cardVal, h]
  exact .object _

/-! ### Operators -/

/-- A valid table without schema. -/
def PlainTable (t : Table) : Prop := ValidTable t ∧ t.2.2.1 = []

/-- Assignments as the classes allow them: sets of tables without schemas, at least two tables are joined, and the number
of workers is a plain value. -/
def OperatorOk : Operator F → Prop
  | .op _ => True
  | .scan _ t w => PlainTable t ∧ Plain w
  | .join _ ts w => ts.Nodup ∧ 2 ≤ ts.length ∧ (∀ t ∈ ts, PlainTable t) ∧ Plain w
  | .djoin _ i u w => i.Nodup ∧ u.Nodup ∧ i ≠ [] ∧ u ≠ [] ∧ 2 ≤ (i ++ u).dedup.length ∧ (∀ t ∈ i, PlainTable t) ∧
      (∀ t ∈ u, PlainTable t) ∧ Plain w

theorem encode_operator (ft : FloatText F) (b : Bool) (o : Operator F) (h : OperatorOk o) :
    encode ft b (operatorVal o) = some (operatorDoc ft o) := by
  have enum : ∀ b (s : Str), encode ft b (.enum (.str s)) = some (.str s) := by
    intro b s; rw [encode, encode]
  cases o with
  | op o => exact enum b _
  | scan o t w =>
    exact encode_obj ft b _ _ (encodeDict_cons ft _ _ _ _ _ _ (encode_str ft _ _) (encodeDict_cons ft _ _ _ _ _ _
      (encode_table ft _ t) (encodeDict_cons ft _ _ _ _ _ _ ((Plain.doc ft h.2).1 _) (encodeDict_nil ft _))))
  | join o ts w =>
    exact encode_obj ft b _ _ (encodeDict_cons ft _ _ _ _ _ _ (encode_bool ft _ _) (encodeDict_cons ft _ _ _ _ _ _
      (encode_str ft _ _) (encodeDict_cons ft _ _ _ _ _ _ (encode_set ft _ _ _ _ fun t _ => encode_table ft _ t)
      (encodeDict_cons ft _ _ _ _ _ _ ((Plain.doc ft h.2.2.2).1 _) (encodeDict_nil ft _)))))
  | djoin o i u w =>
    exact encode_obj ft b _ _ (encodeDict_cons ft _ _ _ _ _ _ (encode_bool ft _ _) (encodeDict_cons ft _ _ _ _ _ _
      (enum _ _) (encodeDict_cons ft _ _ _ _ _ _ (encode_set ft _ _ _ _ fun t _ => encode_table ft _ t)
      (encodeDict_cons ft _ _ _ _ _ _ (encode_set ft _ _ _ _ fun t _ => encode_table ft _ t)
      (encodeDict_cons ft _ _ _ _ _ _ ((Plain.doc ft h.2.2.2.2.2.2.2).1 _) (encodeDict_nil ft _))))))

theorem distinct_operator (ft : FloatText F) (o : Operator F) (h : OperatorOk o) : Distinct (operatorDoc ft o) := by
  cases o with
  | op o => exact distinct_str _
  | scan o t w =>
    exact distinct_obj _ (by simp only [List.map_cons, List.map_nil]; decide +kernel)
      (distinctE_cons _ _ _ (distinct_str _) (distinctE_cons _ _ _ (distinct_table _)
      (distinctE_cons _ _ _ (Plain.doc ft h.2).2.2 distinctE_nil)))
  | join o ts w =>
    exact distinct_obj _ (by simp only [List.map_cons, List.map_nil]; decide +kernel)
      (distinctE_cons _ _ _ (distinct_bool _) (distinctE_cons _ _ _ (distinct_str _)
      (distinctE_cons _ _ _ (distinct_arr _ (distinctL_map _ _ fun t _ => distinct_table t))
      (distinctE_cons _ _ _ (Plain.doc ft h.2.2.2).2.2 distinctE_nil))))
  | djoin o i u w =>
    exact distinct_obj _ (by simp only [List.map_cons, List.map_nil]; decide +kernel)
      (distinctE_cons _ _ _ (distinct_bool _) (distinctE_cons _ _ _ (distinct_str _)
      (distinctE_cons _ _ _ (distinct_arr _ (distinctL_map _ _ fun t _ => distinct_table t))
      (distinctE_cons _ _ _ (distinct_arr _ (distinctL_map _ _ fun t _ => distinct_table t))
      (distinctE_cons _ _ _ (Plain.doc ft h.2.2.2.2.2.2.2).2.2 distinctE_nil)))))

theorem read_plainTables (l : List Table) (h : ∀ t ∈ l, PlainTable t) : readTables (.arr (l.map tableDoc) : Json F) = some l := by
  rw [read_tables l fun t ht => (h t ht).1, map_dropSchema l fun t ht => (h t ht).2]

theorem read_assignment (ft : FloatText F) (o : Operator F) (h : OperatorOk o) (hn : ∀ p, o ≠ .op p) :
    readAssignment num (operatorDoc ft o) = some o := by
  cases o with
  | op o => exact absurd rfl (hn o)
  | scan o t w =>
    rw [operatorDoc, readAssignment, entries, Option.bind_some, field_there _ "operator" _ _ (by decide),
      field_there _ "table" _ _ (by decide), field_here, field_there _ "operator" _ _ (by decide), field_here, field_here]
    simp only [Option.getD_some, (Plain.doc ft h.2).2.1, read_table t h.1.1, Option.bind_some, dropSchema_simple t h.1.2,
      scanOpOf, opOf_text, Option.map_some]
  | join o ts w =>
    have f1 : ∀ k : String, k ≠ "directional" → k ≠ "operator" → k ≠ "join" → k ≠ "parallel_workers" →
        field [("directional".toList, .bool false), ("operator".toList, .str (opText (.join o)).toList),
          ("join".toList, .arr (ts.map tableDoc)), ("parallel_workers".toList, valDoc ft w)] k = none := by
      intro k h1 h2 h3 h4
      rw [field_there _ _ _ _ (Ne.symm h1), field_there _ _ _ _ (Ne.symm h2), field_there _ _ _ _ (Ne.symm h3),
        field_there _ _ _ _ (Ne.symm h4), field_nil]
    have f2 : field [("directional".toList, .bool false), ("operator".toList, .str (opText (.join o)).toList),
          ("join".toList, .arr (ts.map tableDoc)), ("parallel_workers".toList, valDoc ft w)] "join" = some (.arr (ts.map tableDoc)) := by
      rw [field_there _ _ _ _ (by decide), field_there _ _ _ _ (by decide), field_here]
    have f3 : field [("directional".toList, .bool false), ("operator".toList, .str (opText (.join o)).toList),
          ("join".toList, .arr (ts.map tableDoc)), ("parallel_workers".toList, valDoc ft w)] "operator" =
          some (.str (opText (.join o)).toList) := by
      rw [field_there _ _ _ _ (by decide), field_here]
    have f4 : field [("directional".toList, .bool false), ("operator".toList, .str (opText (.join o)).toList),
          ("join".toList, .arr (ts.map tableDoc)), ("parallel_workers".toList, valDoc ft w)] "parallel_workers" = some (valDoc ft w) := by
      rw [field_there _ _ _ _ (by decide), field_there _ _ _ _ (by decide), field_there _ _ _ _ (by decide), field_here]
    have hl : ¬ ts.length < 2 := by have := h.2.1; omega
    rw [operatorDoc, readAssignment, entries, Option.bind_some, f1 "table" (by decide) (by decide) (by decide) (by decide)]
    simp only [f2, f3, f4, field_here, Option.isNone_some, false_and, if_false, Option.bind_some, joinOpOf, opOf_text,
      loaded, truthy, Bool.false_eq_true, read_plainTables ts h.2.2.1, if_neg hl, Option.getD_some, (Plain.doc ft h.2.2.2).2.1,
      h.1.dedup]
  | djoin o i u w =>
    obtain ⟨hi, hu, hi', hu', hl, hpi, hpu, hw⟩ := h
    have f1 : ∀ k : String, k ≠ "directional" → k ≠ "operator" → k ≠ "inner" → k ≠ "outer" → k ≠ "parallel_workers" →
        field [("directional".toList, .bool true), ("operator".toList, .str (opText (.join o)).toList),
          ("inner".toList, .arr (i.map tableDoc)), ("outer".toList, .arr (u.map tableDoc)), ("parallel_workers".toList, valDoc ft w)] k = none := by
      intro k h1 h2 h3 h4 h5
      rw [field_there _ _ _ _ (Ne.symm h1), field_there _ _ _ _ (Ne.symm h2), field_there _ _ _ _ (Ne.symm h3),
        field_there _ _ _ _ (Ne.symm h4), field_there _ _ _ _ (Ne.symm h5), field_nil]
    have f2 : field [("directional".toList, .bool true), ("operator".toList, .str (opText (.join o)).toList),
          ("inner".toList, .arr (i.map tableDoc)), ("outer".toList, .arr (u.map tableDoc)), ("parallel_workers".toList, valDoc ft w)] "inner" = some (.arr (i.map tableDoc)) := by
      rw [field_there _ _ _ _ (by decide), field_there _ _ _ _ (by decide), field_here]
    have f3 : field [("directional".toList, .bool true), ("operator".toList, .str (opText (.join o)).toList),
          ("inner".toList, .arr (i.map tableDoc)), ("outer".toList, .arr (u.map tableDoc)), ("parallel_workers".toList, valDoc ft w)] "operator" =
          some (.str (opText (.join o)).toList) := by
      rw [field_there _ _ _ _ (by decide), field_here]
    have f4 : field [("directional".toList, .bool true), ("operator".toList, .str (opText (.join o)).toList),
          ("inner".toList, .arr (i.map tableDoc)), ("outer".toList, .arr (u.map tableDoc)), ("parallel_workers".toList, valDoc ft w)] "outer" = some (.arr (u.map tableDoc)) := by
      rw [field_there _ _ _ _ (by decide), field_there _ _ _ _ (by decide), field_there _ _ _ _ (by decide), field_here]
    have f5 : field [("directional".toList, .bool true), ("operator".toList, .str (opText (.join o)).toList),
          ("inner".toList, .arr (i.map tableDoc)), ("outer".toList, .arr (u.map tableDoc)), ("parallel_workers".toList, valDoc ft w)] "parallel_workers" = some (valDoc ft w) := by
      rw [field_there _ _ _ _ (by decide), field_there _ _ _ _ (by decide), field_there _ _ _ _ (by decide),
        field_there _ _ _ _ (by decide), field_here]
    have hc : ¬ (i.isEmpty = true ∨ u.isEmpty = true ∨ (i ++ u).dedup.length < 2) := by
      simp only [List.isEmpty_iff, not_or]
      exact ⟨hi', hu', by omega⟩
    rw [operatorDoc, readAssignment, entries, Option.bind_some, f1 "table" (by decide) (by decide) (by decide) (by decide) (by decide)]
    simp only [f2, f3, f4, f5, f1 "join" (by decide) (by decide) (by decide) (by decide) (by decide), field_here, Option.isNone_none,
      Option.isSome_some, and_self, not_true_eq_false, and_false, if_false, Option.bind_some, joinOpOf, opOf_text,
      loaded, truthy, if_true, read_plainTables i hpi, read_plainTables u hpu, if_neg hc, Option.getD_some, (Plain.doc ft hw).2.1,
      hi.dedup, hu.dedup]

/-- C217: an operator or an assignment whose tables have no schemas is read from the document that represents it. -/
theorem C217_operator_partial (ft : FloatText F) (hft : FloatLaw ft) (o : Operator F) (h : OperatorOk o) :
    ∃ t j, toJson ft (operatorVal o) = some (some t) ∧ loads ft t = some j ∧ readOperator ft num j = some (some o) := by
  refine ⟨dumps ft (operatorDoc ft o), operatorDoc ft o, toJson_encode ft _ _ (encode_operator ft false o h) ?_, ?_, ?_⟩
  · cases o <;> simp [operatorVal, obj]
  · rw [C216_loads ft hft, lastValues_distinct _ (distinct_operator ft o h)]
  · cases o with
    | op p => exact read_op ft (some (.op p)) (.inr ⟨p, rfl⟩)
    | scan o t w =>
      have := read_assignment (num := num) ft (.scan o t w) h (by simp)
      have ht : truthy num (loaded (operatorDoc ft (.scan o t w))) = true := truthy_obj _ (by simp)
      rw [readOperator, ht]
      · simp [this]
      · intro s hs; simp [operatorDoc] at hs
    | join o ts w =>
      have := read_assignment (num := num) ft (.join o ts w) h (by simp)
      have ht : truthy num (loaded (operatorDoc ft (.join o ts w))) = true := truthy_obj _ (by simp)
      rw [readOperator, ht]
      · simp [this]
      · intro s hs; simp [operatorDoc] at hs
    | djoin o i u w =>
      have := read_assignment (num := num) ft (.djoin o i u w) h (by simp)
      have ht : truthy num (loaded (operatorDoc ft (.djoin o i u w))) = true := truthy_obj _ (by simp)
      rw [readOperator, ht]
      · simp [this]
      · intro s hs; simp [operatorDoc] at hs

/-- C217 (violated): `read_operator_json` does not accept the text of an operator (only of an assignment). -/
theorem C217_operator_violated (ft : FloatText F) (hft : FloatLaw ft) (o : PhysOp) :
    ∃ t, toJson ft (operatorVal (.op o) : Val F) = some (some t) ∧ readOperatorText ft num t = none := by
  refine ⟨dumps ft (operatorDoc ft (.op o)), toJson_encode ft _ _ (encode_operator ft false _ trivial) (by simp [operatorVal]), ?_⟩
  have h1 : loads ft (dumps ft (operatorDoc ft (.op o))) = some (operatorDoc ft (.op o)) := by
    rw [C216_loads ft hft, lastValues_distinct _ (distinct_operator ft (.op o) trivial)]
  have h2 : dumps ft (operatorDoc ft (.op o)) = '"' :: ((opText o).toList.flatMap escChar ++ ['"']) := by
    rw [operatorDoc, dumps]; rfl
  have h3 : opOf (dumps ft (operatorDoc ft (.op o))) = none := by
    rw [h2, opOf, List.find?_eq_none]
    intro p hp
    have key : ∀ p ∈ PB.Hints.allOps, (opText p).toList.head? ≠ some '"' := by decide +kernel
    have := key p hp
    simp only [decide_eq_true_eq]
    intro he
    rw [he] at this
    exact this rfl
  rw [readOperatorText, readOperator, loaded, h3, h1]
  rw [h2]
  rfl

/-! ### Instances -/

/-- Whole numbers up to 1000 are floats. -/
def smallNum : Num Nat where
  ofInt i := if 0 ≤ i ∧ i ≤ 1000 then some i.toNat else none
  round n := n
  isZero n := n == 0

/-- Predicates and expressions are texts with their tables. -/
def textSql : Sql (List Table × Str) (List Table × Str) where
  predTables f := f.1
  predText f := f.2
  exprTables e := e.1
  exprText e := e.2
  parse ts s := some (ts, s)

abbrev XNode := Node Nat (List Table × Str) (List Table × Str)
abbrev XPlan := Plan Nat (List Table × Str) (List Table × Str)

def title : Table := ("title".toList, "t".toList, [], false)
def info : Table := ("movie_info".toList, "mi".toList, "imdb".toList, false)

/-- A node with estimates, measures and an additional attribute. -/
def mkNode (type : String) (op : PhysOp) (base : Option Table) (filter : Option (List Table × Str)) (card : Nat) : XNode :=
  ⟨type.toList, some (.op op), ⟨base, filter, [], .int 2, .str [], .none, [("width".toList, .int 8)]⟩,
    ⟨.val card, .flt (.fin 7), []⟩, ⟨.inf, .flt .nan, .none, .none, []⟩, []⟩

/-- A scan below a join. -/
def joinPlan (base : Table) : XPlan :=
  .node (mkNode "Hash Join" (.join .hash) none none 40)
    [.node (mkNode "Seq Scan" (.scan .seqScan) (some base) (some ([title], "t.year > 2000".toList)) 1000) [] none] none

theorem plain_int (i : Int) : Plain (F := F) (.int i) := ⟨.int i, by simp [Distinct], by rw [value]⟩
theorem plain_flt (x : JsonText.Flt F) : Plain (F := F) (.flt x) := ⟨.flt x, by simp [Distinct], by rw [value]⟩
theorem plain_none : Plain (F := F) .none := ⟨.null, by simp [Distinct], by rw [value]⟩
theorem plain_str (s : Str) : Plain (F := F) (.str s) := ⟨.str s, by simp [Distinct], by rw [value]⟩

theorem mkNode_ok (type : String) (op : PhysOp) (base : Option Table) (filter : Option (List Table × Str)) (card : Nat)
    (h1 : type.toList ≠ []) (h2 : ∀ t, base = some t → ValidTable t) (h3 : ∀ f, filter = some f → ∀ t ∈ f.1, ValidTable t)
    (h4 : card ≤ 1000) : NodeOk smallNum textSql (mkNode type op base filter card) where
  type := h1
  operator := .inr ⟨op, rfl⟩
  base := h2
  filter := h3
  workers := ⟨plain_int _, .inl rfl⟩
  index := ⟨plain_str _, .inr rfl⟩
  lookup := trivial
  extra := ⟨by simp only [mkNode, List.map_cons, List.map_nil]; decide +kernel, by
    intro e he; simp only [mkNode, List.mem_singleton] at he; rw [he]; exact plain_int _⟩
  estCard := ⟨card, by simp [smallNum]; omega, rfl⟩
  cost := plain_flt _
  estExtra := ⟨by simp only [mkNode, List.map_nil]; decide +kernel, by intro e he; simp [mkNode] at he⟩
  measCard := trivial
  time := plain_flt _
  hits := plain_none
  misses := plain_none
  measExtra := ⟨by simp only [mkNode, List.map_nil]; decide +kernel, by intro e he; simp [mkNode] at he⟩

theorem title_valid : ValidTable title := ⟨.inl (by decide +kernel), fun _ => by decide +kernel⟩
theorem info_valid : ValidTable info := ⟨.inl (by decide +kernel), fun _ => by decide +kernel⟩

theorem joinPlan_ok (base : Table) (h : ValidTable base) : All (NodeOk smallNum textSql) (joinPlan base) := by
  simp only [joinPlan, All, AllL, AllO]
  refine ⟨mkNode_ok _ _ _ _ _ (by decide +kernel) (by simp) (by simp) (by decide), ⟨⟨mkNode_ok _ _ _ _ _ (by decide +kernel) ?_ ?_
    (by decide), trivial, trivial⟩, trivial⟩, trivial⟩
  · intro t ht
    rw [← Option.some.inj ht]; exact h
  · intro f hf t ht
    rw [← Option.some.inj hf] at ht
    rw [List.mem_singleton.1 ht]; exact title_valid

theorem joinPlan_noSubplans (base : Table) : NoSubplans (joinPlan base) := by
  simp [joinPlan, NoSubplans, NoSubplansL, mkNode]

theorem joinPlan_simple : All (Simple textSql) (joinPlan title) := by
  simp only [joinPlan, All, AllL, AllO, Simple, mkNode, textSql, title]
  refine ⟨by simp, ⟨⟨?_, by simp⟩, by simp⟩, by simp⟩
  refine ⟨by simp, ?_, by simp, by simp⟩
  intro f hf
  rw [← Option.some.inj hf]
  simp

/-- A join above a scan with a filter is read as it was written. -/
example : ∃ t, toJson wholeFloats (planVal smallNum textSql (joinPlan title)) = some (some t) ∧
    readPlanText wholeFloats smallNum textSql t = some (joinPlan title) :=
  C217_plan_partial _ wholeFloats_law _ (joinPlan_ok _ title_valid) joinPlan_simple (joinPlan_noSubplans _)

/-- A scan of a table with a schema. -/
def infoScan : XPlan := .node (mkNode "Seq Scan" (.scan .seqScan) (some info) none 7) [] none

theorem infoScan_ok : All (NodeOk smallNum textSql) infoScan := by
  rw [infoScan, All, AllL, AllO]
  refine ⟨mkNode_ok _ _ _ _ _ (by decide +kernel) ?_ (by simp) (by decide), trivial, trivial⟩
  intro t ht
  rw [← Option.some.inj ht]; exact info_valid

/-- The schema of `imdb.movie_info` is lost. -/
example : ∃ s p', toJson wholeFloats (planVal smallNum textSql infoScan) = some (some s) ∧
    readPlanText wholeFloats smallNum textSql s = some p' ∧
    (root p').params.base = some ("movie_info".toList, "mi".toList, [], false) ∧ p' ≠ infoScan :=
  C217_schema_violated _ wholeFloats_law _ infoScan_ok (by simp [infoScan, All, AllL, AllO, Supported, mkNode])
    (by simp [infoScan, NoSubplans, NoSubplansL, mkNode]) info rfl (by decide +kernel)

/-- The same scan with a lookup key: the column becomes a dictionary. -/
example : ∃ s p' d, toJson wholeFloats (planVal smallNum textSql (.node { mkNode "Seq Scan" (.scan .seqScan) (some title) none 7 with
      params := ⟨some title, none, [], .int 2, .str [], .expr ([title], "t.id".toList), []⟩ } [] none : XPlan)) = some (some s) ∧
    readPlanText wholeFloats smallNum textSql s = some p' ∧ (root p').params.lookup = .raw (.dict d) := by
  have h0 := mkNode_ok "Seq Scan" (.scan .seqScan) (some title) none 7 (by decide +kernel)
    (by intro t ht; rw [← Option.some.inj ht]; exact title_valid) (by simp) (by decide)
  refine C217_lookup_violated _ wholeFloats_law _ ?_ ?_ ?_ ([title], "t.id".toList) rfl
  · rw [All, AllL, AllO]
    exact ⟨{ h0 with lookup := trivial, extra := ⟨by simp only [List.map_nil]; decide +kernel, by simp⟩ }, trivial, trivial⟩
  · simp [All, AllL, AllO, Supported]
  · simp [NoSubplans, NoSubplansL, mkNode]

/-- A plan with a subplan can be written but not read. -/
example : ∃ t, toJson wholeFloats (planVal smallNum textSql (.node (mkNode "Seq Scan" (.scan .seqScan) (some title) none 7) [] (some infoScan) :
      XPlan)) = some (some t) ∧ readPlanText wholeFloats smallNum textSql t = none := by
  refine C217_fails_violated _ wholeFloats_law _ ?_ .subplan
  rw [All, AllL, AllO]
  refine ⟨mkNode_ok _ _ _ _ _ (by decide +kernel) ?_ (by simp) (by decide), trivial, infoScan_ok⟩
  intro t ht
  rw [← Option.some.inj ht]; exact title_valid

/-- Floats that are half as precise as integers. -/
example : toJson wholeFloats (planVal ⟨fun i => some (i.toNat / 2 * 2), fun n => n, fun n => n == 0⟩ textSql
      (.node (withCard (mkNode "Seq Scan" (.scan .seqScan) (some title) none 7) 8) [] none : XPlan)) =
    toJson wholeFloats (planVal ⟨fun i => some (i.toNat / 2 * 2), fun n => n, fun n => n == 0⟩ textSql
      (.node (withCard (mkNode "Seq Scan" (.scan .seqScan) (some title) none 7) 9) [] none : XPlan)) :=
  C217_precision_violated _ _ _ _ 8 9 rfl

example : toJson wholeFloats (planVal smallNum textSql
    (.node (withCard (mkNode "Seq Scan" (.scan .seqScan) (some title) none 7) 1001) [] none : XPlan)) = none :=
  C217_overflow_violated _ _ _ _ 1001 rfl

/-- A directional join is read as it was written. -/
example : ∃ t j, toJson wholeFloats (operatorVal (.djoin .hash [title] [("cast_info".toList, [], [], false)] (.int 4))) =
      some (some t) ∧ loads wholeFloats t = some j ∧ readOperator wholeFloats smallNum j =
      some (some (.djoin .hash [title] [("cast_info".toList, [], [], false)] (.int 4))) := by
  refine C217_operator_partial _ wholeFloats_law _ ⟨by simp, by simp, by simp, by simp, by decide +kernel, ?_, ?_, plain_int _⟩
  · intro t ht
    rw [List.mem_singleton.1 ht]; exact ⟨title_valid, rfl⟩
  · intro t ht
    rw [List.mem_singleton.1 ht]; exact ⟨⟨.inl (by decide +kernel), fun h => absurd rfl h⟩, rfl⟩

example : ∃ t, toJson wholeFloats (operatorVal (.op (.join .hash))) = some (some t) ∧
    readOperatorText wholeFloats smallNum t = none := C217_operator_violated _ wholeFloats_law _

end PB.PlanJsonProps
