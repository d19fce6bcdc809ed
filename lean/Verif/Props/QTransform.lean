import Verif.Model.QTransform
import Verif.Props.Rename
import Verif.Props.EqHash
import Verif.Props.TransformPreds
import Mathlib.Logic.Encodable.Basic
import Mathlib.Logic.Equiv.List

set_option linter.unusedSimpArgs false
set_option linter.unusedVariables false
set_option linter.unusedSectionVars false
set_option linter.unnecessarySimpa false
set_option linter.unnecessarySeqFocus false
set_option linter.dupNamespace false

/-! Properties C130 - C134: transformations of whole queries. -/

namespace PB.QTransformProps

open PB PB.Qal PB.Qal.Expr PB.ExprProps PB.PredProps PB.EqHash PB.EqHashProps PB.QTransform
open PB.Transform hiding Source
open PB.TransformProps (NotFree)
open PB.RenameProps (renNode renamed mapCols mapColsL mapColsO mapColsL_eq mapColsO_eq)

variable {Q : Type}

/-! ### Specification: what it means to rename -/

mutual
/-- Replaces every column `c` by `σ c`, every table `t` of a star by `τ t` and every subquery `q` by `μ q`, and nothing else. -/
def mapX (σ : Col → Col) (τ : Tab → Tab) (μ : Q → Q) : Expr Q → Expr Q
  | .static v => .static v
  | .star t => .star (t.map τ)
  | .col c => .col (σ c)
  | .cast e ty ps arr => .cast (mapX σ τ μ e) ty (mapXL σ τ μ ps) arr
  | .math op a bs => .math op (mapX σ τ μ a) (mapXL σ τ μ bs)
  | .arrGet a i l u => .arrGet (mapX σ τ μ a) (mapXO σ τ μ i) (mapXO σ τ μ l) (mapXO σ τ μ u)
  | .func n args d f => .func n (mapXL σ τ μ args) d (mapXO σ τ μ f)
  | .subq q => .subq (μ q)
  | .window fn p o ds f => .window (mapX σ τ μ fn) (mapXL σ τ μ p) (mapXL σ τ μ o) ds (mapXO σ τ μ f)
  | .case w t s e => .case (mapXL σ τ μ w) (mapXL σ τ μ t) (mapXO σ τ μ s) (mapXO σ τ μ e)
  | .quant q e => .quant q (mapX σ τ μ e)
  | .array es => .array (mapXL σ τ μ es)
  | .binary op a b => .binary op (mapX σ τ μ a) (mapX σ τ μ b)
  | .between e l u => .between (mapX σ τ μ e) (mapX σ τ μ l) (mapX σ τ μ u)
  | .inP e vs => .inP (mapX σ τ μ e) (mapXL σ τ μ vs)
  | .unary e op => .unary (mapX σ τ μ e) op
  | .compound op cs => .compound op (mapXL σ τ μ cs)
def mapXL (σ : Col → Col) (τ : Tab → Tab) (μ : Q → Q) : List (Expr Q) → List (Expr Q)
  | [] => []
  | e :: es => mapX σ τ μ e :: mapXL σ τ μ es
def mapXO (σ : Col → Col) (τ : Tab → Tab) (μ : Q → Q) : Option (Expr Q) → Option (Expr Q)
  | none => none
  | some e => some (mapX σ τ μ e)
end

/-- A change of names: of columns (`col`), of tables (`tab`), of the names of subqueries (`name`), of the names of WITH queries (`target`), and of the list of
tables of an implicit FROM clause (`list`, applied after `tab`). -/
structure Ren where
  col : Col → Col
  tab : Tab → Tab
  name : String → String
  target : Target → Target
  list : List Tab → List Tab

/-- A change of names in a table source. -/
def mapSource (r : Ren) (μ : Q → Q) : Source Q → Source Q
  | .table t => .table (r.tab t)
  | .subquery q n lateral => .subquery (μ q) (r.name n) lateral
  | .values rows t cols => .values rows t cols
  | .func f n => .func (mapX r.col r.tab μ f) n
  | .join a b c ty => .join (mapSource r μ a) (mapSource r μ b) (c.map (mapX r.col r.tab μ)) ty

/-- The table of a table source that is just a table. -/
def directTab : Source Q → Option Tab
  | .table t => some t
  | _ => none

/-- A change of names in a FROM clause. -/
def mapFrom (r : Ren) (μ : Q → Q) (f : From Q) : From Q :=
  if f.cls = .implicit then ⟨f.cls, (r.list ((f.items.filterMap directTab).map r.tab)).map .table⟩ else ⟨f.cls, f.items.map (mapSource r μ)⟩

/-- A change of names in a WITH query. -/
def mapWith (r : Ren) (μ : Q → Q) : With Q → With Q
  | .query q t m => .query (μ q) (r.target t) m
  | .values rows t cols m => .values rows t cols m

/-- A change of names in a plain query: in all expressions, table sources and WITH queries; everything else is kept. -/
def mapSel (r : Ren) (μ : Q → Q) (s : Sel Q) : Sel Q where
  cls := s.cls
  hints := s.hints
  explain := s.explain
  cte := s.cte.map fun c => ⟨c.queries.map (mapWith r μ), c.recursive⟩
  select := ⟨s.select.targets.map fun p => ⟨mapX r.col r.tab μ p.expr, p.name⟩, s.select.distinct, s.select.cols.map (mapX r.col r.tab μ)⟩
  src := s.src.map (mapFrom r μ)
  where_ := s.where_.map (mapX r.col r.tab μ)
  groupBy := s.groupBy.map fun g => ⟨g.cols.map (mapX r.col r.tab μ), g.distinct⟩
  having_ := s.having_.map (mapX r.col r.tab μ)
  orderBy := s.orderBy.map fun l => l.map fun o => ⟨mapX r.col r.tab μ o.expr, o.dir⟩
  limit := s.limit

/-- A change of names in a query. -/
def mapStmt (r : Ren) (μ : Q → Q) : Stmt Q → Stmt Q
  | .sel s => .sel (mapSel r μ s)
  | .set a b op cte o m h e =>
    .set (mapStmt r μ a) (mapStmt r μ b) op (cte.map fun c => ⟨c.queries.map (mapWith r μ), c.recursive⟩)
      (o.map fun l => l.map fun o => ⟨mapX r.col r.tab μ o.expr, o.dir⟩) m h e

/-- A change of names in a query and all its subqueries. -/
def mapAt (r : Ren) : (n : Nat) → QH n → QH n
  | 0, q => q.elim
  | n + 1, q => mapStmt r (mapAt r n) q

/-- The expressions of a table source. -/
def srcExprs : Source Q → List (Expr Q)
  | .func f _ => [f]
  | .join a b c _ => srcExprs a ++ srcExprs b ++ c.toList
  | _ => []

/-- The queries of a table source. -/
def srcQueries : Source Q → List Q
  | .subquery q _ _ => [q]
  | .join a b _ _ => srcQueries a ++ srcQueries b
  | _ => []

/-- The table sources of a FROM clause that are no joins. -/
def srcLeaves : Source Q → List (Source Q)
  | .join a b _ _ => srcLeaves a ++ srcLeaves b
  | s => [s]

/-- The expressions of a plain query (except those of DISTINCT ON). -/
def exprs (s : Sel Q) : List (Expr Q) :=
  s.select.targets.map (·.expr) ++ (s.src.toList.flatMap fun f => f.items.flatMap srcExprs) ++ s.where_.toList ++ (s.groupBy.toList.flatMap fun g => g.cols) ++
    s.having_.toList ++ s.orderBy.toList.flatten.map (·.expr)

/-- The query of a WITH query. -/
def withQuery : With Q → Option Q
  | .query q _ _ => some q
  | .values .. => none

/-- `q` is used in the WITH clause, the FROM clause or an expression of the query. -/
def Direct (q : Q) (s : Sel Q) : Prop :=
  (∃ c ∈ s.cte, ∃ w ∈ c.queries, withQuery w = some q) ∨ (∃ f ∈ s.src, ∃ i ∈ f.items, q ∈ srcQueries i) ∨ ∃ e ∈ exprs s, Sub (.subq q) e

/-- A plain query of which all subqueries (on all levels) are plain queries, too, and satisfy `P`. -/
def AllAt (P : (Q : Type) → Sel Q → Prop) : (n : Nat) → QH n → Prop
  | 0, q => q.elim
  | n + 1, q => ∃ s : Sel (QH n), q = .sel s ∧ P (QH n) s ∧ ∀ q', Direct q' s → AllAt P n q'

/-! ### Lemmas about expressions -/

theorem mapXL_eq (σ : Col → Col) (τ : Tab → Tab) (μ : Q → Q) (l : List (Expr Q)) : mapXL σ τ μ l = l.map (mapX σ τ μ) := by
  induction l with
  | nil => simp [mapXL]
  | cons a l ih => simp [mapXL, ih]

theorem mapXO_eq (σ : Col → Col) (τ : Tab → Tab) (μ : Q → Q) (o : Option (Expr Q)) : mapXO σ τ μ o = o.map (mapX σ τ μ) := by
  cases o <;> simp [mapXO]

theorem subs_mapX (σ : Col → Col) (τ : Tab → Tab) (μ : Q → Q) (e : Expr Q) : (mapX σ τ μ e).subs = e.subs.map (mapX σ τ μ) := by
  have h : ∀ o : Option (Expr Q), (o.map (mapX σ τ μ)).toList = o.toList.map (mapX σ τ μ) := by
    intro o; cases o <;> simp
  cases e <;> simp [mapX, subs, mapXL_eq, mapXO_eq, h]

/-- Two maps that agree on the subqueries agree. -/
theorem mapX_congr (σ : Col → Col) (τ : Tab → Tab) (μ ν : Q → Q) (e : Expr Q) (h : ∀ q, Sub (.subq q) e → μ q = ν q) :
    mapX σ τ μ e = mapX σ τ ν e := by
  induction e using Expr.ind with
  | h e ih =>
    have ih' : ∀ c ∈ e.subs, mapX σ τ μ c = mapX σ τ ν c := fun c hc => ih c hc fun q hq => h q (hq.trans (.of_mem hc))
    have hl : ∀ l : List (Expr Q), (∀ c ∈ l, c ∈ e.subs) → l.map (mapX σ τ μ) = l.map (mapX σ τ ν) := fun l hl =>
      List.map_congr_left fun c hc => ih' c (hl c hc)
    have ho : ∀ o : Option (Expr Q), (∀ c ∈ o, c ∈ e.subs) → o.map (mapX σ τ μ) = o.map (mapX σ τ ν) := by
      intro o ho; cases o with
      | none => rfl
      | some a => simp [ih' a (ho a rfl)]
    cases e with
    | subq q => simp [mapX, h q (.refl _)]
    | static | star | col => simp [mapX]
    | _ =>
      simp only [mapX, mapXL_eq, mapXO_eq]
      congr 1 <;>
        first
        | (exact ih' _ (by simp [subs]))
        | (exact hl _ fun c hc => by simp [subs, hc])
        | (exact ho _ fun c hc => by simp at hc; simp [subs, hc])

theorem mapX_comp (σ₁ σ₂ : Col → Col) (τ₁ τ₂ : Tab → Tab) (μ₁ μ₂ : Q → Q) (e : Expr Q) :
    mapX σ₂ τ₂ μ₂ (mapX σ₁ τ₁ μ₁ e) = mapX (fun c => σ₂ (σ₁ c)) (fun t => τ₂ (τ₁ t)) (fun q => μ₂ (μ₁ q)) e := by
  induction e using Expr.ind with
  | h e ih =>
    have hl : ∀ l : List (Expr Q), (∀ c ∈ l, c ∈ e.subs) →
        (l.map (mapX σ₁ τ₁ μ₁)).map (mapX σ₂ τ₂ μ₂) = l.map (mapX (fun c => σ₂ (σ₁ c)) (fun t => τ₂ (τ₁ t)) fun q => μ₂ (μ₁ q)) := by
      intro l hl; rw [List.map_map]; exact List.map_congr_left fun c hc => ih c (hl c hc)
    have ho : ∀ o : Option (Expr Q), (∀ c ∈ o, c ∈ e.subs) →
        (o.map (mapX σ₁ τ₁ μ₁)).map (mapX σ₂ τ₂ μ₂) = o.map (mapX (fun c => σ₂ (σ₁ c)) (fun t => τ₂ (τ₁ t)) fun q => μ₂ (μ₁ q)) := by
      intro o ho; cases o with
      | none => rfl
      | some a => simp [ih a (ho a rfl)]
    cases e with
    | subq q => simp [mapX]
    | star t => cases t <;> simp [mapX]
    | static | col => simp [mapX]
    | _ =>
      simp only [mapX, mapXL_eq, mapXO_eq]
      congr 1 <;>
        first
        | (exact ih _ (by simp [subs]))
        | (exact hl _ fun c hc => by simp [subs, hc])
        | (exact ho _ fun c hc => by simp at hc; simp [subs, hc])

theorem mapX_id (e : Expr Q) : mapX (fun c => c) (fun t => t) (fun q => q) e = e := by
  induction e using Expr.ind with
  | h e ih =>
    have hl : ∀ l : List (Expr Q), (∀ c ∈ l, c ∈ e.subs) → l.map (mapX (fun c => c) (fun t => t) fun q => q) = l := by
      intro l hl; rw [List.map_congr_left fun c hc => ih c (hl c hc)]; simp
    have ho : ∀ o : Option (Expr Q), (∀ c ∈ o, c ∈ e.subs) → o.map (mapX (fun c => c) (fun t => t) fun q => q) = o := by
      intro o ho; cases o with
      | none => rfl
      | some a => simp [ih a (ho a rfl)]
    cases e with
    | star t => cases t <;> simp [mapX]
    | static | col | subq => simp [mapX]
    | _ =>
      simp only [mapX, mapXL_eq, mapXO_eq]
      congr 1 <;>
        first
        | (exact ih _ (by simp [subs]))
        | (exact hl _ fun c hc => by simp [subs, hc])
        | (exact ho _ fun c hc => by simp at hc; simp [subs, hc])

theorem mapX_mapCols (σ : Col → Col) (μ : Q → Q) (e : Expr Q) : mapCols σ μ e = mapX σ (fun t => t) μ e := by
  induction e using Expr.ind with
  | h e ih =>
    have hl : ∀ l : List (Expr Q), (∀ c ∈ l, c ∈ e.subs) → l.map (mapCols σ μ) = l.map (mapX σ (fun t => t) μ) := fun l hl =>
      List.map_congr_left fun c hc => ih c (hl c hc)
    have ho : ∀ o : Option (Expr Q), (∀ c ∈ o, c ∈ e.subs) → o.map (mapCols σ μ) = o.map (mapX σ (fun t => t) μ) := by
      intro o ho; cases o with
      | none => rfl
      | some a => simp [ih a (ho a rfl)]
    cases e with
    | subq q => simp [mapX, mapCols]
    | star t => cases t <;> simp [mapX, mapCols]
    | static | col => simp [mapX, mapCols]
    | _ =>
      simp only [mapX, mapXL_eq, mapXO_eq, mapCols, mapColsL_eq, mapColsO_eq]
      congr 1 <;>
        first
        | (exact ih _ (by simp [subs]))
        | (exact hl _ fun c hc => by simp [subs, hc])
        | (exact ho _ fun c hc => by simp at hc; simp [subs, hc])

/-- The parts of a mapped expression. -/
theorem sub_mapX (σ : Col → Col) (τ : Tab → Tab) (μ : Q → Q) {s e : Expr Q} : Sub s (mapX σ τ μ e) ↔ ∃ s', Sub s' e ∧ s = mapX σ τ μ s' := by
  constructor
  · intro h
    generalize hx : mapX σ τ μ e = x at h
    induction h generalizing e with
    | refl => exact ⟨e, .refl _, hx.symm⟩
    | step hm _ ih =>
      subst hx
      rw [subs_mapX, List.mem_map] at hm
      obtain ⟨c, hc, rfl⟩ := hm
      obtain ⟨s', h1, h2⟩ := ih rfl
      exact ⟨s', .step hc h1, h2⟩
  · rintro ⟨s', h, rfl⟩
    induction h with
    | refl => exact .refl _
    | step hm _ ih => exact .step (by rw [subs_mapX]; exact List.mem_map_of_mem hm) ih

theorem subq_mapX (σ : Col → Col) (τ : Tab → Tab) (μ : Q → Q) {q : Q} {e : Expr Q} : Sub (.subq q) (mapX σ τ μ e) ↔ ∃ q', Sub (.subq q') e ∧ q = μ q' := by
  rw [sub_mapX]
  constructor
  · rintro ⟨s, h, hs⟩
    cases s with
    | subq q' => simp only [mapX, Expr.subq.injEq] at hs; exact ⟨q', h, hs⟩
    | _ => simp [mapX] at hs
  · rintro ⟨q', h, rfl⟩; exact ⟨_, h, by simp [mapX]⟩

/-- Nodes that the renaming of tables handles: no array access, no quantifier, no window function with ORDER BY. -/
def tabNode : Expr Q → Bool
  | .arrGet .. => false
  | .quant .. => false
  | .window _ _ o _ _ => o.isEmpty
  | _ => true

/-- A check of nodes that does not look at the names. -/
def Shape (p : Expr Q → Bool) : Prop := ∀ (σ : Col → Col) (τ : Tab → Tab) (μ : Q → Q) (e : Expr Q), p (mapX σ τ μ e) = p e

theorem isPred_mapX (σ : Col → Col) (τ : Tab → Tab) (μ : Q → Q) (e : Expr Q) : isPred (mapX σ τ μ e) = isPred e := by
  cases e <;> simp [mapX, isPred, isBase, isCompound]

theorem shape_tab : Shape (tabNode : Expr Q → Bool) := by
  intro σ τ μ e; cases e <;> simp [mapX, tabNode, mapXL_eq]

theorem shape_ren : Shape (renNode : Expr Q → Bool) := by
  intro σ τ μ e
  have h : ∀ o : Option (Expr Q), (o.map (mapX σ τ μ)).toList.all isPred = o.toList.all isPred := by
    intro o; cases o <;> simp [isPred_mapX]
  cases e <;> simp [mapX, renNode, mapXL_eq, mapXO_eq, List.all_map, Function.comp_def, isPred_mapX]
  rename_i f; cases f <;> simp [isPred_mapX]

theorem shape_built : Shape (builtNode : Expr Q → Bool) := by
  intro σ τ μ e
  cases e with
  | compound op cs => cases op <;> simp [mapX, builtNode, mapXL_eq]
  | _ => simp [mapX, builtNode]

theorem shape_sub {p : Expr Q → Bool} (hp : Shape p) (σ : Col → Col) (τ : Tab → Tab) (μ : Q → Q) {e : Expr Q} (h : ∀ s, Sub s e → p s = true) :
    ∀ s, Sub s (mapX σ τ μ e) → p s = true := by
  intro s hs
  obtain ⟨s', h1, rfl⟩ := (sub_mapX σ τ μ).1 hs
  rw [hp]; exact h s' h1

theorem tabL_spec (ren : Q → Option Q) (d : Dict Tab Tab) (g : Expr Q → Expr Q) (l : List (Expr Q)) (h : ∀ e ∈ l, tabE ren d e = some (g e)) :
    tabL ren d l = some (l.map g) := by
  induction l with
  | nil => simp [tabL]
  | cons a l ih => rw [tabL, h a (by simp), ih fun e he => h e (by simp [he])]; rfl

theorem tabO_spec (ren : Q → Option Q) (d : Dict Tab Tab) (g : Expr Q → Expr Q) (o : Option (Expr Q)) (h : ∀ e ∈ o.toList, tabE ren d e = some (g e)) :
    tabO ren d o = some (o.map g) := by
  cases o with
  | none => simp [tabO]
  | some a => rw [tabO, h a (by simp)]; rfl

/-- Renaming the tables of an expression. -/
theorem tabE_spec (ren : Q → Option Q) (d : Dict Tab Tab) (μ : Q → Q) (e : Expr Q) (hb : Built e) (hn : ∀ s, Sub s e → tabNode s = true)
    (hq : ∀ q, Sub (.subq q) e → ren q = some (μ q)) : tabE ren d e = some (mapX (colOf d) (tabOf d) μ e) := by
  induction e using Expr.ind with
  | h e ih =>
    have ih' : ∀ c ∈ e.subs, tabE ren d c = some (mapX (colOf d) (tabOf d) μ c) := fun c hc =>
      ih c hc (hb.sub (.of_mem hc)) (fun s hs => hn s (hs.trans (.of_mem hc))) fun q h => hq q (h.trans (.of_mem hc))
    have hl : ∀ l : List (Expr Q), (∀ c ∈ l, c ∈ e.subs) → tabL ren d l = some (l.map (mapX (colOf d) (tabOf d) μ)) := fun l hl =>
      tabL_spec ren d _ l fun c hc => ih' c (hl c hc)
    have ho : ∀ o : Option (Expr Q), (∀ c ∈ o.toList, c ∈ e.subs) → tabO ren d o = some (o.map (mapX (colOf d) (tabOf d) μ)) := fun o ho =>
      tabO_spec ren d _ o fun c hc => ih' c (ho c hc)
    have h0 := hn e (.refl _)
    cases e with
    | static | star | col => simp [tabE, mapX]
    | subq q => simp [tabE, mapX, hq q (.refl _)]
    | arrGet => simp [tabNode] at h0
    | quant => simp [tabNode] at h0
    | cast e ty ps arr => rw [tabE, ih' e (by simp [subs]), hl ps fun c hc => by simp [subs, hc]]; simp [mapX, mapXL_eq]
    | math op a bs => rw [tabE, ih' a (by simp [subs]), hl bs fun c hc => by simp [subs, hc]]; simp [mapX, mapXL_eq]
    | func n args dd f =>
      rw [tabE, hl args fun c hc => by simp [subs, hc], ho f fun c hc => by simp only [Option.mem_toList] at hc; simp [subs, hc]]
      simp [mapX, mapXL_eq, mapXO_eq]
    | window fn p o ds f =>
      simp only [tabNode, List.isEmpty_iff] at h0
      subst h0
      rw [tabE, ih' fn (by simp [subs]), hl p fun c hc => by simp [subs, hc], ho f fun c hc => by simp only [Option.mem_toList] at hc; simp [subs, hc]]
      simp [mapX, mapXL_eq, mapXO_eq]
    | case w t s e =>
      rw [tabE, hl w fun c hc => by simp [subs, hc], hl t fun c hc => by simp [subs, hc],
        ho s fun c hc => by simp only [Option.mem_toList] at hc; simp [subs, hc], ho e fun c hc => by simp only [Option.mem_toList] at hc; simp [subs, hc]]
      simp [mapX, mapXL_eq, mapXO_eq]
    | array es => rw [tabE, hl es fun c hc => by simp [subs, hc]]; simp [mapX, mapXL_eq]
    | binary op a b => rw [tabE, ih' a (by simp [subs]), ih' b (by simp [subs])]; simp [mapX]
    | between e l u => rw [tabE, ih' e (by simp [subs]), ih' l (by simp [subs]), ih' u (by simp [subs])]; simp [mapX]
    | inP e vs => rw [tabE, ih' e (by simp [subs]), hl vs fun c hc => by simp [subs, hc]]; simp [mapX, mapXL_eq]
    | unary e op => rw [tabE, ih' e (by simp [subs])]; simp [mapX]
    | compound op cs =>
      rw [tabE, hl cs fun c hc => by simp [subs, hc]]
      have hbn := hb _ (.refl _)
      simp only [Option.bind_some, mapX, mapXL_eq]
      match op, cs with
      | .not, [] => simp [builtNode] at hbn
      | .and, [] => simp [builtNode] at hbn
      | .or, [] => simp [builtNode] at hbn
      | .not, [_] => rfl
      | .not, _ :: _ :: _ => simp [builtNode] at hbn
      | .and, [_] => simp [builtNode] at hbn
      | .or, [_] => simp [builtNode] at hbn
      | .and, _ :: _ :: _ => rfl
      | .or, _ :: _ :: _ => rfl

/-! ### C130: renaming columns in a query -/

/-- The table source is no VALUES list with a column that is renamed. -/
def valuesKept (ρ : Dict Col Col) : Source Q → Prop
  | .values _ t _ => ∀ r ∈ ρ, r.1.tab ≠ t
  | _ => True

/-- Plain queries in which `rename_columns_in_query` handles everything (on their own level). -/
structure ColLocal (ρ : Dict Col Col) (Q : Type) (s : Sel Q) : Prop where
  cls : s.cls ≠ .plain
  exprs : ∀ e ∈ exprs s, Built e ∧ ∀ x, Sub x e → renNode x = true
  distinctOn : s.select.cols = []
  withs : ∀ c ∈ s.cte, c.queries ≠ [] ∧ ∀ w ∈ c.queries, (withQuery w).isSome
  values : ∀ f ∈ s.src, ∀ i ∈ f.items, ∀ l ∈ srcLeaves i, valuesKept ρ l
  implicit : ∀ f ∈ s.src, f.cls = .implicit → ∀ i ∈ f.items, (directTab i).isSome

/-- The change of names by a renaming of columns: columns without an entry, tables and names are kept. (The names of WITH queries are given as tables.) -/
def colRen (N : Names) (ρ : Dict Col Col) : Ren where
  col c := (Dict.get? ρ c).getD c
  tab t := t
  name n := n
  target t := ⟨t.ident, some (N.virt t.ident)⟩
  list l := l

theorem mapAll_spec {α β : Type} {f : α → Option β} {g : α → β} {l : List α} (h : ∀ x ∈ l, f x = some (g x)) : mapAll f l = some (l.map g) := by
  induction l with
  | nil => rfl
  | cons a l ih => simp [mapAll, h a (by simp), ih fun x hx => h x (by simp [hx])]

theorem mapOpt_spec {α β : Type} {f : α → Option β} {g : α → β} {o : Option α} (h : ∀ x ∈ o, f x = some (g x)) : mapOpt f o = some (o.map g) := by
  cases o with
  | none => rfl
  | some a => simp [mapOpt, h a rfl]

theorem mem_exprs {s : Sel Q} {e : Expr Q} : e ∈ exprs s ↔
    (∃ p ∈ s.select.targets, p.expr = e) ∨ (∃ f ∈ s.src, ∃ i ∈ f.items, e ∈ srcExprs i) ∨ s.where_ = some e ∨ (∃ g ∈ s.groupBy, e ∈ g.cols) ∨
      s.having_ = some e ∨ ∃ l ∈ s.orderBy, ∃ o ∈ l, o.expr = e := by
  simp only [exprs, List.mem_append, List.mem_map, List.mem_flatMap, Option.mem_toList, Option.mem_def, List.mem_flatten, or_assoc]
  constructor
  · rintro (h | h | h | h | h | ⟨o, ⟨l, h1, h2⟩, h3⟩)
    · exact .inl h
    · exact .inr (.inl h)
    · exact .inr (.inr (.inl h))
    · exact .inr (.inr (.inr (.inl h)))
    · exact .inr (.inr (.inr (.inr (.inl h))))
    · exact .inr (.inr (.inr (.inr (.inr ⟨l, h1, o, h2, h3⟩))))
  · rintro (h | h | h | h | h | ⟨l, h1, o, h2, h3⟩)
    · exact .inl h
    · exact .inr (.inl h)
    · exact .inr (.inr (.inl h))
    · exact .inr (.inr (.inr (.inl h)))
    · exact .inr (.inr (.inr (.inr (.inl h))))
    · exact .inr (.inr (.inr (.inr (.inr ⟨o, ⟨l, h1, h2⟩, h3⟩))))

theorem renValues_keep (N : Names) (ρ : List (Col × Col)) (t : Option Tab) (cols : List Col) (h : ∀ r ∈ ρ, r.1.tab ≠ t) :
    renValues N ρ (t, cols) = some (t, cols) := by
  induction ρ with
  | nil => rfl
  | cons r ρ ih => simp [renValues, renValuesStep, h r (by simp), ih fun x hx => h x (by simp [hx])]

theorem renSource_spec (N : Names) (ren : Q → Option Q) (ρ : Dict Col Col) (μ : Q → Q) (i : Source Q)
    (hv : ∀ l ∈ srcLeaves i, valuesKept ρ l) (hq : ∀ q ∈ srcQueries i, ren q = some (μ q))
    (he : ∀ e ∈ srcExprs i, renameE ren ρ e = some (mapX (renamed ρ) (fun t => t) μ e)) :
    renSource N ren ρ i = some (mapSource (colRen N ρ) μ i) := by
  induction i with
  | table t => rfl
  | subquery q n l => simp [renSource, hq q (by simp [srcQueries]), mapSource, colRen]
  | values rows t cols =>
    have := hv (.values rows t cols) (by simp [srcLeaves])
    simp [renSource, renValues_keep N ρ t cols this, mapSource]
  | func f n => simp [renSource, he f (by simp [srcExprs]), mapSource, colRen]; rfl
  | join a b c ty iha ihb =>
    rw [renSource, iha (fun l hl => hv l (by simp [srcLeaves, hl])) (fun q h => hq q (by simp [srcQueries, h])) fun e h => he e (by simp [srcExprs, h]),
      ihb (fun l hl => hv l (by simp [srcLeaves, hl])) (fun q h => hq q (by simp [srcQueries, h])) fun e h => he e (by simp [srcExprs, h]),
      RenameProps.renameO_spec ren ρ (mapX (renamed ρ) (fun t => t) μ) c fun e h => he e (by simp only [srcExprs, List.mem_append]; exact .inr h)]
    rfl

theorem renSel_spec (N : Names) (ren : Q → Option Q) (ρ : Dict Col Col) (μ : Q → Q) (s : Sel Q) (h : ColLocal ρ Q s)
    (hq : ∀ q, Direct q s → ren q = some (μ q)) : renSel N ren ρ s = some (mapSel (colRen N ρ) μ s) := by
  have he : ∀ e ∈ exprs s, renameE ren ρ e = some (mapX (renamed ρ) (fun t => t) μ e) := by
    intro e hm
    rw [← mapX_mapCols]
    exact RenameProps.C41_rename_partial ren ρ μ e (h.exprs e hm).1 (h.exprs e hm).2 fun q hs => hq q (.inr (.inr ⟨e, hm, hs⟩))
  have hcte : mapOpt (renCte N ren ρ) s.cte = some (s.cte.map fun c => ⟨c.queries.map (mapWith (colRen N ρ) μ), c.recursive⟩) := by
    refine mapOpt_spec fun c hc => ?_
    rw [renCte, mapAll_spec (g := fun w => [mapWith (colRen N ρ) μ w]) ?_]
    · simp only [Option.bind_some]
      have hf : (List.map (fun w => [mapWith (colRen N ρ) μ w]) c.queries).flatten = c.queries.map (mapWith (colRen N ρ) μ) := by
        induction c.queries with
        | nil => rfl
        | cons a l ih => simp [ih]
      rw [hf]
      unfold mkCte
      rw [if_neg (by simpa using (h.withs c hc).1)]
    · intro w hw
      have hw' := (h.withs c hc).2 w hw
      cases w with
      | query q t m => simp [renWith, hq q (.inl ⟨c, hc, _, hw, rfl⟩), mapWith, colRen]
      | values => simp [withQuery] at hw'
  have hhav : renameO ren ρ s.having_ = some (s.having_.map (mapX (renamed ρ) (fun t => t) μ)) :=
    RenameProps.renameO_spec ren ρ _ _ fun e hm => he e (mem_exprs.2 (.inr (.inr (.inr (.inr (.inl (by simpa using hm)))))))
  have hwh : renameO ren ρ s.where_ = some (s.where_.map (mapX (renamed ρ) (fun t => t) μ)) :=
    RenameProps.renameO_spec ren ρ _ _ fun e hm => he e (mem_exprs.2 (.inr (.inr (.inl (by simpa using hm)))))
  have hord : mapOpt (mapAll (renOrderItem (renameE ren ρ))) s.orderBy =
      some (s.orderBy.map fun l => l.map fun o => ⟨mapX (renamed ρ) (fun t => t) μ o.expr, o.dir⟩) :=
    mapOpt_spec fun l hl => mapAll_spec fun o ho => by
      simp [renOrderItem, he o.expr (mem_exprs.2 (.inr (.inr (.inr (.inr (.inr ⟨l, hl, o, ho, rfl⟩))))))]
  have hsel : renSelect (renameE ren ρ) s.select = some ⟨s.select.targets.map fun p => ⟨mapX (renamed ρ) (fun t => t) μ p.expr, p.name⟩,
      s.select.distinct, s.select.cols⟩ := by
    rw [renSelect, mapAll_spec (g := fun p => ⟨mapX (renamed ρ) (fun t => t) μ p.expr, p.name⟩) fun p hp => by
      simp [renProj, he p.expr (mem_exprs.2 (.inl ⟨p, hp, rfl⟩))]]
    rfl
  have hgr : mapOpt (renGroup (renameE ren ρ)) s.groupBy = some (s.groupBy.map fun g => ⟨g.cols.map (mapX (renamed ρ) (fun t => t) μ), g.distinct⟩) :=
    mapOpt_spec fun g hg => by
      rw [renGroup, mapAll_spec fun e hm => he e (mem_exprs.2 (.inr (.inr (.inr (.inl ⟨g, hg, hm⟩)))))]
      rfl
  have hsrc : mapOpt (renFrom N ren ρ) s.src = some (s.src.map (mapFrom (colRen N ρ) μ)) := by
    refine mapOpt_spec fun f hf => ?_
    unfold renFrom mapFrom
    by_cases hi : f.cls = .implicit
    · rw [if_pos hi, if_pos hi]
      have : f.items = (f.items.filterMap directTab).map .table := by
        have := h.implicit f hf hi
        generalize f.items = l at this
        induction l with
        | nil => rfl
        | cons a l ih =>
          have ha := this a (by simp)
          cases a with
          | table t => simp [directTab]; exact ih fun i hi => this i (by simp [hi])
          | _ => simp [directTab] at ha
      have e2 : ((colRen N ρ).list (List.map (colRen N ρ).tab (List.filterMap directTab f.items))) = List.filterMap directTab f.items := by simp [colRen]
      rw [e2, ← this]
    · rw [if_neg hi, if_neg hi, mapAll_spec fun i hm => renSource_spec N ren ρ μ i (h.values f hf i hm)
        (fun q hs => hq q (.inr (.inl ⟨f, hf, i, hm, hs⟩))) fun e hs => he e (mem_exprs.2 (.inr (.inl ⟨f, hf, i, hm, hs⟩)))]
      rfl
  unfold renSel
  rw [if_neg h.cls, hcte, hhav, hord, hsel, hsrc, hwh, hgr]
  simp only [Option.bind_some, Option.map_some, mapSel, h.distinctOn, List.map_nil]
  rfl

/-- **C130 (partial).** Renaming columns in a query of any depth of nesting replaces each column by its new name, in all clauses and all subqueries, and
changes nothing else. The conditions exclude what the code does not handle: set queries, DISTINCT ON, VALUES lists in WITH clauses, VALUES lists whose columns are
renamed, and the expressions excluded in C41; see `C130_set_violated`, `C130_distinct_violated` and `C130_values_violated`. -/
theorem C130_rename_partial (N : Names) (ρ : Dict Col Col) (n : Nat) (q : QH n) (h : AllAt (ColLocal ρ) n q) :
    renCols N ρ n q = some (mapAt (colRen N ρ) n q) := by
  induction n with
  | zero => exact q.elim
  | succ n ih =>
    obtain ⟨s, rfl, hs, hd⟩ := h
    have := renSel_spec N (renCols N ρ n) ρ (mapAt (colRen N ρ) n) s hs fun q hq => ih q (hd q hq)
    simp only [renCols, renStmt, this, Option.map_some]
    rfl

/-! Example tables: 1, 2, 3 are the tables `t1`, `t2`, `t3`, 4 is `v`; larger numbers are virtual tables. -/

/-- Names of tables. -/
def exIdent : Nat → String
  | 0 => ""
  | 1 => "t1"
  | 2 => "t2"
  | 3 => "t3"
  | 4 => "v"
  | n + 5 => ((Encodable.decode n : Option (List Nat)).map fun l => String.ofList (l.map Char.ofNat)).getD ""

/-- Names of tables. -/
def exN : Names := ⟨exIdent, fun s => Encodable.encode (s.toList.map Char.toNat) + 5, fun t n => 100 * t + n⟩

theorem exN_virt (s : String) : exN.ident (exN.virt s) = s := by
  simp [exN, exIdent, Encodable.encodek, Function.comp_def]

/-- A query with SELECT, implicit FROM and WHERE clause. -/
def exSel (cols : List (Expr Q)) (ts : List Tab) (p : Option (Expr Q)) : Sel Q :=
  ⟨.implicit, none, none, none, ⟨cols.map fun e => ⟨e, ""⟩, .none, []⟩, some ⟨.implicit, ts.map .table⟩, p, none, none, none, none⟩

/-- `SELECT t2.y FROM t2 WHERE t2.y = 1` -/
def exInner : QH 1 := (.sel (exSel [.col ⟨some 2, 1⟩] [2] (some (.binary .eq (.col ⟨some 2, 1⟩) (.static (.num 1))))) : Stmt (QH 0))

/-- `SELECT t1.x FROM t1, t3 WHERE t1.x IN (SELECT t2.y FROM t2 WHERE t2.y = 1) AND t1.x = t3.x` -/
def exOuter : Sel (QH 1) :=
  exSel [.col ⟨some 1, 0⟩] [1, 3] (some (.compound .and [.inP (.col ⟨some 1, 0⟩) [.subq exInner], .binary .eq (.col ⟨some 1, 0⟩) (.col ⟨some 3, 0⟩)]))

theorem exSel_exprs (cols : List (Expr Q)) (ts : List Tab) (p : Option (Expr Q)) : exprs (exSel cols ts p) = cols ++ p.toList := by
  have : ∀ l : List Tab, List.flatMap srcExprs (List.map (Source.table : Tab → Source Q) l) = [] := by
    intro l; induction l with
    | nil => rfl
    | cons a l ih => simp [srcExprs, ih]
  simp [exprs, exSel, this, Function.comp_def]

theorem exSel_direct (cols : List (Expr Q)) (ts : List Tab) (p : Option (Expr Q)) (q : Q) (h : Direct q (exSel cols ts p)) :
    ∃ e ∈ cols ++ p.toList, Sub (.subq q) e := by
  rcases h with ⟨c, hc, -⟩ | ⟨f, hf, i, hi, hq⟩ | ⟨e, he, hs⟩
  · simp [exSel] at hc
  · simp only [exSel, Option.mem_def, Option.some.injEq] at hf
    subst hf
    simp only [List.mem_map] at hi
    obtain ⟨t, -, rfl⟩ := hi
    simp [srcQueries] at hq
  · exact ⟨e, exSel_exprs cols ts p ▸ he, hs⟩

/-- All parts of an expression. -/
theorem sub_all {P : Expr Q → Prop} {e : Expr Q} (h : P e) (hl : ∀ x ∈ subs e, ∀ s, Sub s x → P s) : ∀ s, Sub s e → P s := by
  intro s hs
  cases hs with
  | refl => exact h
  | step hm hs => exact hl _ hm _ hs

theorem exSel_col (ρ : Dict Col Col) (cols : List (Expr Q)) (ts : List Tab) (p : Option (Expr Q))
    (h : ∀ e ∈ cols ++ p.toList, ∀ s, Sub s e → builtNode s = true ∧ renNode s = true) : ColLocal ρ Q (exSel cols ts p) where
  cls := by simp [exSel]
  exprs e he := by
    rw [exSel_exprs] at he
    exact ⟨fun s hs => (h e he s hs).1, fun s hs => (h e he s hs).2⟩
  distinctOn := rfl
  withs c hc := by simp [exSel] at hc
  values f hf i hi := by
    simp only [exSel, Option.mem_def, Option.some.injEq] at hf
    subst hf
    simp only [List.mem_map] at hi
    obtain ⟨t, -, rfl⟩ := hi
    simp [srcLeaves, valuesKept]
  implicit f hf _ i hi := by
    simp only [exSel, Option.mem_def, Option.some.injEq] at hf
    subst hf
    simp only [List.mem_map] at hi
    obtain ⟨t, -, rfl⟩ := hi
    rfl

theorem exOuter_subq (e : Expr (QH 1)) (q : QH 1) (he : e ∈ [.col ⟨some 1, 0⟩] ++ exOuter.where_.toList) (hs : Sub (.subq q) e) : q = exInner := by
  have hcol : ∀ c : Col, ¬ Sub (.subq q) (.col c : Expr (QH 1)) := by
    intro c h; cases h with
    | step hm _ => simp [subs] at hm
  simp only [exOuter, exSel, Option.toList_some, List.cons_append, List.nil_append, List.mem_cons, List.not_mem_nil, or_false] at he
  rcases he with rfl | rfl
  · exact absurd hs (hcol _)
  · cases hs with
    | step hm hs =>
      simp only [subs, List.mem_cons, List.not_mem_nil, or_false] at hm
      rcases hm with rfl | rfl
      · cases hs with
        | step hm hs =>
          simp only [subs, List.mem_cons, List.not_mem_nil, or_false] at hm
          rcases hm with rfl | rfl
          · exact absurd hs (hcol _)
          · cases hs with
            | refl => rfl
            | step hm _ => simp [subs] at hm
      · cases hs with
        | step hm hs =>
          simp only [subs, List.mem_cons, List.not_mem_nil, or_false] at hm
          rcases hm with rfl | rfl <;> exact absurd hs (hcol _)

/-- What holds of the expressions of the example and of its parts. -/
theorem exQuery_nodes {P : (Q : Type) → Expr Q → Prop} (hc : ∀ Q c, P Q (.col c)) (hn : ∀ Q n, P Q (.static (.num n)))
    (hb : ∀ Q c c', P Q (.binary .eq (.col c) (.col c'))) (hb' : ∀ Q c n, P Q (.binary .eq (.col c) (.static (.num n))))
    (hs : ∀ Q q, P Q (.subq q)) (hi : ∀ Q c q, P Q (.inP (.col c) [.subq q]))
    (ha : ∀ Q c q c' c'', P Q (.compound .and [.inP (.col c) [.subq q], .binary .eq (.col c') (.col c'')])) :
    (∀ e ∈ [.col ⟨some 1, 0⟩] ++ exOuter.where_.toList, ∀ s, Sub s e → P _ s) ∧
      ∀ e ∈ [.col ⟨some 2, 1⟩] ++ (some (.binary .eq (.col ⟨some 2, 1⟩) (.static (.num 1))) : Option (Expr (QH 0))).toList, ∀ s, Sub s e → P _ s := by
  have hcol : ∀ (Q : Type) (c : Col) (s : Expr Q), Sub s (.col c) → P Q s := fun Q c => sub_all (hc Q c) (by simp [subs])
  have hnum : ∀ (Q : Type) (n : Nat) (s : Expr Q), Sub s (.static (.num n)) → P Q s := fun Q n => sub_all (hn Q n) (by simp [subs])
  have hsub : ∀ (Q : Type) (q : Q) (s : Expr Q), Sub s (.subq q) → P Q s := fun Q q => sub_all (hs Q q) (by simp [subs])
  have hbin : ∀ (Q : Type) (c c' : Col) (s : Expr Q), Sub s (.binary .eq (.col c) (.col c')) → P Q s := fun Q c c' =>
    sub_all (hb Q c c') (by simp only [subs, List.forall_mem_cons, List.not_mem_nil, false_imp_iff, implies_true, and_true]; exact ⟨hcol _ _, hcol _ _⟩)
  constructor
  · simp only [exOuter, exSel, Option.toList_some, List.cons_append, List.nil_append, List.forall_mem_cons, List.not_mem_nil, false_imp_iff, implies_true,
      and_true]
    refine ⟨hcol _ _, sub_all (ha _ _ _ _ _) ?_⟩
    simp only [subs, List.forall_mem_cons, List.not_mem_nil, false_imp_iff, implies_true, and_true]
    refine ⟨sub_all (hi _ _ _) ?_, hbin _ _ _⟩
    simp only [subs, List.forall_mem_cons, List.not_mem_nil, false_imp_iff, implies_true, and_true]
    exact ⟨hcol _ _, hsub _ _⟩
  · simp only [Option.toList_some, List.cons_append, List.nil_append, List.forall_mem_cons, List.not_mem_nil, false_imp_iff, implies_true, and_true]
    refine ⟨hcol _ _, sub_all (hb' _ _ _) ?_⟩
    simp only [subs, List.forall_mem_cons, List.not_mem_nil, false_imp_iff, implies_true, and_true]
    exact ⟨hcol _ _, hnum _ _⟩

/-- The queries of the example. -/
theorem exQuery_all {P : (Q : Type) → Sel Q → Prop} (ho : P _ exOuter)
    (hi : P _ (exSel [.col ⟨some 2, 1⟩] [2] (some (.binary .eq (.col ⟨some 2, 1⟩) (.static (.num 1)))) : Sel (QH 0))) :
    AllAt P 2 (.sel exOuter : Stmt (QH 1)) := by
  refine ⟨exOuter, rfl, ho, fun q hq => ?_⟩
  obtain ⟨e, he, hs⟩ := exSel_direct _ _ _ q hq
  rw [exOuter_subq e q he hs]
  exact ⟨_, rfl, hi, fun q _ => Empty.elim q⟩

theorem exQuery_col (ρ : Dict Col Col) : AllAt (ColLocal ρ) 2 (.sel exOuter : Stmt (QH 1)) := by
  have h := exQuery_nodes (P := fun Q e => builtNode e = true ∧ renNode e = true) (fun _ _ => ⟨rfl, rfl⟩) (fun _ _ => ⟨rfl, rfl⟩)
    (fun _ _ _ => ⟨rfl, rfl⟩) (fun _ _ _ => ⟨rfl, rfl⟩) (fun _ _ => ⟨rfl, rfl⟩) (fun _ _ _ => ⟨rfl, rfl⟩) (fun _ _ _ _ _ => ⟨rfl, rfl⟩)
  exact exQuery_all (exSel_col ρ _ _ _ h.1) (exSel_col ρ _ _ _ h.2)

/-- `t2.y` is renamed within the subquery, `t1.x` to `t1.z` outside. -/
example : renCols exN [(⟨some 2, 1⟩, ⟨some 2, 7⟩), (⟨some 1, 0⟩, ⟨some 1, 8⟩)] 2 (.sel exOuter : Stmt (QH 1)) = some (.sel
    (exSel [.col ⟨some 1, 8⟩] [1, 3] (some (.compound .and [.inP (.col ⟨some 1, 8⟩)
      [.subq (.sel (exSel [.col ⟨some 2, 7⟩] [2] (some (.binary .eq (.col ⟨some 2, 7⟩) (.static (.num 1))))) : Stmt (QH 0))],
      .binary .eq (.col ⟨some 1, 8⟩) (.col ⟨some 3, 0⟩)]))) : Stmt (QH 1)) := by
  rw [C130_rename_partial _ _ _ _ (exQuery_col _)]
  rfl

/-- **C130 is violated.** Columns of set queries cannot be renamed at all. -/
theorem C130_set_violated (N : Names) (ren : Q → Option Q) (ρ : Dict Col Col) (l r : Stmt Q) (op : SetOp) (cte : Option (Cte Q))
    (o : Option (List (OrderItem Q))) (m : Option Limit) (h : Option Hint) (e : Option Explain) : renStmt N ren ρ (.set l r op cte o m h e) = none := rfl

/-- **C130 is violated.** The columns of DISTINCT ON are never renamed: renaming `t1.x` in `SELECT DISTINCT ON (t1.x) t1.x FROM t1` yields
`SELECT DISTINCT ON (t1.x) t1.y FROM t1`. -/
theorem C130_distinct_violated :
    (∀ (N : Names) (ren : Q → Option Q) (ρ : Dict Col Col) (s s' : Sel Q), renSel N ren ρ s = some s' → s'.select.cols = s.select.cols) ∧
      ∃ s : Sel (QH 0), s.select.cols = [.col ⟨some 1, 0⟩] ∧
        (renSel exN (fun q => some q) [(⟨some 1, 0⟩, ⟨some 1, 1⟩)] s).map (fun s => s.select.targets.map (·.expr)) = some [.col ⟨some 1, 1⟩] := by
  refine ⟨?_, ⟨.implicit, none, none, none, ⟨[⟨.col ⟨some 1, 0⟩, ""⟩], .on, [.col ⟨some 1, 0⟩]⟩, some ⟨.implicit, [.table 1]⟩, none, none, none, none,
    none⟩, rfl, rfl⟩
  intro N ren ρ s s' h
  unfold renSel at h
  split at h
  · cases h
  · simp only [Option.bind_eq_some_iff, Option.map_eq_some_iff] at h
    obtain ⟨cte, -, hv, -, o, -, sel, hs, src, -, w, -, g, -, rfl⟩ := h
    simp only [renSelect, Option.map_eq_some_iff] at hs
    obtain ⟨l, -, rfl⟩ := hs
    rfl

/-- **C130 is violated.** VALUES lists vanish from the WITH clause if none of their columns is renamed, in particular if nothing is renamed at all; if the clause
contains only such lists, the renaming fails. Of several renamings of columns of a VALUES list only the last one is effective. -/
theorem C130_values_violated (N : Names) (ren : Q → Option Q) (rows : List (List (Expr Q))) (t : Tab) (cols : List Col) (m : Option Bool) (rec : Bool) :
    (∀ q q' target k, ren q = some q' → renCte N ren [] ⟨[.values rows t cols m, .query q target k], rec⟩ =
      some ⟨[.query q' ⟨target.ident, some (N.virt target.ident)⟩ k], rec⟩) ∧
    renCte N ren [] ⟨[.values rows t cols m], rec⟩ = none ∧
    (∀ v, v = N.virt (N.ident t) → renWith N ren [(⟨some v, 0⟩, ⟨some v, 10⟩), (⟨some v, 1⟩, ⟨some v, 11⟩)] (.values rows t [⟨some v, 0⟩, ⟨some v, 1⟩] m) =
      some [.values rows v [⟨some v, 0⟩, ⟨some v, 11⟩] m]) := by
  refine ⟨?_, rfl, ?_⟩
  · intro q q' target k h
    simp [renCte, mapAll, renWith, ofTable, h, mkCte]
  · rintro v rfl
    simp [renWith, ofTable, renLast]

/-! ### C131: renaming a table -/

/-- The elements of a list without repetitions, in the order of their first occurrences. -/
def firsts : List Tab → List Tab
  | [] => []
  | t :: l => t :: (firsts l).filter fun u => u ≠ t

/-- The change of names by renaming `src` to `tgt`: columns, stars, FROM clauses and WITH queries. A table that would occur twice in an implicit FROM clause
occurs only once. If `pre` is set, the names of the columns `cols` get the old name of the table as prefix. -/
def tableRen (N : Names) (src tgt : Tab) (pre : Bool) (cols : List Col) : Ren where
  col c := if c.tab = some src then ⟨some tgt, if pre = true ∧ c ∈ cols then N.pre src c.name else c.name⟩ else c
  tab t := if t = src then tgt else t
  name s := if s = N.ident src then N.ident tgt else s
  target t := if N.virt t.ident = src then ⟨N.ident tgt, some tgt⟩ else ⟨t.ident, some (N.virt t.ident)⟩
  list := firsts

/-- Plain queries in which `rename_table` handles everything (on their own level): no ORDER BY; the class fits to the FROM clause; the FROM clause consists of
tables or joins of tables with different identifiers, and joins do not contain the new table already. -/
structure TabLocal (N : Names) (tgt : Tab) (Q : Type) (s : Sel Q) : Prop where
  col : ColLocal [] Q s
  nodes : ∀ e ∈ exprs s, ∀ x, Sub x e → tabNode x = true
  orderBy : s.orderBy = none
  fitting : Fitting s
  tables : ∀ f ∈ s.src, ∀ i ∈ f.items, ∀ l ∈ srcLeaves i, (directTab l).isSome
  implicit : ∀ f ∈ s.src, f.cls = .implicit → (f.items.filterMap directTab).Nodup ∧
    ∀ t ∈ tgt :: f.items.filterMap directTab, ∀ u ∈ tgt :: f.items.filterMap directTab, N.ident t = N.ident u → t = u
  joins : ∀ f ∈ s.src, f.cls ≠ .implicit → ∀ i ∈ f.items, ∀ l ∈ srcLeaves i, ∀ t, directTab l = some t → N.ident t ≠ N.ident tgt

theorem mem_firsts {t : Tab} {l : List Tab} : t ∈ firsts l ↔ t ∈ l := by
  induction l with
  | nil => simp [firsts]
  | cons a l ih =>
    simp only [firsts, List.mem_cons, List.mem_filter, ih, decide_eq_true_eq]
    by_cases h : t = a <;> simp [h]

theorem firsts_nodup (l : List Tab) : (firsts l).Nodup := by
  induction l with
  | nil => simp [firsts]
  | cons a l ih => exact List.nodup_cons.2 ⟨by simp, ih.filter _⟩

theorem firsts_of_nodup {l : List Tab} (h : l.Nodup) : firsts l = l := by
  induction l with
  | nil => rfl
  | cons a l ih =>
    obtain ⟨h1, h2⟩ := List.nodup_cons.1 h
    rw [firsts, ih h2, List.filter_eq_self.2]
    intro b hb
    simp only [decide_eq_true_eq]
    rintro rfl; exact h1 hb

theorem firsts_filter (p : Tab → Bool) (l : List Tab) : firsts (l.filter p) = (firsts l).filter p := by
  induction l with
  | nil => rfl
  | cons a l ih =>
    by_cases h : p a = true
    · rw [List.filter_cons_of_pos h, firsts, firsts, List.filter_cons_of_pos h, ih, List.filter_filter, List.filter_filter]
      congr 1
      exact List.filter_congr fun x _ => Bool.and_comm _ _
    · rw [List.filter_cons_of_neg h, firsts, List.filter_cons_of_neg h, ih, List.filter_filter]
      refine List.filter_congr fun x _ => ?_
      by_cases hx : x = a
      · subst hx; simp [h]
      · simp [hx]

theorem firsts_map_firsts (f : Tab → Tab) (l : List Tab) : firsts ((firsts l).map f) = firsts (l.map f) := by
  have h2 : ∀ (a : Tab) (m : List Tab), ((firsts ((m.filter fun u => u ≠ a).map f)).filter fun u => u ≠ f a) = (firsts (m.map f)).filter fun u => u ≠ f a := by
    intro a m
    rw [← firsts_filter, ← firsts_filter]
    congr 1
    rw [List.filter_map, List.filter_map, List.filter_filter]
    congr 1
    refine List.filter_congr fun x _ => ?_
    by_cases hx : x = a
    · subst hx; simp
    · simp [hx]
  induction l with
  | nil => rfl
  | cons a l ih =>
    simp only [firsts, List.map_cons]
    congr 1
    rw [h2, ih]

/-- Two changes of names, one after the other. -/
structure Comp (r₁ r₂ r : Ren) : Prop where
  col : ∀ c, r₂.col (r₁.col c) = r.col c
  tab : ∀ t, r₂.tab (r₁.tab t) = r.tab t
  name : ∀ s, r₂.name (r₁.name s) = r.name s
  target : ∀ t, r₂.target (r₁.target t) = r.target t
  list : ∀ l : List Tab, r₂.list ((r₁.list (l.map r₁.tab)).map r₂.tab) = r.list (l.map r.tab)

theorem Comp.expr {r₁ r₂ r : Ren} (h : Comp r₁ r₂ r) (μ₁ μ₂ : Q → Q) (e : Expr Q) :
    mapX r₂.col r₂.tab μ₂ (mapX r₁.col r₁.tab μ₁ e) = mapX r.col r.tab (fun q => μ₂ (μ₁ q)) e := by
  rw [mapX_comp, funext h.col, funext h.tab]

theorem Comp.source {r₁ r₂ r : Ren} (h : Comp r₁ r₂ r) (μ₁ μ₂ : Q → Q) (s : Source Q) :
    mapSource r₂ μ₂ (mapSource r₁ μ₁ s) = mapSource r (fun q => μ₂ (μ₁ q)) s := by
  induction s with
  | table t => simp [mapSource, h.tab]
  | subquery q n l => simp [mapSource, h.name]
  | values => simp [mapSource]
  | func f n => simp [mapSource, h.expr]
  | join a b c ty iha ihb => cases c <;> simp [mapSource, h.expr, iha, ihb]

theorem filterMap_tables (l : List Tab) : (l.map (Source.table : Tab → Source Q)).filterMap directTab = l := by
  induction l with
  | nil => rfl
  | cons a l ih => simpa [directTab] using ih

theorem Comp.src {r₁ r₂ r : Ren} (h : Comp r₁ r₂ r) (μ₁ μ₂ : Q → Q) (f : From Q) :
    mapFrom r₂ μ₂ (mapFrom r₁ μ₁ f) = mapFrom r (fun q => μ₂ (μ₁ q)) f := by
  unfold mapFrom
  by_cases hi : f.cls = .implicit
  · simp only [hi, if_true, filterMap_tables, h.list]
  · simp only [hi, if_false, List.map_map]
    congr 1
    exact List.map_congr_left fun i _ => h.source μ₁ μ₂ i

theorem Comp.sel {r₁ r₂ r : Ren} (h : Comp r₁ r₂ r) (μ₁ μ₂ : Q → Q) (s : Sel Q) :
    mapSel r₂ μ₂ (mapSel r₁ μ₁ s) = mapSel r (fun q => μ₂ (μ₁ q)) s := by
  have hw : ∀ w : With Q, mapWith r₂ μ₂ (mapWith r₁ μ₁ w) = mapWith r (fun q => μ₂ (μ₁ q)) w := by
    intro w; cases w <;> simp [mapWith, h.target]
  unfold mapSel
  simp only [Option.map_map, List.map_map, Function.comp_def, h.expr, h.src, hw]

theorem Comp.stmt {r₁ r₂ r : Ren} (h : Comp r₁ r₂ r) (μ₁ μ₂ : Q → Q) (q : Stmt Q) :
    mapStmt r₂ μ₂ (mapStmt r₁ μ₁ q) = mapStmt r (fun q => μ₂ (μ₁ q)) q := by
  have hw : ∀ w : With Q, mapWith r₂ μ₂ (mapWith r₁ μ₁ w) = mapWith r (fun q => μ₂ (μ₁ q)) w := by
    intro w; cases w <;> simp [mapWith, h.target]
  induction q with
  | sel s => simp only [mapStmt, h.sel]
  | set a b op cte o m hh e iha ihb => simp only [mapStmt, iha, ihb, Option.map_map, List.map_map, Function.comp_def, h.expr, hw]

theorem Comp.at {r₁ r₂ r : Ren} (h : Comp r₁ r₂ r) (n : Nat) (q : QH n) : mapAt r₂ n (mapAt r₁ n q) = mapAt r n q := by
  induction n with
  | zero => exact q.elim
  | succ n ih =>
    refine (h.stmt (mapAt r₁ n) (mapAt r₂ n) q).trans ?_
    rw [funext ih]
    rfl

theorem srcExprs_map (r : Ren) (μ : Q → Q) (i : Source Q) (e : Expr Q) (h : e ∈ srcExprs (mapSource r μ i)) :
    ∃ e' ∈ srcExprs i, e = mapX r.col r.tab μ e' := by
  induction i with
  | func f n => simp only [mapSource, srcExprs, List.mem_singleton] at h; exact ⟨f, by simp [srcExprs], h⟩
  | join a b c ty iha ihb =>
    simp only [mapSource, srcExprs, List.mem_append, Option.mem_toList, Option.map_eq_some_iff] at h
    rcases h with (h | h) | ⟨x, h1, h2⟩
    · obtain ⟨e', h1, h2⟩ := iha h; exact ⟨e', by simp [srcExprs, h1], h2⟩
    · obtain ⟨e', h1, h2⟩ := ihb h; exact ⟨e', by simp [srcExprs, h1], h2⟩
    · exact ⟨x, by simp [srcExprs, h1], h2.symm⟩
  | _ => simp [mapSource, srcExprs] at h

theorem srcQueries_map (r : Ren) (μ : Q → Q) (i : Source Q) (q : Q) (h : q ∈ srcQueries (mapSource r μ i)) : ∃ q' ∈ srcQueries i, q = μ q' := by
  induction i with
  | subquery q' n l => simp only [mapSource, srcQueries, List.mem_singleton] at h; exact ⟨q', by simp [srcQueries], h⟩
  | join a b c ty iha ihb =>
    simp only [mapSource, srcQueries, List.mem_append] at h
    rcases h with h | h
    · obtain ⟨e', h1, h2⟩ := iha h; exact ⟨e', by simp [srcQueries, h1], h2⟩
    · obtain ⟨e', h1, h2⟩ := ihb h; exact ⟨e', by simp [srcQueries, h1], h2⟩
  | _ => simp [mapSource, srcQueries] at h

theorem exprs_map (r : Ren) (μ : Q → Q) (s : Sel Q) (e : Expr Q) (h : e ∈ exprs (mapSel r μ s)) : ∃ e' ∈ exprs s, e = mapX r.col r.tab μ e' := by
  rw [mem_exprs] at h
  simp only [mapSel, Option.mem_def, Option.map_eq_some_iff, List.mem_map] at h
  rcases h with ⟨p, ⟨p', h1, rfl⟩, rfl⟩ | ⟨f, ⟨f', h1, rfl⟩, i, hi, he⟩ | ⟨x, h1, rfl⟩ | ⟨g, ⟨g', h1, rfl⟩, he⟩ | ⟨x, h1, rfl⟩ | ⟨l, ⟨l', h1, rfl⟩, o, ho, rfl⟩
  · exact ⟨_, mem_exprs.2 (.inl ⟨p', h1, rfl⟩), rfl⟩
  · unfold mapFrom at hi
    split at hi
    · simp only [List.mem_map] at hi
      obtain ⟨t, -, rfl⟩ := hi
      simp [srcExprs] at he
    · simp only [List.mem_map] at hi
      obtain ⟨i', hi', rfl⟩ := hi
      obtain ⟨e', h2, h3⟩ := srcExprs_map r μ i' e he
      exact ⟨e', mem_exprs.2 (.inr (.inl ⟨f', h1, i', hi', h2⟩)), h3⟩
  · exact ⟨x, mem_exprs.2 (.inr (.inr (.inl h1))), rfl⟩
  · simp only [List.mem_map] at he
    obtain ⟨e', h2, rfl⟩ := he
    exact ⟨e', mem_exprs.2 (.inr (.inr (.inr (.inl ⟨g', h1, h2⟩)))), rfl⟩
  · exact ⟨x, mem_exprs.2 (.inr (.inr (.inr (.inr (.inl h1))))), rfl⟩
  · simp only [List.mem_map] at ho
    obtain ⟨o', h2, rfl⟩ := ho
    exact ⟨o'.expr, mem_exprs.2 (.inr (.inr (.inr (.inr (.inr ⟨l', h1, o', h2, rfl⟩))))), rfl⟩

theorem direct_map (r : Ren) (μ : Q → Q) (s : Sel Q) (q : Q) (h : Direct q (mapSel r μ s)) : ∃ q', Direct q' s ∧ q = μ q' := by
  rcases h with ⟨c, hc, w, hw, hq⟩ | ⟨f, hf, i, hi, hq⟩ | ⟨e, he, hs⟩
  · simp only [mapSel, Option.mem_def, Option.map_eq_some_iff] at hc
    obtain ⟨c', h1, rfl⟩ := hc
    simp only [List.mem_map] at hw
    obtain ⟨w', h2, rfl⟩ := hw
    cases w' with
    | query q' t m => simp only [mapWith, withQuery, Option.some.injEq] at hq; exact ⟨q', .inl ⟨c', h1, _, h2, rfl⟩, hq.symm⟩
    | values => simp [mapWith, withQuery] at hq
  · simp only [mapSel, Option.mem_def, Option.map_eq_some_iff] at hf
    obtain ⟨f', h1, rfl⟩ := hf
    unfold mapFrom at hi
    split at hi
    · simp only [List.mem_map] at hi
      obtain ⟨t, -, rfl⟩ := hi
      simp [srcQueries] at hq
    · simp only [List.mem_map] at hi
      obtain ⟨i', hi', rfl⟩ := hi
      obtain ⟨q', h2, h3⟩ := srcQueries_map r μ i' q hq
      exact ⟨q', .inr (.inl ⟨f', h1, i', hi', h2⟩), h3⟩
  · obtain ⟨e', h1, rfl⟩ := exprs_map r μ s e he
    obtain ⟨q', h2, h3⟩ := (subq_mapX _ _ _).1 hs
    exact ⟨q', .inr (.inr ⟨e', h1, h2⟩), h3⟩

theorem allAt_map {P P' : (Q : Type) → Sel Q → Prop} (r : Ren) (h : ∀ (Q : Type) (s : Sel Q) (μ : Q → Q), P Q s → P' Q (mapSel r μ s)) (n : Nat) (q : QH n)
    (ha : AllAt P n q) : AllAt P' n (mapAt r n q) := by
  induction n with
  | zero => exact q.elim
  | succ n ih =>
    obtain ⟨s, rfl, h1, h2⟩ := ha
    refine ⟨mapSel r (mapAt r n) s, rfl, h _ _ _ h1, fun q' hq => ?_⟩
    obtain ⟨q, h3, rfl⟩ := direct_map r _ s q' hq
    exact ih q (h2 q h3)

theorem allAt_imp {P P' : (Q : Type) → Sel Q → Prop} (h : ∀ (Q : Type) (s : Sel Q), P Q s → P' Q s) (n : Nat) (q : QH n) (ha : AllAt P n q) : AllAt P' n q := by
  induction n with
  | zero => exact q.elim
  | succ n ih =>
    obtain ⟨s, rfl, h1, h2⟩ := ha
    exact ⟨s, rfl, h _ _ h1, fun q' hq => ih q' (h2 q' hq)⟩

theorem TabLocal.colLocal {N : Names} {tgt : Tab} {s : Sel Q} (h : TabLocal N tgt Q s) (ρ : Dict Col Col) : ColLocal ρ Q s where
  cls := h.col.cls
  exprs := h.col.exprs
  distinctOn := h.col.distinctOn
  withs := h.col.withs
  values f hf i hi l hl := by
    have := h.tables f hf i hi l hl
    cases l <;> simp [directTab, valuesKept] at this ⊢
  implicit := h.col.implicit

theorem srcLeaves_map (r : Ren) (μ : Q → Q) (i : Source Q) : srcLeaves (mapSource r μ i) = (srcLeaves i).map (mapSource r μ) := by
  induction i with
  | join a b c ty iha ihb => simp [mapSource, srcLeaves, iha, ihb]
  | _ => simp [mapSource, srcLeaves]

/-- Whatever keeps the tables of the FROM clauses in order keeps the conditions. -/
theorem TabLocal.map {N : Names} {tgt : Tab} {s : Sel Q} (h : TabLocal N tgt Q s) (r : Ren) (μ : Q → Q)
    (hl : ∀ f ∈ s.src, f.cls = .implicit → (r.list ((f.items.filterMap directTab).map r.tab)).Nodup ∧
      ∀ t ∈ r.list ((f.items.filterMap directTab).map r.tab), t = tgt ∨ t ∈ f.items.filterMap directTab)
    (hj : ∀ f ∈ s.src, f.cls ≠ .implicit → ∀ t, r.tab t = t) : TabLocal N tgt Q (mapSel r μ s) where
  col :=
    { cls := h.col.cls
      exprs := by
        intro e he
        obtain ⟨e', h1, rfl⟩ := exprs_map r μ s e he
        exact ⟨shape_sub shape_built _ _ _ (h.col.exprs e' h1).1, shape_sub shape_ren _ _ _ (h.col.exprs e' h1).2⟩
      distinctOn := by simp [mapSel, h.col.distinctOn]
      withs := by
        intro c hc
        simp only [mapSel, Option.mem_def, Option.map_eq_some_iff] at hc
        obtain ⟨c', h1, rfl⟩ := hc
        refine ⟨by simpa using (h.col.withs c' h1).1, fun w hw => ?_⟩
        simp only [List.mem_map] at hw
        obtain ⟨w', h2, rfl⟩ := hw
        have := (h.col.withs c' h1).2 w' h2
        cases w' <;> simp [mapWith, withQuery] at this ⊢
      values := by
        intro f hf i hi l hl
        cases l <;> simp [valuesKept]
      implicit := by
        intro f hf hi i hm
        simp only [mapSel, Option.mem_def, Option.map_eq_some_iff] at hf
        obtain ⟨f', h1, rfl⟩ := hf
        unfold mapFrom at hi hm
        split at hm
        · simp only [List.mem_map] at hm
          obtain ⟨t, -, rfl⟩ := hm; rfl
        · rename_i hc; rw [if_neg hc] at hi; exact absurd hi hc }
  nodes := by
    intro e he
    obtain ⟨e', h1, rfl⟩ := exprs_map r μ s e he
    exact shape_sub shape_tab _ _ _ (h.nodes e' h1)
  orderBy := by simp [mapSel, h.orderBy]
  fitting := by
    have hf := h.fitting
    have hc : ∀ f : From Q, (mapFrom r μ f).cls = f.cls := by intro f; unfold mapFrom; split <;> rfl
    unfold Fitting at hf ⊢
    cases hs : s.src with
    | none => simpa [mapSel, hs] using hf
    | some f =>
      have := hc f
      rw [hs] at hf
      simp only [mapSel, hs, Option.map_some]
      generalize mapFrom r μ f = g at this
      obtain ⟨c, l⟩ := f
      obtain ⟨c', l'⟩ := g
      simp only at this
      subst this
      cases c' <;> exact hf
  tables := by
    intro f hf i hi l hll
    simp only [mapSel, Option.mem_def, Option.map_eq_some_iff] at hf
    obtain ⟨f', h1, rfl⟩ := hf
    unfold mapFrom at hi
    split at hi
    · simp only [List.mem_map] at hi
      obtain ⟨t, -, rfl⟩ := hi
      simp only [srcLeaves, List.mem_singleton] at hll
      subst hll; rfl
    · simp only [List.mem_map] at hi
      obtain ⟨i', h2, rfl⟩ := hi
      rw [srcLeaves_map, List.mem_map] at hll
      obtain ⟨l', h3, rfl⟩ := hll
      have := h.tables f' h1 i' h2 l' h3
      cases l' <;> simp [directTab, mapSource] at this ⊢
  implicit := by
    intro f hf hi
    simp only [mapSel, Option.mem_def, Option.map_eq_some_iff] at hf
    obtain ⟨f', h1, rfl⟩ := hf
    unfold mapFrom at hi ⊢
    split at hi
    · rename_i hc
      rw [if_pos hc]
      simp only [filterMap_tables]
      have hh := hl f' h1 hc
      refine ⟨hh.1, fun t ht u hu => (h.implicit f' h1 hc).2 t ?_ u ?_⟩
      · rcases List.mem_cons.1 ht with rfl | ht
        · simp
        · exact List.mem_cons.2 (hh.2 t ht)
      · rcases List.mem_cons.1 hu with rfl | hu
        · simp
        · exact List.mem_cons.2 (hh.2 u hu)
    · rename_i hc; exact absurd hi hc
  joins := by
    intro f hf hi i hm l hll t ht
    simp only [mapSel, Option.mem_def, Option.map_eq_some_iff] at hf
    obtain ⟨f', h1, rfl⟩ := hf
    unfold mapFrom at hi hm
    split at hm
    · rename_i hc; rw [if_pos hc] at hi; exact absurd hc hi
    · rename_i hc
      simp only [List.mem_map] at hm
      obtain ⟨i', h2, rfl⟩ := hm
      rw [srcLeaves_map, List.mem_map] at hll
      obtain ⟨l', h3, rfl⟩ := hll
      refine h.joins f' h1 hc i' h2 l' h3 t ?_
      cases l' with
      | table u => simp only [mapSource, directTab, Option.some.injEq] at ht ⊢; rw [← ht, hj f' h1 hc]
      | _ => simp [mapSource, directTab] at ht

/-- What the renaming of the tables itself does. -/
def tabRen (N : Names) (src tgt : Tab) : Ren := tableRen N src tgt false []

theorem colOf_single (src tgt : Tab) (c : Col) : colOf [(src, tgt)] c = if c.tab = some src then ⟨some tgt, c.name⟩ else c := by
  obtain ⟨t, m⟩ := c
  cases t with
  | none => simp [QTransform.colOf]
  | some t =>
    by_cases h : t = src
    · subst h; simp [QTransform.colOf, Dict.get?]
    · simp [QTransform.colOf, Dict.get?, h, Ne.symm h, beq_eq_false_iff_ne]

theorem tabOf_single (src tgt t : Tab) : tabOf [(src, tgt)] t = if t = src then tgt else t := by
  by_cases h : t = src
  · subst h; simp [tabOf, Dict.get?]
  · simp [tabOf, Dict.get?, h, Ne.symm h]

theorem tabE_single (N : Names) (ren : Q → Option Q) (src tgt : Tab) (μ : Q → Q) (e : Expr Q) (hb : Built e) (hn : ∀ s, Sub s e → tabNode s = true)
    (hq : ∀ q, Sub (.subq q) e → ren q = some (μ q)) : tabE ren [(src, tgt)] e = some (mapX (tabRen N src tgt).col (tabRen N src tgt).tab μ e) := by
  rw [tabE_spec ren _ μ e hb hn hq, funext (colOf_single src tgt), funext (tabOf_single src tgt)]
  simp [tabRen, tableRen]

theorem tabSource_spec (N : Names) (ren : Q → Option Q) (src tgt : Tab) (μ : Q → Q) (i : Source Q) (ht : ∀ l ∈ srcLeaves i, (directTab l).isSome)
    (he : ∀ e ∈ srcExprs i, tabE ren [(src, tgt)] e = some (mapX (tabRen N src tgt).col (tabRen N src tgt).tab μ e)) :
    tabSource N ren [(src, tgt)] i = some (mapSource (tabRen N src tgt) μ i) := by
  induction i with
  | table t => simp [tabSource, mapSource, tabOf_single, tabRen, tableRen]
  | join a b c ty iha ihb =>
    rw [tabSource, iha (fun l hl => ht l (by simp [srcLeaves, hl])) fun e h => he e (by simp [srcExprs, h]),
      ihb (fun l hl => ht l (by simp [srcLeaves, hl])) fun e h => he e (by simp [srcExprs, h]),
      tabO_spec ren _ (mapX (tabRen N src tgt).col (tabRen N src tgt).tab μ) c fun e h => he e (by simp only [srcExprs, List.mem_append]; exact .inr h)]
    rfl
  | _ => have := ht _ (by simp only [srcLeaves, List.mem_singleton]; rfl); simp [directTab] at this

theorem source_tables (N : Names) (ops : QOps Q) (i : Source Q) (ht : ∀ l ∈ srcLeaves i, (directTab l).isSome) (t : Tab) :
    t ∈ (toSource N i).tables ops ↔ ∃ l ∈ srcLeaves i, directTab l = some t := by
  induction i with
  | table u => simp [toSource, Query.Source.tables, srcLeaves, directTab, eq_comm]
  | join a b c ty iha ihb =>
    rw [toSource, Query.Source.tables, Finset.mem_union, iha fun l hl => ht l (by simp [srcLeaves, hl]), ihb fun l hl => ht l (by simp [srcLeaves, hl])]
    simp only [srcLeaves, List.mem_append]
    constructor
    · rintro (⟨l, h1, h2⟩ | ⟨l, h1, h2⟩)
      · exact ⟨l, .inl h1, h2⟩
      · exact ⟨l, .inr h1, h2⟩
    · rintro ⟨l, h1 | h1, h2⟩
      · exact .inl ⟨l, h1, h2⟩
      · exact .inr ⟨l, h1, h2⟩
  | _ => have := ht _ (by simp only [srcLeaves, List.mem_singleton]; rfl); simp [directTab] at this

theorem from_tables (N : Names) (ops : QOps Q) (f : From Q) (ht : ∀ i ∈ f.items, ∀ l ∈ srcLeaves i, (directTab l).isSome) (t : Tab) :
    t ∈ fromTables N ops f ↔ ∃ i ∈ f.items, ∃ l ∈ srcLeaves i, directTab l = some t := by
  rw [fromTables, mem_unionAll]
  simp only [List.mem_map]
  constructor
  · rintro ⟨_, ⟨i, hi, rfl⟩, h⟩
    exact ⟨i, hi, (source_tables N ops i (ht i hi) t).1 h⟩
  · rintro ⟨i, hi, h⟩
    exact ⟨_, ⟨i, hi, rfl⟩, (source_tables N ops i (ht i hi) t).2 h⟩

theorem items_tables {l : List (Source Q)} (h : ∀ i ∈ l, (directTab i).isSome) : l = (l.filterMap directTab).map .table := by
  induction l with
  | nil => rfl
  | cons a l ih =>
    have ha := h a (by simp)
    cases a with
    | table t => simp [directTab]; exact ih fun i hi => h i (by simp [hi])
    | _ => simp [directTab] at ha

/-- The loop keeps the tables of which the identifiers are used otherwise, and one copy of the new table. -/
theorem mergeLoop_spec (N : Names) (sep inter : List String) (tgt : Tab) (l : List Tab) (hs : ∀ t ∈ l, t ≠ tgt → N.ident t ∈ sep)
    (ht : N.ident tgt ∉ sep) (hn : (l.filter fun t => t ≠ tgt).Nodup) :
    mergeLoop N sep inter (l.map (Source.table : Tab → Source Q)) =
      some ((if N.ident tgt ∈ inter then firsts l else l.filter fun t => t ≠ tgt).map .table) := by
  induction l generalizing inter with
  | nil => simp [mergeLoop, firsts]
  | cons a l ih =>
    have hs' : ∀ t ∈ l, t ≠ tgt → N.ident t ∈ sep := fun t h => hs t (by simp [h])
    by_cases ha : a = tgt
    · subst ha
      have hn' : (l.filter fun t => t ≠ a).Nodup := by simpa [List.filter_cons] using hn
      simp only [List.map_cons, mergeLoop, sourceIdent, Option.bind_some, ht, if_false]
      by_cases hi : N.ident a ∈ inter
      · rw [if_neg (by simpa using hi), if_pos hi, ih _ hs' hn', if_neg (by simp)]
        have e : firsts (l.filter fun t => t ≠ a) = l.filter fun t => t ≠ a := firsts_of_nodup hn'
        rw [firsts, ← firsts_filter, e]
        rfl
      · rw [if_pos (by simpa using hi), if_neg hi, ih _ hs' hn', if_neg hi]
        simp [List.filter_cons]
    · have hn0 : (a :: l.filter fun t => t ≠ tgt).Nodup := by simpa [List.filter_cons, ha] using hn
      have hn' := (List.nodup_cons.1 hn0).2
      have hna : a ∉ l := fun hm => (List.nodup_cons.1 hn0).1 (by simp [List.mem_filter, hm, ha])
      simp only [List.map_cons, mergeLoop, sourceIdent, Option.bind_some, hs a (by simp) ha, if_true]
      rw [ih _ hs' hn']
      by_cases hi : N.ident tgt ∈ inter
      · rw [if_pos hi, if_pos hi, firsts, List.filter_eq_self.2]
        · rfl
        · intro b hb
          rw [mem_firsts] at hb
          simp only [decide_eq_true_eq]
          rintro rfl; exact hna hb
      · rw [if_neg hi, if_neg hi]
        simp [List.filter_cons, ha]

theorem tabFrom_spec (N : Names) (ord : Finset Tab → List Tab) (hord : ∀ s t, t ∈ ord s ↔ t ∈ s) (ops : QOps Q) (ren : Q → Option Q) (src tgt : Tab)
    (μ : Q → Q) (f : From Q) (ht : ∀ i ∈ f.items, ∀ l ∈ srcLeaves i, (directTab l).isSome)
    (hd : f.cls = .implicit → ∀ i ∈ f.items, (directTab i).isSome)
    (hi : f.cls = .implicit → (f.items.filterMap directTab).Nodup ∧
      ∀ t ∈ tgt :: f.items.filterMap directTab, ∀ u ∈ tgt :: f.items.filterMap directTab, N.ident t = N.ident u → t = u)
    (hj : f.cls ≠ .implicit → ∀ i ∈ f.items, ∀ l ∈ srcLeaves i, ∀ t, directTab l = some t → N.ident t ≠ N.ident tgt)
    (he : ∀ i ∈ f.items, ∀ e ∈ srcExprs i, tabE ren [(src, tgt)] e = some (mapX (tabRen N src tgt).col (tabRen N src tgt).tab μ e)) :
    tabFrom N ren [(src, tgt)] (usedIdents N ord ops f) f = some (mapFrom (tabRen N src tgt) μ f) := by
  have hu : ∀ x, x ∈ usedIdents N ord ops f ↔ ∃ i ∈ f.items, ∃ l ∈ srcLeaves i, ∃ t, directTab l = some t ∧ N.ident t = x := by
    intro x
    simp only [usedIdents, List.mem_map, hord, from_tables N ops f ht]
    constructor
    · rintro ⟨t, ⟨i, h1, l, h2, h3⟩, h4⟩; exact ⟨i, h1, l, h2, t, h3, h4⟩
    · rintro ⟨i, h1, l, h2, t, h3, h4⟩; exact ⟨t, ⟨i, h1, l, h2, h3⟩, h4⟩
  have hm := mapAll_spec (f := tabSource N ren [(src, tgt)]) (g := mapSource (tabRen N src tgt) μ) (l := f.items)
    fun i h => tabSource_spec N ren src tgt μ i (ht i h) (he i h)
  unfold tabFrom
  simp only [hm, Option.bind_some, List.map_cons, List.map_nil, List.mem_singleton]
  by_cases hc : f.cls = .implicit
  · obtain ⟨hi1, hi2⟩ := hi hc
    have hitems := items_tables (hd hc)
    have hu' : ∀ x, x ∈ usedIdents N ord ops f ↔ ∃ t ∈ f.items.filterMap directTab, N.ident t = x := by
      intro x
      rw [hu]
      constructor
      · rintro ⟨i, h1, l, h2, t, h3, h4⟩
        have := hd hc i h1
        cases i with
        | table u =>
          simp only [srcLeaves, List.mem_singleton] at h2
          subst h2
          exact ⟨t, List.mem_filterMap.2 ⟨_, h1, h3⟩, h4⟩
        | _ => simp [directTab] at this
      · rintro ⟨t, h1, h2⟩
        obtain ⟨i, h3, h4⟩ := List.mem_filterMap.1 h1
        refine ⟨i, h3, i, ?_, t, h4, h2⟩
        cases i with
        | table u => simp [srcLeaves]
        | _ => simp [directTab] at h4
    have hg : mapFrom (tabRen N src tgt) μ f = ⟨f.cls, (firsts ((f.items.filterMap directTab).map fun t => if t = src then tgt else t)).map .table⟩ := by
      unfold mapFrom; rw [if_pos hc]; rfl
    have hr : f.items.map (mapSource (tabRen N src tgt) μ) =
        ((f.items.filterMap directTab).map fun t => if t = src then tgt else t).map .table := by
      conv_lhs => rw [hitems]
      rw [List.map_map, List.map_map]
      rfl
    generalize f.items.filterMap directTab = l at hi1 hi2 hu' hg hr
    rw [hg, hr]
    have hnd : ((l.map fun t => if t = src then tgt else t).filter fun t => t ≠ tgt).Nodup := by
      have : ∀ l : List Tab, ((l.map fun t => if t = src then tgt else t).filter fun t => t ≠ tgt) = l.filter fun t => t ≠ src ∧ t ≠ tgt := by
        intro l
        induction l with
        | nil => rfl
        | cons a l ih =>
          by_cases h1 : a = src
          · simp only [List.map_cons, h1, if_true, List.filter_cons]; simpa using ih
          · by_cases h2 : a = tgt
            · subst h2
              simp only [List.map_cons, h1, if_false]
              rw [List.filter_cons_of_neg (by simp), List.filter_cons_of_neg (by simp)]
              exact ih
            · simp only [List.map_cons, h1, if_false]
              rw [List.filter_cons_of_pos (by simp [h2]), List.filter_cons_of_pos (by simp [h1, h2]), ih]
      rw [this]
      exact hi1.filter _
    by_cases htg : tgt ∈ l
    · have hin : N.ident tgt ∈ (usedIdents N ord ops f).filter fun i => i = N.ident tgt := by
        simp only [List.mem_filter, decide_eq_true_eq, and_true]
        exact (hu' _).2 ⟨tgt, htg, rfl⟩
      rw [if_neg (List.ne_nil_of_mem hin), if_pos hc, mergeLoop_spec N _ _ tgt _ ?_ ?_ hnd, if_pos hin]
      · have hne : (firsts (l.map fun t => if t = src then tgt else t)).map (Source.table : Tab → Source Q) ≠ [] := by
          have : tgt ∈ firsts (l.map fun t => if t = src then tgt else t) := by
            rw [mem_firsts, List.mem_map]
            refine ⟨tgt, htg, ?_⟩
            by_cases h : tgt = src <;> simp [h]
          intro h0
          rw [List.map_eq_nil_iff] at h0
          rw [h0] at this
          simp at this
        simp only [Option.bind_some, List.isEmpty_iff, hne, if_false]
        rw [hc]
      · intro t h1 h2
        rw [List.mem_map] at h1
        obtain ⟨u, h3, rfl⟩ := h1
        have h4 : u ≠ src := fun h => h2 (by simp [h])
        simp only [h4, if_false] at h2 ⊢
        rw [List.mem_filter]
        refine ⟨(hu' _).2 ⟨u, h3, rfl⟩, ?_⟩
        simp only [decide_eq_true_eq]
        exact fun h => h2 (hi2 u (by simp [h3]) tgt (by simp) h)
      · simp
    · have hin : ((usedIdents N ord ops f).filter fun i => i = N.ident tgt) = [] := by
        rw [List.filter_eq_nil_iff]
        intro x hx
        obtain ⟨t, h1, rfl⟩ := (hu' x).1 hx
        simp only [decide_eq_true_eq]
        intro h
        exact htg (hi2 t (by simp [h1]) tgt (by simp) h ▸ h1)
      rw [if_pos hin, firsts_of_nodup]
      refine List.Nodup.map_on ?_ hi1
      intro a ha b hb hab
      by_cases h1 : a = src <;> by_cases h2 : b = src
      · rw [h1, h2]
      · simp only [h1, h2, if_true, if_false] at hab; exact absurd (hab ▸ hb) htg
      · simp only [h1, h2, if_true, if_false] at hab; exact absurd (hab ▸ ha) htg
      · simpa [h1, h2] using hab
  · have hin : ((usedIdents N ord ops f).filter fun i => i = N.ident tgt) = [] := by
      rw [List.filter_eq_nil_iff]
      intro x hx
      obtain ⟨i, h1, l, h2, t, h3, rfl⟩ := (hu x).1 hx
      simpa using hj hc i h1 l h2 t h3
    rw [if_pos hin]
    unfold mapFrom
    rw [if_neg hc]

theorem tabSel_spec (N : Names) (ord : Finset Tab → List Tab) (hord : ∀ s t, t ∈ ord s ↔ t ∈ s) (hv : ∀ s, N.ident (N.virt s) = s) (ops : QOps Q)
    (ren : Q → Option Q) (src tgt : Tab) (μ : Q → Q) (s : Sel Q) (h : TabLocal N tgt Q s) (hq : ∀ q, Direct q s → ren q = some (μ q)) :
    tabSel N ord ops ren [(src, tgt)] s = some (.sel (mapSel (tabRen N src tgt) μ s)) := by
  have hd := h.col
  have he : ∀ e ∈ exprs s, tabE ren [(src, tgt)] e = some (mapX (tabRen N src tgt).col (tabRen N src tgt).tab μ e) := fun e hm =>
    tabE_single N ren src tgt μ e (hd.exprs e hm).1 (h.nodes e hm) fun q hs => hq q (.inr (.inr ⟨e, hm, hs⟩))
  have hcte : mapOpt (tabCte N ren [(src, tgt)]) s.cte = some (s.cte.map fun c => ⟨c.queries.map (mapWith (tabRen N src tgt) μ), c.recursive⟩) := by
    refine mapOpt_spec fun c hc => ?_
    rw [tabCte, mapAll_spec (g := mapWith (tabRen N src tgt) μ) ?_]
    · simp only [Option.bind_some]
      unfold mkCte
      rw [if_neg (by simpa using (hd.withs c hc).1)]
    · intro w hw
      have hw' := (hd.withs c hc).2 w hw
      cases w with
      | query q t m =>
        simp only [tabWith, hq q (.inl ⟨c, hc, _, hw, rfl⟩), mapWith, tabRen, tableRen, tabOf_single, Option.map_some]
        by_cases hx : N.virt t.ident = src
        · simp [hx]
        · simp [hx, hv]
      | values => simp [withQuery] at hw'
  have hhav : tabO ren [(src, tgt)] s.having_ = some (s.having_.map (mapX (tabRen N src tgt).col (tabRen N src tgt).tab μ)) :=
    tabO_spec ren _ _ _ fun e hm => he e (mem_exprs.2 (.inr (.inr (.inr (.inr (.inl (by simpa using hm)))))))
  have hwh : tabO ren [(src, tgt)] s.where_ = some (s.where_.map (mapX (tabRen N src tgt).col (tabRen N src tgt).tab μ)) :=
    tabO_spec ren _ _ _ fun e hm => he e (mem_exprs.2 (.inr (.inr (.inl (by simpa using hm)))))
  have hsel : renSelect (tabE ren [(src, tgt)]) s.select =
      some ⟨s.select.targets.map fun p => ⟨mapX (tabRen N src tgt).col (tabRen N src tgt).tab μ p.expr, p.name⟩, s.select.distinct, s.select.cols⟩ := by
    rw [renSelect, mapAll_spec (g := fun p => ⟨mapX (tabRen N src tgt).col (tabRen N src tgt).tab μ p.expr, p.name⟩) fun p hp => by
      simp [renProj, he p.expr (mem_exprs.2 (.inl ⟨p, hp, rfl⟩))]]
    rfl
  have hgr : mapOpt (renGroup (tabE ren [(src, tgt)])) s.groupBy =
      some (s.groupBy.map fun g => ⟨g.cols.map (mapX (tabRen N src tgt).col (tabRen N src tgt).tab μ), g.distinct⟩) :=
    mapOpt_spec fun g hg => by
      rw [renGroup, mapAll_spec fun e hm => he e (mem_exprs.2 (.inr (.inr (.inr (.inl ⟨g, hg, hm⟩)))))]
      rfl
  have hsrc : mapOpt (fun f => tabFrom N ren [(src, tgt)] (usedIdents N ord ops f) f) s.src = some (s.src.map (mapFrom (tabRen N src tgt) μ)) :=
    mapOpt_spec fun f hf => tabFrom_spec N ord hord ops ren src tgt μ f (h.tables f hf) (hd.implicit f hf) (h.implicit f hf) (h.joins f hf)
      fun i hi e hs => he e (mem_exprs.2 (.inr (.inl ⟨f, hf, i, hi, hs⟩)))
  have hfit : Fitting (mapSel (tabRen N src tgt) μ s) := by
    have hf := h.fitting
    have hc : ∀ f : From Q, (mapFrom (tabRen N src tgt) μ f).cls = f.cls := by intro f; unfold mapFrom; split <;> rfl
    unfold Fitting at hf ⊢
    cases hs : s.src with
    | none => simpa [mapSel, hs] using hf
    | some f =>
      have := hc f
      rw [hs] at hf
      simp only [mapSel, hs, Option.map_some]
      generalize mapFrom (tabRen N src tgt) μ f = g at this
      obtain ⟨c, l⟩ := f
      obtain ⟨c', l'⟩ := g
      simp only at this
      subst this
      cases c' <;> exact hf
  have hrb := C117_rebuild (.sel (mapSel (tabRen N src tgt) μ s)) (fun t ht => by cases ht; exact hfit) (by
    intro l r hm
    change (∃ a, _ ∈ Sel.clauses _) ∨ _ ∈ Sel.clauses _ ∨ _ ∈ Sel.clauses _ at hm
    simp [mem_selClauses] at hm)
  unfold tabSel
  rw [if_neg (by simp [h.orderBy]), hcte, hhav, hsel, hsrc, hwh, hgr]
  simp only [Option.bind_some]
  refine Eq.trans ?_ hrb
  change build (Sel.clauses _) = build (Sel.clauses _)
  congr 2
  simp only [mapSel, h.orderBy, hd.distinctOn, Option.map_none, List.map_nil]

theorem tabs_spec (N : Names) (ord : Finset Tab → List Tab) (hord : ∀ s t, t ∈ ord s ↔ t ∈ s) (hv : ∀ s, N.ident (N.virt s) = s) (src tgt : Tab) (n : Nat)
    (q : QH n) (h : AllAt (TabLocal N tgt) n q) : tabs N ord [(src, tgt)] n q = some (mapAt (tabRen N src tgt) n q) := by
  induction n with
  | zero => exact q.elim
  | succ n ih =>
    obtain ⟨s, rfl, hs, hd⟩ := h
    exact tabSel_spec N ord hord hv (opsOf N n) (tabs N ord [(src, tgt)] n) src tgt (mapAt (tabRen N src tgt) n) s hs fun q hq => ih q (hd q hq)

theorem get?_tableCols (N : Names) (src tgt : Tab) (pre : Bool) (cols : List Col) (c : Col) :
    Dict.get? (tableCols N [(src, tgt)] (some tgt) pre cols) c =
      if c ∈ cols ∧ c.tab = some src then some ⟨some tgt, if pre = true then N.pre src c.name else c.name⟩ else none := by
  have hget : ∀ d : Col, ((d.tab.bind fun t => Dict.get? [(src, tgt)] t).isSome = true) ↔ d.tab = some src := by
    intro d
    cases hd : d.tab with
    | none => simp
    | some t =>
      by_cases h : t = src
      · subst h; simp [Dict.get?]
      · simp [Dict.get?, h, Ne.symm h]
  unfold tableCols
  induction cols with
  | nil => simp [Dict.get?]
  | cons a l ih =>
    by_cases ha : a.tab = some src
    · rw [List.filter_cons_of_pos (by rw [hget]; exact ha), List.map_cons]
      by_cases hc : a = c
      · subst hc; simp [Dict.get?, ha]
      · have hc' : (a == c) = false := by simpa using hc
        rw [Dict.get?, if_neg hc, ih]
        simp [Ne.symm hc]
    · rw [List.filter_cons_of_neg (by rw [hget]; exact ha), ih]
      by_cases hc : c = a
      · subst hc; simp [ha]
      · simp [hc]

/-- **C131 (partial).** Renaming a table in a query of any depth of nesting replaces the table and the tables of its columns in all clauses and all subqueries, and
changes nothing else: the columns keep their names (or get the prefix, if that is requested), and the other tables and columns are kept. If the query already
contains the new table in an implicit FROM clause, it still contains it just once. The conditions exclude what the code does not handle: besides the cases of C130
these are ORDER BY clauses, table sources other than tables, array accesses, quantifiers and window functions with ORDER BY; see `C131_order_violated`,
`C131_chain_violated` and `C131_dict_violated`. -/
theorem C131_rename_partial (N : Names) (ord : Finset Tab → List Tab) (hord : ∀ s t, t ∈ ord s ↔ t ∈ s) (hv : ∀ s, N.ident (N.virt s) = s)
    (src tgt : Tab) (pre : Bool) (n : Nat) (cols : List Col) (q : QH n) (h : AllAt (TabLocal N tgt) n q) :
    renameTable N ord n cols src tgt pre q = some (mapAt (tableRen N src tgt pre cols) n q) := by
  unfold renameTable renameTables
  rw [C130_rename_partial N _ n q (allAt_imp (fun Q s hs => hs.colLocal _) n q h), Option.bind_some, tabs_spec N ord hord hv src tgt n _
    (allAt_map _ (fun Q s μ hs => hs.map _ μ (fun f hf hi => ?_) fun f hf hi t => rfl) n q h), Comp.at (r := tableRen N src tgt pre cols)]
  · refine ⟨fun c => ?_, fun t => rfl, fun s => rfl, fun t => rfl, fun l => by simp [colRen, tabRen, tableRen]⟩
    simp only [colRen, tabRen, tableRen, get?_tableCols]
    by_cases h1 : c.tab = some src
    · by_cases h2 : c ∈ cols
      · by_cases h3 : tgt = src
        · cases pre <;> simp [h1, h2, h3]
        · cases pre <;> simp [h1, h2, h3]
      · simp [h1, h2]
    · simp [h1]
  · have := (hs.implicit f hf hi)
    simp only [colRen, List.map_id']
    exact ⟨this.1, fun t ht => .inr ht⟩

/-- The parts of the specification: in `firsts l` each element of `l` occurs exactly once. -/
theorem C131_firsts (l : List Tab) : (firsts l).Nodup ∧ ∀ t, t ∈ firsts l ↔ t ∈ l := ⟨firsts_nodup l, fun _ => mem_firsts⟩

/-- An order of the elements of sets. -/
def exOrd (s : Finset Tab) : List Tab := (List.range (s.sup id + 1)).filter fun t => t ∈ s

theorem exOrd_mem (s : Finset Tab) (t : Tab) : t ∈ exOrd s ↔ t ∈ s := by
  simp only [exOrd, List.mem_filter, List.mem_range, decide_eq_true_eq, and_iff_right_iff_imp]
  intro h
  have := Finset.le_sup (f := id) h
  exact Nat.lt_succ_of_le this

theorem exSel_tab (tgt : Tab) (cols : List (Expr Q)) (ts : List Tab) (p : Option (Expr Q)) (hn : ts.Nodup)
    (hi : ∀ t ∈ tgt :: ts, ∀ u ∈ tgt :: ts, exN.ident t = exN.ident u → t = u)
    (h : ∀ e ∈ cols ++ p.toList, ∀ s, Sub s e → builtNode s = true ∧ renNode s = true ∧ tabNode s = true) : TabLocal exN tgt Q (exSel cols ts p) where
  col := exSel_col [] cols ts p fun e he s hs => ⟨(h e he s hs).1, (h e he s hs).2.1⟩
  nodes e he s hs := by rw [exSel_exprs] at he; exact (h e he s hs).2.2
  orderBy := rfl
  fitting := rfl
  tables f hf i hi l hl := by
    simp only [exSel, Option.mem_def, Option.some.injEq] at hf
    subst hf
    simp only [List.mem_map] at hi
    obtain ⟨t, -, rfl⟩ := hi
    simp only [srcLeaves, List.mem_singleton] at hl
    subst hl; rfl
  implicit f hf _ := by
    simp only [exSel, Option.mem_def, Option.some.injEq] at hf
    subst hf
    rw [filterMap_tables]
    exact ⟨hn, hi⟩
  joins f hf hc := by
    simp only [exSel, Option.mem_def, Option.some.injEq] at hf
    subst hf
    simp at hc

theorem exQuery_tabs (tgt : Tab) (ht : tgt < 5) : TabLocal exN tgt _ exOuter ∧
    TabLocal exN tgt _ (exSel [.col ⟨some 2, 1⟩] [2] (some (.binary .eq (.col ⟨some 2, 1⟩) (.static (.num 1)))) : Sel (QH 0)) := by
  have h := exQuery_nodes (P := fun Q e => builtNode e = true ∧ renNode e = true ∧ tabNode e = true) (fun _ _ => ⟨rfl, rfl, rfl⟩) (fun _ _ => ⟨rfl, rfl, rfl⟩)
    (fun _ _ _ => ⟨rfl, rfl, rfl⟩) (fun _ _ _ => ⟨rfl, rfl, rfl⟩) (fun _ _ => ⟨rfl, rfl, rfl⟩) (fun _ _ _ => ⟨rfl, rfl, rfl⟩)
    (fun _ _ _ _ _ => ⟨rfl, rfl, rfl⟩)
  have hinj : ∀ t < 5, ∀ u < 5, exN.ident t = exN.ident u → t = u := by decide
  have h1 : ∀ t ∈ [tgt, 1, 3], t < 5 := by simp [ht]
  have h2 : ∀ t ∈ [tgt, 2], t < 5 := by simp [ht]
  exact ⟨exSel_tab tgt _ _ _ (by decide) (fun t ht u hu => hinj t (h1 t ht) u (h1 u hu)) h.1,
    exSel_tab tgt _ _ _ (by decide) (fun t ht u hu => hinj t (h2 t ht) u (h2 u hu)) h.2⟩

theorem exQuery_tab (tgt : Tab) (ht : tgt < 5) : AllAt (TabLocal exN tgt) 2 (.sel exOuter : Stmt (QH 1)) :=
  exQuery_all (exQuery_tabs tgt ht).1 (exQuery_tabs tgt ht).2

/-- Renaming `t3` to `t1`, which is already used. -/
example : renameTable exN exOrd 2 [⟨some 1, 0⟩, ⟨some 3, 0⟩] 3 1 true (.sel exOuter : Stmt (QH 1)) = some (.sel
    (exSel [.col ⟨some 1, 0⟩] [1] (some (.compound .and [.inP (.col ⟨some 1, 0⟩) [.subq exInner],
      .binary .eq (.col ⟨some 1, 0⟩) (.col ⟨some 1, 300⟩)]))) : Stmt (QH 1)) := by
  rw [C131_rename_partial exN exOrd exOrd_mem exN_virt 3 1 true 2 _ _ (exQuery_tab 1 (by decide))]
  rfl

/-- **C131 is violated.** Tables cannot be renamed in queries with an ORDER BY clause. -/
theorem C131_order_violated (N : Names) (ord : Finset Tab → List Tab) (n : Nat) (cols : List Col) (src tgt : Tab) (pre : Bool) (s : Sel (QH n))
    (h : s.orderBy ≠ none) : renameTable N ord (n + 1) cols src tgt pre (.sel s : Stmt (QH n)) = none := by
  unfold renameTable renameTables
  simp only [renCols, renStmt]
  cases hr : renSel N (renCols N (tableCols N [(src, tgt)] (some tgt) pre cols) n) (tableCols N [(src, tgt)] (some tgt) pre cols) s with
  | none => rfl
  | some s' =>
    have ho : s'.orderBy ≠ none := by
      unfold renSel at hr
      split at hr
      · cases hr
      · simp only [Option.bind_eq_some_iff, Option.map_eq_some_iff] at hr
        obtain ⟨cte, -, hv, -, o, ho, sel, -, src, -, w, -, g, -, rfl⟩ := hr
        cases hs : s.orderBy with
        | none => exact absurd hs h
        | some l =>
          rw [hs] at ho
          simp only [mapOpt, Option.map_eq_some_iff] at ho
          obtain ⟨l', -, rfl⟩ := ho
          simp
    change tabSel N ord (opsOf N n) (tabs N ord [(src, tgt)] n) [(src, tgt)] s' = none
    unfold tabSel
    rw [if_pos (by cases hs : s'.orderBy with
      | none => exact absurd hs ho
      | some _ => rfl)]

example : ∃ s : Sel (QH 0), s.orderBy ≠ none := ⟨⟨.implicit, none, none, none, ⟨[⟨.star none, ""⟩], .none, []⟩, some ⟨.implicit, [.table 1]⟩, none, none, none,
  some [⟨.col ⟨some 1, 0⟩, default⟩], none⟩, by simp⟩

/-- **C131 is violated.** Given as a dictionary, the renaming of `t1` to `t3` in `SELECT t1.x FROM t1, t2 WHERE t1.x = t2.x` removes the table of the columns:
the result is `SELECT x FROM t3, t2 WHERE x = t2.x`. -/
theorem C131_dict_violated :
    renameTables exN exOrd 1 [⟨some 1, 0⟩, ⟨some 2, 0⟩] [(1, 3)] none false
      (.sel (exSel [.col ⟨some 1, 0⟩] [1, 2] (some (.binary .eq (.col ⟨some 1, 0⟩) (.col ⟨some 2, 0⟩)))) : Stmt (QH 0)) =
    some (.sel (exSel [.col ⟨none, 0⟩] [3, 2] (some (.binary .eq (.col ⟨none, 0⟩) (.col ⟨some 2, 0⟩)))) : Stmt (QH 0)) := rfl

/-- **C131 is violated.** Renaming `t1` to `t2` and `t2` to `t3` at once loses a table: of `FROM t1, t2` only `FROM t2` remains. -/
theorem C131_chain_violated :
    renameTables exN exOrd 1 [] [(1, 2), (2, 3)] none false (.sel (exSel [.star none] [1, 2] none) : Stmt (QH 0)) =
    some (.sel (exSel [.star none] [2] none) : Stmt (QH 0)) := rfl

/-! ### C132: merging tables -/

/-- The change of names by merging the tables `ts` into `tgt`; `ω` changes the names of WITH queries. -/
def mergeRen (N : Names) (ts : List Tab) (tgt : Tab) (ω : Target → Target) : Ren where
  col c := if ∃ t ∈ ts, c.tab = some t then ⟨some tgt, c.name⟩ else c
  tab t := if t ∈ ts then tgt else t
  name s := if s ∈ ts.map N.ident then N.ident tgt else s
  target := ω
  list := firsts

/-- Plain queries in which `merge_tables` handles everything (on their own level). -/
structure MergeLocal (N : Names) (tgt : Tab) (Q : Type) (s : Sel Q) : Prop extends TabLocal N tgt Q s where
  onlyImplicit : ∀ f ∈ s.src, f.cls = .implicit

theorem MergeLocal.map {N : Names} {tgt : Tab} {s : Sel Q} (h : MergeLocal N tgt Q s) (r : Ren) (μ : Q → Q)
    (hl : ∀ l : List Tab, l.Nodup → (r.list (l.map r.tab)).Nodup ∧ ∀ t ∈ r.list (l.map r.tab), t = tgt ∨ t ∈ l) : MergeLocal N tgt Q (mapSel r μ s) where
  toTabLocal := h.toTabLocal.map r μ (fun f hf hi => hl _ (h.implicit f hf hi).1) fun f hf hi => absurd (h.onlyImplicit f hf) hi
  onlyImplicit f hf := by
    simp only [mapSel, Option.mem_def, Option.map_eq_some_iff] at hf
    obtain ⟨f', h1, rfl⟩ := hf
    have := h.onlyImplicit f' h1
    unfold mapFrom
    rw [if_pos this, this]

theorem tableRen_merge (N : Names) (t tgt : Tab) (cols : List Col) (l : List Tab) (hl : l.Nodup) :
    ((tableRen N t tgt false cols).list (l.map (tableRen N t tgt false cols).tab)).Nodup ∧
      ∀ u ∈ (tableRen N t tgt false cols).list (l.map (tableRen N t tgt false cols).tab), u = tgt ∨ u ∈ l := by
  refine ⟨firsts_nodup _, fun u hu => ?_⟩
  simp only [tableRen, mem_firsts, List.mem_map] at hu
  obtain ⟨v, h1, h2⟩ := hu
  split at h2
  · exact .inl h2.symm
  · exact .inr (h2 ▸ h1)

theorem mergeTabs_spec (N : Names) (ord : Finset Tab → List Tab) (hord : ∀ s t, t ∈ ord s ↔ t ∈ s) (hv : ∀ s, N.ident (N.virt s) = s) (tgt : Tab) (n : Nat)
    (colsOf : QH n → List Col) (t : Tab) (ts : List Tab) (q : QH n) (h : AllAt (MergeLocal N tgt) n q) :
    ∃ ω : Target → Target, (∀ x, (ω x).ident = if N.virt x.ident ∈ t :: ts then N.ident tgt else x.ident) ∧
      mergeTabs N ord n colsOf tgt (t :: ts) q = some (mapAt (mergeRen N (t :: ts) tgt ω) n q) := by
  induction ts generalizing t q with
  | nil =>
    refine ⟨(tableRen N t tgt false (colsOf q)).target, fun x => ?_, ?_⟩
    · simp only [tableRen, List.mem_singleton]; split <;> rfl
    · rw [mergeTabs, C131_rename_partial N ord hord hv t tgt false n _ q (allAt_imp (fun _ _ h => h.toTabLocal) n q h)]
      simp only [Option.bind_some, mergeTabs]
      congr 2
      unfold tableRen mergeRen
      simp [eq_comm]
  | cons u ts ih =>
    rw [mergeTabs, C131_rename_partial N ord hord hv t tgt false n _ q (allAt_imp (fun _ _ h => h.toTabLocal) n q h), Option.bind_some]
    obtain ⟨ω, h1, h2⟩ := ih u (mapAt (tableRen N t tgt false (colsOf q)) n q)
      (allAt_map _ (fun Q s μ hs => hs.map _ μ (tableRen_merge N t tgt _)) n q h)
    refine ⟨fun x => ω ((tableRen N t tgt false (colsOf q)).target x), fun x => ?_, ?_⟩
    · rw [h1]
      simp only [tableRen]
      by_cases hx : N.virt x.ident = t
      · simp [hx]
      · simp [hx]
    · rw [h2]
      congr 1
      refine Comp.at ⟨fun c => ?_, fun x => ?_, fun x => ?_, fun x => rfl, fun l => ?_⟩ n q
      · simp only [tableRen, mergeRen]
        by_cases hc : c.tab = some t
        · by_cases ht : ∃ a ∈ u :: ts, tgt = a
          · simp [hc]
          · simp [hc]
        · by_cases ht : ∃ a ∈ u :: ts, c.tab = some a
          · have : ∃ a ∈ t :: u :: ts, c.tab = some a := by
              obtain ⟨a, h3, h4⟩ := ht; exact ⟨a, List.mem_cons_of_mem _ h3, h4⟩
            rw [if_neg hc, if_pos ht, if_pos this]
          · have : ¬ ∃ a ∈ t :: u :: ts, c.tab = some a := by
              rintro ⟨a, h3, h4⟩
              rcases List.mem_cons.1 h3 with rfl | h3
              · exact hc h4
              · exact ht ⟨a, h3, h4⟩
            rw [if_neg hc, if_neg ht, if_neg this]
      · simp only [tableRen, mergeRen, List.mem_cons]
        by_cases hx : x = t <;> simp [hx]
      · simp only [tableRen, mergeRen, List.map_cons, List.mem_cons]
        by_cases hx : x = N.ident t <;> simp [hx]
      · simp only [tableRen, mergeRen, firsts_map_firsts, List.map_map]
        congr 1
        refine List.map_congr_left fun x _ => ?_
        simp only [Function.comp, List.mem_cons]
        by_cases hx : x = t <;> simp [hx]

/-- **C132 (partial).** Merging the tables `ts` into `tgt` in a query of any depth of nesting replaces each of these tables by `tgt`, in all clauses and all
subqueries, the columns keep their names, each FROM clause contains `tgt` just once, and nothing else is changed; the order in which the tables are processed does not
matter. The conditions exclude the same cases as in C131, and FROM clauses with joins; see `C132_join_violated`. -/
theorem C132_merge_partial (N : Names) (ord : Finset Tab → List Tab) (hord : ∀ s t, t ∈ ord s ↔ t ∈ s) (hv : ∀ s, N.ident (N.virt s) = s) (tgt : Tab) (n : Nat)
    (colsOf : QH n → List Col) (ts : List Tab) (hts : ts ≠ []) (q : QH n) (h : AllAt (MergeLocal N tgt) n q) :
    ∃ ω : Target → Target, (∀ x, (ω x).ident = if N.virt x.ident ∈ ts then N.ident tgt else x.ident) ∧
      mergeTables N ord n colsOf ts tgt q = some (mapAt (mergeRen N ts tgt ω) n q) := by
  unfold mergeTables
  generalize hρ : (((colsOf q).filter fun c => decide (∃ t ∈ ts, c.tab = some t)).map fun c => (c, (⟨some tgt, c.name⟩ : Col))) = ρ
  have hget : ∀ c, Dict.get? ρ c = if c ∈ colsOf q ∧ ∃ t ∈ ts, c.tab = some t then some ⟨some tgt, c.name⟩ else none := by
    intro c
    subst hρ
    induction colsOf q with
    | nil => simp [Dict.get?]
    | cons a l ih =>
      by_cases ha : ∃ t ∈ ts, a.tab = some t
      · rw [List.filter_cons_of_pos (by simpa using ha), List.map_cons]
        by_cases hc : a = c
        · subst hc
          rw [Dict.get?, if_pos rfl, if_pos ⟨by simp, ha⟩]
        · rw [Dict.get?, if_neg hc, ih]
          simp [Ne.symm hc]
      · rw [List.filter_cons_of_neg (by simpa using ha), ih]
        by_cases hc : c = a
        · subst hc; rw [if_neg (fun h => ha h.2), if_neg (fun h => ha h.2)]
        · simp [hc]
  rw [C130_rename_partial N ρ n q (allAt_imp (fun Q s hs => hs.toTabLocal.colLocal _) n q h), Option.bind_some]
  match ts, hts with
  | t :: ts, _ =>
    obtain ⟨ω, h1, h2⟩ := mergeTabs_spec N ord hord hv tgt n colsOf t ts (mapAt (colRen N ρ) n q)
      (allAt_map _ (fun Q s μ hs => hs.map _ μ fun l hl => by simp only [colRen, List.map_id']; exact ⟨hl, fun t ht => .inr ht⟩) n q h)
    refine ⟨fun x => ω ((colRen N ρ).target x), fun x => by rw [h1]; rfl, ?_⟩
    rw [h2]
    congr 1
    refine Comp.at ⟨fun c => ?_, fun x => rfl, fun x => rfl, fun x => rfl, fun l => by simp [colRen, mergeRen]⟩ n q
    have hx : (colRen N ρ).col c = if c ∈ colsOf q ∧ ∃ a ∈ t :: ts, c.tab = some a then ⟨some tgt, c.name⟩ else c := by
      simp only [colRen, hget]
      by_cases hc : c ∈ colsOf q ∧ ∃ a ∈ t :: ts, c.tab = some a
      · rw [if_pos hc, if_pos hc]; rfl
      · rw [if_neg hc, if_neg hc]; rfl
    rw [hx]
    simp only [mergeRen]
    by_cases hc : c ∈ colsOf q ∧ ∃ a ∈ t :: ts, c.tab = some a
    · rw [if_pos hc, if_pos hc.2]; simp
    · rw [if_neg hc]

/-- The tables of the FROM clauses after merging: all tables except `ts`, and `tgt` if one of `ts` was there. -/
theorem C132_tables (N : Names) (ts : List Tab) (tgt : Tab) (ω : Target → Target) (l : List Tab) :
    ((mergeRen N ts tgt ω).list (l.map (mergeRen N ts tgt ω).tab)).Nodup ∧ ∀ t, t ∈ (mergeRen N ts tgt ω).list (l.map (mergeRen N ts tgt ω).tab) ↔
      (t ∈ l ∧ t ∉ ts) ∨ (t = tgt ∧ ∃ u ∈ l, u ∈ ts) := by
  refine ⟨firsts_nodup _, fun t => ?_⟩
  simp only [mergeRen, mem_firsts, List.mem_map]
  constructor
  · rintro ⟨u, h1, h2⟩
    split at h2
    · rename_i h; exact .inr ⟨h2.symm, u, h1, h⟩
    · rename_i h; subst h2; exact .inl ⟨h1, h⟩
  · rintro (⟨h1, h2⟩ | ⟨rfl, u, h1, h2⟩)
    · exact ⟨t, h1, by simp [h2]⟩
    · exact ⟨u, h1, by simp [h2]⟩

theorem exQuery_merge (tgt : Tab) (ht : tgt < 5) : AllAt (MergeLocal exN tgt) 2 (.sel exOuter : Stmt (QH 1)) := by
  refine exQuery_all ⟨(exQuery_tabs tgt ht).1, fun f hf => ?_⟩ ⟨(exQuery_tabs tgt ht).2, fun f hf => ?_⟩
  · simp only [exOuter, exSel, Option.mem_def, Option.some.injEq] at hf; subst hf; rfl
  · simp only [exSel, Option.mem_def, Option.some.injEq] at hf; subst hf; rfl

/-- Merging `t1` and `t3` into `v`. -/
example : mergeTables exN exOrd 2 (fun _ => []) [1, 3] 4 (.sel exOuter : Stmt (QH 1)) = some (.sel
    (exSel [.col ⟨some 4, 0⟩] [4] (some (.compound .and [.inP (.col ⟨some 4, 0⟩) [.subq exInner],
      .binary .eq (.col ⟨some 4, 0⟩) (.col ⟨some 4, 0⟩)]))) : Stmt (QH 1)) := by
  obtain ⟨ω, -, h⟩ := C132_merge_partial exN exOrd exOrd_mem exN_virt 4 2 (fun _ => []) [1, 3] (by simp) _ (exQuery_merge 4 (by decide))
  rw [h]
  rfl

/-- **C132 is violated.** Merging tables of an explicit FROM clause raises an error once the target is part of it: merging `t1` and `t2` into `t3` fails for
`SELECT * FROM t1 JOIN t2 ON t1.x = t2.x`. -/
theorem C132_join_violated : mergeTables exN exOrd 1 (fun _ => [⟨some 1, 0⟩, ⟨some 2, 0⟩]) [1, 2] 3 (.sel ⟨.explicit, none, none, none,
    ⟨[⟨.star none, ""⟩], .none, []⟩, some ⟨.explicit, [.join (.table 1) (.table 2) (some (.binary .eq (.col ⟨some 1, 0⟩) (.col ⟨some 2, 0⟩))) default]⟩,
      none, none, none, none, none⟩ : Stmt (QH 0)) = none := rfl

/-! ### C133: replacing expressions -/

mutual
/-- Applies `f` to the arguments of the base predicates of a condition. -/
def mapArgs (f : Expr Q → Expr Q) : Expr Q → Expr Q
  | .binary op a b => .binary op (f a) (f b)
  | .between e l u => .between (f e) (f l) (f u)
  | .inP e vs => .inP (f e) (vs.map f)
  | .unary e op => .unary (f e) op
  | .compound op cs => .compound op (mapArgsL f cs)
  | e => e
def mapArgsL (f : Expr Q → Expr Q) : List (Expr Q) → List (Expr Q)
  | [] => []
  | e :: es => mapArgs f e :: mapArgsL f es
end

/-- The expressions of a table source after the replacement; `μ` is applied to subqueries. -/
def srcArgs (f : Expr Q → Expr Q) (μ : Q → Q) : Source Q → Source Q
  | .table t => .table t
  | .subquery q n lateral => .subquery (μ q) n lateral
  | .values rows t cols => .values (rows.map fun row => row.map f) t cols
  | .func e n => .func (f e) n
  | .join a b c ty => .join (srcArgs f μ a) (srcArgs f μ b) (c.map (mapArgs f)) ty

/-- The WITH query after the replacement. -/
def withArgs (f : Expr Q → Expr Q) (μ : Q → Q) : With Q → With Q
  | .query q t m => .query (μ q) t m
  | .values rows t cols m => .values (rows.map fun row => row.map f) t cols m

/-- A plain query after the replacement: `f` is applied to all targets, grouping and ordering expressions, and to the arguments of all predicates. Everything else
is kept. -/
def selArgs (f : Expr Q → Expr Q) (μ : Q → Q) (s : Sel Q) : Sel Q where
  cls := s.cls
  hints := s.hints
  explain := s.explain
  cte := s.cte.map fun c => ⟨c.queries.map (withArgs f μ), c.recursive⟩
  select := ⟨s.select.targets.map fun p => ⟨f p.expr, p.name⟩, s.select.distinct, s.select.cols.map f⟩
  src := s.src.map fun c => ⟨c.cls, c.items.map (srcArgs f μ)⟩
  where_ := s.where_.map (mapArgs f)
  groupBy := s.groupBy.map fun g => ⟨g.cols.map f, g.distinct⟩
  having_ := s.having_.map (mapArgs f)
  orderBy := s.orderBy.map fun l => l.map fun o => ⟨f o.expr, o.dir⟩
  limit := s.limit

/-- The query and the queries of its WITH and FROM clauses (on all levels) after the replacement. -/
def stmtArgs (f : Expr Q → Expr Q) (μ : Q → Q) : Stmt Q → Stmt Q
  | .sel s => .sel (selArgs f μ s)
  | .set a b op cte o m h e =>
    .set (stmtArgs f μ a) (stmtArgs f μ b) op (cte.map fun c => ⟨c.queries.map (withArgs f μ), c.recursive⟩) (o.map fun l => l.map fun o => ⟨f o.expr, o.dir⟩) m h e
def argsAt (f : (n : Nat) → Expr (QH n) → Expr (QH n)) : (n : Nat) → QH n → QH n
  | 0, q => q.elim
  | n + 1, q => stmtArgs (f n) (argsAt f n) q

/-- The conditions of a table source. -/
def srcConds : Source Q → List (Expr Q)
  | .join a b c _ => srcConds a ++ srcConds b ++ c.toList
  | _ => []

/-- A condition: AND, OR and NOT of base predicates. -/
inductive Cond : Expr Q → Prop
  | base (e : Expr Q) : isBase e = true → Cond e
  | comp (op : CompOp) (cs : List (Expr Q)) : builtNode (.compound op cs) = true → (∀ c ∈ cs, Cond c) → Cond (.compound op cs)

/-- The table source has no subquery that `f` changes, and its VALUES lists have a name. -/
def srcOk (N : Names) (f : Expr Q → Expr Q) : Source Q → Prop
  | .subquery q _ _ => f (.subq q) = .subq q
  | .values _ t cols => ∃ x, t = some (N.virt x) ∧ ∀ k ∈ cols, k.tab = t
  | _ => True

/-- The WITH query carries the table of its name, as the constructor sets it. -/
def withOk (N : Names) : With Q → Prop
  | .query _ t _ => t.ref = some (N.virt t.ident)
  | .values _ t cols _ => ∃ x, t = N.virt x ∧ ∀ k ∈ cols, k.tab = some t

/-- Plain queries in which `replace_expressions` handles everything (on their own level). -/
structure ReplLocal (N : Names) (f : Expr Q → Expr Q) (s : Sel Q) : Prop where
  fitting : Fitting s
  conds : ∀ e, (s.where_ = some e ∨ s.having_ = some e ∨ ∃ c ∈ s.src, ∃ i ∈ c.items, e ∈ srcConds i) → Cond e
  distinctOn : s.select.cols = []
  withs : ∀ c ∈ s.cte, c.queries ≠ [] ∧ ∀ w ∈ c.queries, withOk N w
  srcs : ∀ c ∈ s.src, ∀ i ∈ c.items, ∀ l ∈ srcLeaves i, srcOk N f l
  implicit : ∀ c ∈ s.src, c.cls = .implicit → ∀ i ∈ c.items, (directTab i).isSome

/-- `q` is a query of the WITH or the FROM clause. -/
def Outer (q : Q) (s : Sel Q) : Prop :=
  (∃ c ∈ s.cte, ∃ w ∈ c.queries, withQuery w = some q) ∨ (∃ c ∈ s.src, ∃ i ∈ c.items, q ∈ srcQueries i)

/-- A plain query or a set query in which everything is handled (on its own level); all queries in WITH and FROM satisfy `P`. -/
def StmtOk (N : Names) (f : Expr Q → Expr Q) (P : Q → Prop) : Stmt Q → Prop
  | .sel s => ReplLocal N f s ∧ ∀ q, Outer q s → P q
  | .set l r _ cte _ _ _ _ => StmtOk N f P l ∧ StmtOk N f P r ∧ Quiet l ∧ Quiet r ∧
    ∀ c ∈ cte, c.queries ≠ [] ∧ ∀ w ∈ c.queries, withOk N w ∧ ∀ q, withQuery w = some q → P q

/-- A query in which everything is handled, on all levels of WITH and FROM clauses. -/
def ReplAt (N : Names) (f : (n : Nat) → Expr (QH n) → Expr (QH n)) : (n : Nat) → QH n → Prop
  | 0, q => q.elim
  | n + 1, q => StmtOk N (f n) (ReplAt N f n) q

theorem mapArgsL_eq (f : Expr Q → Expr Q) (l : List (Expr Q)) : mapArgsL f l = l.map (mapArgs f) := by
  induction l with
  | nil => simp [mapArgsL]
  | cons a l ih => simp [mapArgsL, ih]

theorem replPL_spec (f : Expr Q → Expr Q) (l : List (Expr Q)) (h : ∀ e ∈ l, replP f e = some (mapArgs f e)) : replPL f l = some (l.map (mapArgs f)) := by
  induction l with
  | nil => simp [replPL]
  | cons a l ih => rw [replPL, h a (by simp), ih fun e he => h e (by simp [he])]; rfl

theorem replP_spec (f : Expr Q → Expr Q) (e : Expr Q) (h : Cond e) : replP f e = some (mapArgs f e) := by
  induction h with
  | base e hb => cases e <;> simp [isBase] at hb <;> simp [replP, mapArgs]
  | comp op cs hb _ ih =>
    rw [replP, replPL_spec f cs ih, Option.bind_some, mapArgs, mapArgsL_eq]
    match op, cs with
    | .not, [] => simp [builtNode] at hb
    | .and, [] => simp [builtNode] at hb
    | .or, [] => simp [builtNode] at hb
    | .not, [_] => rfl
    | .not, _ :: _ :: _ => simp [builtNode] at hb
    | .and, [_] => simp [builtNode] at hb
    | .or, [_] => simp [builtNode] at hb
    | .and, _ :: _ :: _ => rfl
    | .or, _ :: _ :: _ => rfl

theorem cols_keep {t : Option Tab} {cols : List Col} (h : ∀ k ∈ cols, k.tab = t) : (cols.map fun k => (⟨t, k.name⟩ : Col)) = cols := by
  induction cols with
  | nil => rfl
  | cons a l ih =>
    rw [List.map_cons, ih fun k hk => h k (by simp [hk]), ← h a (by simp)]

theorem replSource_spec (N : Names) (hv : ∀ s, N.ident (N.virt s) = s) (f : Expr Q → Expr Q) (rec : Q → Option Q) (μ : Q → Q) (i : Source Q)
    (hl : ∀ l ∈ srcLeaves i, srcOk N f l) (hc : ∀ e ∈ srcConds i, Cond e) (hq : ∀ q ∈ srcQueries i, rec q = some (μ q)) :
    replSource N f rec i = some (srcArgs f μ i) := by
  induction i with
  | table t => rfl
  | subquery q n l =>
    have := hl (.subquery q n l) (by simp [srcLeaves])
    simp only [srcOk] at this
    simp [replSource, srcArgs, this, QTransform.subqOf, hq q (by simp [srcQueries])]
  | values rows t cols =>
    have := hl (.values rows t cols) (by simp [srcLeaves])
    obtain ⟨x, rfl, h2⟩ := this
    simp only [replSource, srcArgs, Option.map_some, hv, cols_keep h2]
  | func e n => rfl
  | join a b c ty iha ihb =>
    have : mapOpt (replP f) c = some (c.map (mapArgs f)) := mapOpt_spec fun e he => replP_spec f e (hc e (by
      simp only [srcConds, List.mem_append, Option.mem_toList]; exact .inr he))
    rw [replSource, iha (fun l h => hl l (by simp [srcLeaves, h])) (fun e h => hc e (by simp [srcConds, h])) fun q h => hq q (by simp [srcQueries, h]),
      ihb (fun l h => hl l (by simp [srcLeaves, h])) (fun e h => hc e (by simp [srcConds, h])) fun q h => hq q (by simp [srcQueries, h]), this]
    rfl

theorem fitting_cls {s s' : Sel Q} (h1 : s'.cls = s.cls) (h2 : s'.src.map (·.cls) = s.src.map (·.cls)) (h : Fitting s) : Fitting s' := by
  unfold Fitting at h ⊢
  cases hs : s.src with
  | none =>
    rw [hs] at h h2
    cases hs' : s'.src with
    | none => simpa [h1] using h
    | some g => simp [hs'] at h2
  | some f =>
    rw [hs] at h h2
    cases hs' : s'.src with
    | none => simp [hs'] at h2
    | some g =>
      simp only [hs', Option.map_some, Option.some.injEq] at h2
      obtain ⟨c, l⟩ := f
      obtain ⟨c', l'⟩ := g
      simp only at h2
      subst h2
      cases c' <;> simpa [h1] using h

theorem build_sel {s : Sel Q} (h : Fitting s) : build (Sel.clauses s) = some (.sel s) :=
  C117_rebuild (.sel s) (fun t ht => by cases ht; exact h) (by
    intro l r hm
    change (∃ a, _ ∈ Sel.clauses _) ∨ _ ∈ Sel.clauses _ ∨ _ ∈ Sel.clauses _ at hm
    simp [mem_selClauses] at hm)

theorem replCte_spec (N : Names) (hv : ∀ s, N.ident (N.virt s) = s) (f : Expr Q → Expr Q) (rec : Q → Option Q) (μ : Q → Q) (cte : Option (Cte Q))
    (h : ∀ c ∈ cte, c.queries ≠ [] ∧ ∀ w ∈ c.queries, withOk N w)
    (hq : ∀ c ∈ cte, ∀ w ∈ c.queries, ∀ q, withQuery w = some q → rec q = some (μ q)) :
    mapOpt (replCte N f rec) cte = some (cte.map fun c => ⟨c.queries.map (withArgs f μ), c.recursive⟩) := by
  refine mapOpt_spec fun c hc => ?_
  rw [replCte, mapAll_spec (g := withArgs f μ) ?_]
  · simp only [Option.bind_some]
    unfold mkCte
    rw [if_neg (by simpa using (h c hc).1)]
  · intro w hw
    have hw' := (h c hc).2 w hw
    cases w with
    | query q t m =>
      obtain ⟨i, t⟩ := t
      simp only [withOk] at hw'
      subst hw'
      simp [replWith, hq c hc _ hw q rfl, withArgs]
    | values rows t cols m =>
      obtain ⟨x, rfl, h2⟩ := hw'
      simp only [replWith, withArgs, hv, cols_keep h2]

theorem replSel_spec (N : Names) (hv : ∀ s, N.ident (N.virt s) = s) (f : Expr Q → Expr Q) (rec : Q → Option Q) (μ : Q → Q) (s : Sel Q) (h : ReplLocal N f s)
    (hq : ∀ q, Outer q s → rec q = some (μ q)) : replSel N f rec s = some (.sel (selArgs f μ s)) := by
  have hcte := replCte_spec N hv f rec μ s.cte h.withs fun c hc w hw q hwq => hq q (.inl ⟨c, hc, w, hw, hwq⟩)
  have hsrc : mapOpt (replFrom N f rec) s.src = some (s.src.map fun c => ⟨c.cls, c.items.map (srcArgs f μ)⟩) := by
    refine mapOpt_spec fun c hc => ?_
    unfold replFrom
    by_cases hi : c.cls = .implicit
    · rw [if_pos hi]
      congr 1
      obtain ⟨k, items⟩ := c
      have : items.map (srcArgs f μ) = items := by
        have hd : ∀ i ∈ items, (directTab i).isSome := h.implicit _ hc hi
        conv_rhs => rw [← List.map_id items]
        refine List.map_congr_left fun i hm => ?_
        have := hd i hm
        cases i <;> simp [directTab] at this
        rfl
      simp only [this]
    · rw [if_neg hi, mapAll_spec fun i hm => replSource_spec N hv f rec μ i (h.srcs c hc i hm)
        (fun e he => h.conds e (.inr (.inr ⟨c, hc, i, hm, he⟩))) fun q hs => hq q (.inr ⟨c, hc, i, hm, hs⟩)]
      rfl
  have hwh : mapOpt (replP f) s.where_ = some (s.where_.map (mapArgs f)) := mapOpt_spec fun e he => replP_spec f e (h.conds e (.inl he))
  have hhav : mapOpt (replP f) s.having_ = some (s.having_.map (mapArgs f)) := mapOpt_spec fun e he => replP_spec f e (h.conds e (.inr (.inl he)))
  unfold replSel
  rw [hcte, hsrc, hwh, hhav]
  simp only [Option.bind_some]
  have hfit : Fitting (selArgs f μ s) := fitting_cls (s := s) rfl (by cases hx : s.src <;> simp [selArgs, hx]) h.fitting
  refine Eq.trans ?_ (build_sel hfit)
  congr 2
  simp only [selArgs, h.distinctOn, List.map_nil]

theorem quiet_set {l r : Stmt Q} {op : SetOp} {cte : Option (Cte Q)} {o : Option (List (OrderItem Q))} {m : Option Limit} {hi : Option Hint} {e : Option Explain}
    (h1 : Quiet l) (h2 : Quiet r) : QuietSides (Stmt.clauses (.set l r op cte o m hi e)) := by
  intro a b h
  have key : ∀ c, c ∈ Stmt.clauses (.set l r op cte o m hi e) → (∃ x, c = .hint x) ∨ (∃ x, c = .explain x) ∨ (∃ x, c = .cte x) ∨
      c = setClause l r op ∨ (∃ x, c = .orderBy x) ∨ (∃ x, c = .limit x) := by
    intro c hc
    simp only [Stmt.clauses, List.mem_filterMap, List.mem_cons, List.not_mem_nil, or_false, id_eq] at hc
    obtain ⟨x, (rfl | rfl | rfl | rfl | rfl | rfl), h⟩ := hc
    · obtain ⟨y, -, rfl⟩ := Option.map_eq_some_iff.mp h; exact .inl ⟨y, rfl⟩
    · obtain ⟨y, -, rfl⟩ := Option.map_eq_some_iff.mp h; exact .inr (.inl ⟨y, rfl⟩)
    · obtain ⟨y, -, rfl⟩ := Option.map_eq_some_iff.mp h; exact .inr (.inr (.inl ⟨y, rfl⟩))
    · exact .inr (.inr (.inr (.inl (Option.some.inj h).symm)))
    · obtain ⟨y, -, rfl⟩ := Option.map_eq_some_iff.mp h; exact .inr (.inr (.inr (.inr (.inl ⟨y, rfl⟩))))
    · obtain ⟨y, -, rfl⟩ := Option.map_eq_some_iff.mp h; exact .inr (.inr (.inr (.inr (.inr ⟨y, rfl⟩))))
  rcases h with ⟨x, h⟩ | h | h <;> rcases key _ h with ⟨y, e⟩ | ⟨y, e⟩ | ⟨y, e⟩ | e | ⟨y, e⟩ | ⟨y, e⟩ <;> try cases e
  all_goals (cases op <;> simp only [setClause, Clause.union.injEq, Clause.except.injEq, Clause.intersect.injEq, reduceCtorEq] at e <;> simp [e, h1, h2])

theorem replStmt_spec (N : Names) (hv : ∀ s, N.ident (N.virt s) = s) (f : Expr Q → Expr Q) (rec : Q → Option Q) (μ : Q → Q) (P : Q → Prop)
    (hP : ∀ q, P q → rec q = some (μ q)) : ∀ q : Stmt Q, StmtOk N f P q → replStmt N f rec q = some (stmtArgs f μ q)
  | .sel s, h => replSel_spec N hv f rec μ s h.1 fun q hq => hP q (h.2 q hq)
  | .set l r op cte o m hi e, h => by
    obtain ⟨h1, h2, h3, h4, h5⟩ := h
    have hs : ∀ q : Stmt Q, Quiet q → Quiet (stmtArgs f μ q) := by
      intro q hq
      cases q <;> exact hq
    rw [replStmt, replStmt_spec N hv f rec μ P hP l h1, replStmt_spec N hv f rec μ P hP r h2,
      replCte_spec N hv f rec μ cte (fun c hc => ⟨(h5 c hc).1, fun w hw => ((h5 c hc).2 w hw).1⟩)
        fun c hc w hw q hq => hP q (((h5 c hc).2 w hw).2 q hq)]
    exact C117_rebuild (stmtArgs f μ (.set l r op cte o m hi e)) (fun s hs => by cases hs) (quiet_set (hs l h3) (hs r h4))

/-- **C133 (partial).** Replacing the expressions of a query applies the replacement to all targets, grouping and ordering expressions, arguments of functions in FROM
and of predicates, in the query itself and in the queries of its WITH and FROM clauses, on all levels; everything else is kept. The conditions exclude DISTINCT ON
and VALUES lists without name; see `C133_distinct_violated` and `C133_values_violated`. Set queries are included; their sides have no EXPLAIN clause. -/
theorem C133_replace_partial (N : Names) (hv : ∀ s, N.ident (N.virt s) = s) (f : (n : Nat) → Expr (QH n) → Expr (QH n)) (n : Nat) (q : QH n)
    (h : ReplAt N f n q) : repl N f n q = some (argsAt f n q) := by
  induction n with
  | zero => exact q.elim
  | succ n ih =>
    exact replStmt_spec N hv (f n) (repl N f n) (argsAt f n) _ ih q h

theorem mapArgs_id (e : Expr Q) (h : Cond e) : mapArgs (fun x => x) e = e := by
  induction h with
  | base e hb => cases e <;> simp [isBase] at hb <;> simp [mapArgs]
  | comp op cs hb _ ih =>
    rw [mapArgs, mapArgsL_eq]
    congr 1
    conv_rhs => rw [← List.map_id cs]
    exact List.map_congr_left ih

theorem srcArgs_id (μ : Q → Q) (i : Source Q) (hc : ∀ e ∈ srcConds i, Cond e) (hq : ∀ q ∈ srcQueries i, μ q = q) : srcArgs (fun x => x) μ i = i := by
  induction i with
  | join a b c ty iha ihb =>
    rw [srcArgs, iha (fun e h => hc e (by simp [srcConds, h])) fun q h => hq q (by simp [srcQueries, h]),
      ihb (fun e h => hc e (by simp [srcConds, h])) fun q h => hq q (by simp [srcQueries, h])]
    cases c with
    | none => rfl
    | some c => simp [mapArgs_id c (hc c (by simp [srcConds]))]
  | subquery q n l => simp [srcArgs, hq q (by simp [srcQueries])]
  | _ => simp [srcArgs]

theorem cteArgs_id (μ : Q → Q) (cte : Option (Cte Q)) (hq : ∀ c ∈ cte, ∀ w ∈ c.queries, ∀ q, withQuery w = some q → μ q = q) :
    cte.map (fun c => (⟨c.queries.map (withArgs (fun x => x) μ), c.recursive⟩ : Cte Q)) = cte := by
  cases cte with
  | none => rfl
  | some c =>
    simp only [Option.map_some, Option.some.injEq]
    obtain ⟨l, r⟩ := c
    congr 1
    conv_rhs => rw [← List.map_id l]
    refine List.map_congr_left fun w hw => ?_
    cases w with
    | query q t m => simp [withArgs, hq _ rfl _ hw q rfl]
    | values => simp [withArgs]

theorem selArgs_id (N : Names) (μ : Q → Q) (s : Sel Q) (hs : ReplLocal N (fun e => e) s) (hq : ∀ q, Outer q s → μ q = q) :
    selArgs (fun x => x) μ s = s := by
  have e1 := cteArgs_id μ s.cte fun c hc w hw q hwq => hq q (.inl ⟨c, hc, w, hw, hwq⟩)
  have e2 : s.src.map (fun c => (⟨c.cls, c.items.map (srcArgs (fun x => x) μ)⟩ : From Q)) = s.src := by
    cases hc : s.src with
    | none => rfl
    | some c =>
      simp only [Option.map_some, Option.some.injEq]
      obtain ⟨k, l⟩ := c
      congr 1
      conv_rhs => rw [← List.map_id l]
      refine List.map_congr_left fun i hi => ?_
      exact srcArgs_id _ i (fun e he => hs.conds e (.inr (.inr ⟨_, hc, i, hi, he⟩))) fun q h => hq q (.inr ⟨_, hc, i, hi, h⟩)
  have e3 : s.where_.map (mapArgs fun x => x) = s.where_ := by
    cases hc : s.where_ with
    | none => rfl
    | some e => simp [mapArgs_id e (hs.conds e (.inl hc))]
  have e4 : s.having_.map (mapArgs fun x => x) = s.having_ := by
    cases hc : s.having_ with
    | none => rfl
    | some e => simp [mapArgs_id e (hs.conds e (.inr (.inl hc)))]
  unfold selArgs
  rw [e1, e2, e3, e4]
  simp

theorem stmtArgs_id (N : Names) (μ : Q → Q) (P : Q → Prop) (hP : ∀ q, P q → μ q = q) :
    ∀ q : Stmt Q, StmtOk N (fun e => e) P q → stmtArgs (fun x => x) μ q = q
  | .sel s, h => by rw [stmtArgs, selArgs_id N μ s h.1 fun q hq => hP q (h.2 q hq)]
  | .set l r op cte o m hi e, h => by
    obtain ⟨h1, h2, h3, h4, h5⟩ := h
    rw [stmtArgs, stmtArgs_id N μ P hP l h1, stmtArgs_id N μ P hP r h2,
      cteArgs_id μ cte fun c hc w hw q hq => hP q (((h5 c hc).2 w hw).2 q hq)]
    simp

/-- **C133 (partial).** A replacement that returns every expression as it is returns the query. -/
theorem C133_identity_partial (N : Names) (hv : ∀ s, N.ident (N.virt s) = s) (n : Nat) (q : QH n) (h : ReplAt N (fun _ e => e) n q) :
    repl N (fun _ e => e) n q = some q := by
  rw [C133_replace_partial N hv _ n q h]
  congr 1
  induction n with
  | zero => exact q.elim
  | succ n ih => exact stmtArgs_id N _ _ ih q h

/-- Replaces every column by a number. -/
def exRepl (n : Nat) : Expr (QH n) → Expr (QH n)
  | .col _ => .static (.num 5)
  | e => e

theorem exRepl_at : ReplAt exN exRepl 2 (.sel exOuter : Stmt (QH 1)) := by
  refine ⟨⟨rfl, ?_, rfl, by simp [exOuter, exSel], ?_, ?_⟩, ?_⟩
  · rintro e (h | h | ⟨c, hc, i, hi, he⟩)
    · simp only [exOuter, exSel, Option.some.injEq] at h
      subst h
      refine .comp _ _ rfl ?_
      simp only [List.forall_mem_cons, List.not_mem_nil, false_imp_iff, implies_true, and_true]
      exact ⟨.base _ rfl, .base _ rfl⟩
    · simp [exOuter, exSel] at h
    · simp only [exOuter, exSel, Option.mem_def, Option.some.injEq] at hc
      subst hc
      simp only [List.mem_map] at hi
      obtain ⟨t, -, rfl⟩ := hi
      simp [srcConds] at he
  · intro c hc i hi l hl
    simp only [exOuter, exSel, Option.mem_def, Option.some.injEq] at hc
    subst hc
    simp only [List.mem_map] at hi
    obtain ⟨t, -, rfl⟩ := hi
    simp only [srcLeaves, List.mem_singleton] at hl
    subst hl; trivial
  · intro c hc _ i hi
    simp only [exOuter, exSel, Option.mem_def, Option.some.injEq] at hc
    subst hc
    simp only [List.mem_map] at hi
    obtain ⟨t, -, rfl⟩ := hi
    rfl
  · rintro q (⟨c, hc, -⟩ | ⟨c, hc, i, hi, hq⟩)
    · simp [exOuter, exSel] at hc
    · simp only [exOuter, exSel, Option.mem_def, Option.some.injEq] at hc
      subst hc
      simp only [List.mem_map] at hi
      obtain ⟨t, -, rfl⟩ := hi
      simp [srcQueries] at hq

/-- Set queries are replaced on both sides. -/
example : ReplAt exN exRepl 2 (.set (.sel exOuter) (.sel exOuter) .unionAll none none none none none : Stmt (QH 1)) :=
  ⟨exRepl_at, exRepl_at, rfl, rfl, by simp⟩

/-- Columns are replaced where they are arguments of predicates; subqueries in expressions are up to the replacement. -/
example : repl exN exRepl 2 (.sel exOuter : Stmt (QH 1)) = some (.sel
    (exSel [.static (.num 5)] [1, 3] (some (.compound .and [.inP (.static (.num 5)) [.subq exInner], .binary .eq (.static (.num 5)) (.static (.num 5))]))) : Stmt (QH 1)) := by
  rw [C133_replace_partial exN exN_virt exRepl 2 _ exRepl_at]
  rfl

/-- **C133 is violated.** The expressions of DISTINCT ON are never replaced. -/
theorem C133_distinct_violated (N : Names) (f : Expr Q → Expr Q) (rec : Q → Option Q) (s s' : Sel Q) (h : replSel N f rec s = some (.sel s')) (hf : Fitting s) :
    s'.select.cols = s.select.cols := by
  unfold replSel at h
  simp only [Option.bind_eq_some_iff] at h
  obtain ⟨cte, -, src, h2, w, -, hv, -, hb⟩ := h
  have hc : src.map (·.cls) = s.src.map (·.cls) := by
    cases hs : s.src with
    | none => rw [hs] at h2; simp only [mapOpt, Option.some.injEq] at h2; rw [← h2]
    | some c =>
      rw [hs] at h2
      simp only [mapOpt, Option.map_eq_some_iff] at h2
      obtain ⟨c', h3, rfl⟩ := h2
      unfold replFrom at h3
      split at h3
      · cases h3; rfl
      · simp only [Option.map_eq_some_iff] at h3
        obtain ⟨l, -, rfl⟩ := h3
        rfl
  have hb' := hb.symm.trans (build_sel (fitting_cls (s := s) (by rfl) (by exact hc) hf))
  cases hb'
  rfl

/-- **C133 is violated.** A query with a VALUES list without name in its FROM clause cannot be processed. -/
theorem C133_values_violated (N : Names) (f : Expr Q → Expr Q) (rec : Q → Option Q) (s : Sel Q) (c : From Q) (hs : s.src = some c) (hc : c.cls ≠ .implicit)
    (rows : List (List (Expr Q))) (cols : List Col) (h : .values rows none cols ∈ c.items) : replSel N f rec s = none := by
  have h1 : ∀ l : List (Source Q), .values rows none cols ∈ l → mapAll (replSource N f rec) l = none := by
    intro l hl
    induction l with
    | nil => cases hl
    | cons a l ih =>
      rcases List.mem_cons.1 hl with rfl | hl
      · rfl
      · rw [mapAll]
        cases replSource N f rec a with
        | none => rfl
        | some _ => simp [ih hl]
  unfold replSel
  have : mapOpt (replFrom N f rec) s.src = none := by
    rw [hs]
    simp only [mapOpt]
    unfold replFrom
    rw [if_neg hc, h1 _ h]
    rfl
  rw [this]
  cases mapOpt (replCte N f rec) s.cte <;> rfl

example : ∃ (s : Sel (QH 0)) (c : From (QH 0)), s.src = some c ∧ c.cls ≠ .implicit ∧ .values [[.static (.num 1)]] none [] ∈ c.items :=
  ⟨⟨.mixed, none, none, none, ⟨[⟨.star none, ""⟩], .none, []⟩, some ⟨.plain, [.values [[.static (.num 1)]] none []]⟩, none, none, none, none, none⟩, _, rfl,
    by simp, by simp⟩

/-! ### C134: fragments of queries -/

/-- The name of a WITH query. -/
def withName (N : Names) : With Q → String
  | .query _ t _ => t.ident
  | .values _ t _ _ => N.ident t

/-- What a fragment of `s` for the tables `ts` consists of. `T e` are the tables of the expression `e`. -/
structure Fragment (N : Names) (T : Expr Q → Finset Tab) (ts : Finset Tab) (s r : Sel Q) : Prop where
  /-- The FROM clause lists exactly the given tables. -/
  tables : ∀ c ∈ r.src, c.cls = .implicit ∧ ∃ l : List Tab, c.items = l.map .table ∧ ∀ t, t ∈ l ↔ t ∈ ts
  src : r.src.isSome = s.src.isSome
  /-- The base predicates are those that only use the given tables. -/
  where_ : ∀ p, (∃ e, r.where_ = some e ∧ p ∈ e.basePredicates) ↔ ∃ e, s.where_ = some e ∧ p ∈ e.basePredicates ∧ T p ⊆ ts
  having_ : ∀ p, (∃ e, r.having_ = some e ∧ p ∈ e.basePredicates) ↔ ∃ e, s.having_ = some e ∧ p ∈ e.basePredicates ∧ T p ⊆ ts
  /-- The grouping and ordering expressions are those that only use the given tables, in the same order. -/
  group : (r.groupBy.toList.flatMap fun g => g.cols) = (s.groupBy.toList.flatMap fun g => g.cols).filter fun e => T e ⊆ ts
  order : r.orderBy.toList.flatten = s.orderBy.toList.flatten.filter fun o => T o.expr ⊆ ts
  groupDistinct : ∀ g ∈ r.groupBy, ∃ g' ∈ s.groupBy, g.distinct = g'.distinct
  /-- The WITH queries are those whose name is a given table. -/
  withs : (r.cte.toList.flatMap fun c => c.queries) = (s.cte.toList.flatMap fun c => c.queries).filter fun w => N.virt (withName N w) ∈ ts
  recursive : ∀ c ∈ r.cte, ∃ c' ∈ s.cte, c.recursive = c'.recursive
  limit : r.limit = s.limit
  hints : r.hints = none ∧ r.explain = none

theorem ifAny_toList {α : Type} (l : List α) : (ifAny l).toList.flatten = l := by
  unfold ifAny; split
  · rename_i h; rw [List.isEmpty_iff] at h; simp [h]
  · simp

theorem fragPred_spec (ops : QOps Q) (ts : Finset Tab) (o : Option (Expr Q)) (h : ∀ e ∈ o, NotFree e) :
    ∃ r, fragPred ops ts o = some r ∧
      ∀ p, (∃ e, r = some e ∧ p ∈ e.basePredicates) ↔ ∃ e, o = some e ∧ p ∈ e.basePredicates ∧ p.tables ops ⊆ ts := by
  cases o with
  | none => exact ⟨none, rfl, by simp⟩
  | some e =>
    obtain ⟨r, h1, h2⟩ := TransformProps.C39_fragment_tables_partial ops ts e (h e rfl)
    refine ⟨r, by simp [fragPred, mapOpt, h1], fun p => ?_⟩
    rw [h2]; simp

/-- **C134 (partial).** If the query does not contain all given tables, there is no fragment. Otherwise the fragment consists of the given tables, the predicates,
grouping and ordering expressions that use these tables only, the WITH queries for these tables and the LIMIT clause. The projection is `*` or `COUNT(*)` if
requested. NOT is excluded as in C39; for the original projection see `C134_select_violated`. -/
theorem C134_fragment_partial (N : Names) (ord : Finset Tab → List Tab) (hord : ∀ s t, t ∈ ord s ↔ t ∈ s) (ops : QOps Q) (ts : Finset Tab) (p : Proj) (s : Sel Q)
    (hc : s.cls = .implicit) (hw : ∀ e ∈ s.where_, NotFree e) (hh : ∀ e ∈ s.having_, NotFree e) (ht : ts.Nonempty) :
    (¬ ts ⊆ (toBody N s).tables ops → fragSel N ord ops ts p s = some none) ∧
    (ts ⊆ (toBody N s).tables ops → ∃ r, fragSel N ord ops ts p s = some (some r) ∧ Fragment N (fun e => e.tables ops) ts s r ∧ r.cls = .implicit ∧
      (p = .star → r.select = ⟨[⟨.star none, ""⟩], .none, []⟩) ∧
      (p = .countStar → r.select = ⟨[⟨.func "COUNT" [.star none] false none, ""⟩], .none, []⟩)) := by
  constructor
  · intro h
    unfold fragSel
    rw [if_neg (by simp [hc]), if_pos h]
  · intro h
    obtain ⟨w, hw1, hw2⟩ := fragPred_spec ops ts s.where_ hw
    obtain ⟨v, hv1, hv2⟩ := fragPred_spec ops ts s.having_ hh
    have hval : validFrom (fragFrom N ord ops ts s) = true := by
      unfold fragFrom
      cases s.src with
      | none => rfl
      | some c =>
        obtain ⟨t, ht⟩ := ht
        have hm : t ∈ (ord ((toBody N s).tables ops)).filter fun t => t ∈ ts := by simp [hord, ht, h ht]
        simp only [Option.map_some, validFrom]
        cases hl : (ord ((toBody N s).tables ops)).filter fun t => t ∈ ts with
        | nil => rw [hl] at hm; cases hm
        | cons => rfl
    refine ⟨_, by
      unfold fragSel
      rw [if_neg (by simp [hc]), if_neg (by simpa using h), hw1, hv1]
      simp only [Option.bind_some, hval, if_true]; rfl, ?_, rfl, ?_, ?_⟩
    · refine ⟨?_, ?_, hw2, hv2, ?_, ?_, ?_, ?_, ?_, rfl, rfl, rfl⟩
      · intro c hc
        simp only [fragFrom, Option.mem_def, Option.map_eq_some_iff] at hc
        obtain ⟨c', -, rfl⟩ := hc
        refine ⟨rfl, _, rfl, fun t => ?_⟩
        simp only [List.mem_filter, hord, decide_eq_true_eq, and_iff_right_iff_imp]
        exact fun ht => h ht
      · simp [fragFrom]
      · cases hg : s.groupBy with
        | none => simp [fragGroup, hg]
        | some g =>
          simp only [fragGroup, Option.bind_some, Option.toList_some, List.flatMap_cons, List.flatMap_nil, List.append_nil]
          unfold ifAny
          split
          · rename_i h; rw [List.isEmpty_iff] at h; simp [h]
          · simp
      · cases ho : s.orderBy with
        | none => simp [fragOrder, ho]
        | some l => simp only [fragOrder, Option.bind_some, ifAny_toList]; simp
      · intro g hg
        simp only [fragGroup, Option.mem_def, Option.bind_eq_some_iff, Option.map_eq_some_iff] at hg
        obtain ⟨g', h1, l, -, rfl⟩ := hg
        exact ⟨g', h1, rfl⟩
      · have hn : ∀ w : With Q, withTab N w = N.virt (withName N w) := by intro w; cases w <;> rfl
        simp only [← hn]
        cases hx : s.cte with
        | none => simp [fragCte, hx]
        | some c =>
          simp only [fragCte, Option.bind_some, Option.toList_some, List.flatMap_cons, List.flatMap_nil, List.append_nil]
          unfold mkCte
          split
          · rename_i h; simp at h; simp; exact h
          · simp
      · intro c hx
        simp only [fragCte, Option.mem_def, Option.bind_eq_some_iff] at hx
        obtain ⟨c', h1, h2⟩ := hx
        refine ⟨c', h1, ?_⟩
        unfold mkCte at h2
        split at h2
        · cases h2
        · cases h2; rfl
    · intro hp; subst hp; simp [fragSelect, starSelect]
    · intro hp; subst hp; simp [fragSelect, countSelect]

/-- There is one subquery, with table `t2`. -/
def exOps : QOps Unit := ⟨fun _ => {2}, fun _ => {⟨some 2, 0⟩}, fun _ => [⟨some 2, 0⟩], fun _ => ∅⟩

/-- `SELECT t1.x FROM t1, t2, t3 WHERE t1.x = t2.x AND t2.x = t3.x` -/
def exJoin : Sel Unit := exSel [.col ⟨some 1, 0⟩] [1, 2, 3]
  (some (.compound .and [.binary .eq (.col ⟨some 1, 0⟩) (.col ⟨some 2, 0⟩), .binary .eq (.col ⟨some 2, 0⟩) (.col ⟨some 3, 0⟩)]))

theorem exJoin_tables : (toBody exN exJoin).tables exOps = {1, 2, 3} := by decide +kernel

theorem exJoin_fragment : fragPred exOps {1, 2} exJoin.where_ = some (some (.binary .eq (.col ⟨some 1, 0⟩) (.col ⟨some 2, 0⟩))) := by decide +kernel

example : exJoin.cls = .implicit ∧ (∀ e ∈ exJoin.where_, NotFree e) ∧ (∀ e ∈ exJoin.having_, NotFree e) ∧ ({1, 2} : Finset Tab) ⊆ (toBody exN exJoin).tables exOps := by
  refine ⟨rfl, ?_, by simp [exJoin, exSel], by rw [exJoin_tables]; decide⟩
  intro e he
  simp only [exJoin, exSel, Option.mem_def, Option.some.injEq] at he
  subst he
  intro cs h
  have h' := h.sub
  cases h' with
  | step hm h' =>
    simp only [subs, List.mem_cons, List.not_mem_nil, or_false] at hm
    rcases hm with rfl | rfl <;> cases h' with
    | step hm h' =>
      simp only [subs, List.mem_cons, List.not_mem_nil, or_false] at hm
      rcases hm with rfl | rfl <;> cases h' with
      | step hm h' => simp [subs] at hm

theorem exJoin_spec (p : Proj) : fragSel exN exOrd exOps {1, 2} p exJoin = some (some { exSel [.star none] [1, 2]
    (some (.binary .eq (.col ⟨some 1, 0⟩) (.col ⟨some 2, 0⟩))) with select := fragSelect exOps {1, 2} p exJoin.select }) := by
  have h : ({1, 2} : Finset Tab) ⊆ {1, 2, 3} := by decide
  have h2 : fragFrom exN exOrd exOps {1, 2} exJoin = some ⟨.implicit, [.table 1, .table 2]⟩ := by
    unfold fragFrom
    rw [exJoin_tables]
    rfl
  unfold fragSel
  rw [exJoin_tables, exJoin_fragment, h2]
  simp only [h]
  rfl

example : fragSel exN exOrd exOps {1, 2} .star exJoin =
    some (some (exSel [.star none] [1, 2] (some (.binary .eq (.col ⟨some 1, 0⟩) (.col ⟨some 2, 0⟩))))) := exJoin_spec .star

/-- **C134 is violated.** A target is kept only if it uses all given tables: the fragment of the example for `t1` and `t2` has the projection `*` instead of `t1.x`.
`t3.*` however is kept although `t3` is not among the given tables. DISTINCT ON becomes DISTINCT. -/
theorem C134_select_violated :
    (fragSel exN exOrd exOps {1, 2} .keep exJoin = some (some (exSel [.star none] [1, 2] (some (.binary .eq (.col ⟨some 1, 0⟩) (.col ⟨some 2, 0⟩)))))) ∧
    (∀ (ops : QOps Q) (ts : Finset Tab), (fragSelect ops ts .keep ⟨[⟨.star (some 3), ""⟩], .none, []⟩).targets = [⟨.star (some 3), ""⟩]) ∧
    (∀ (ops : QOps Q) (ts : Finset Tab) (l : List (EqHash.Projection Q)) (cs : List (Expr Q)), (fragSelect ops ts .keep ⟨l, .on, cs⟩).distinct = .all) := by
  refine ⟨?_, fun ops ts => ?_, fun ops ts l cs => ?_⟩
  · rw [exJoin_spec]
    have h1 : (Expr.col ⟨some 1, 0⟩ : Expr Unit).tables exOps = {1} := by decide +kernel
    have h2 : (Expr.col ⟨some 1, 0⟩ : Expr Unit).columns exOps = {⟨some 1, 0⟩} := by decide +kernel
    have h3 : ({1} : Finset Tab) ≠ {1, 2} := by decide
    simp [fragSelect, exJoin, exSel, h1, h2, h3, starSelect, distinctBool]
  · have h : (Expr.star (some 3) : Expr Q).columns ops = ∅ := by rw [columns_eq]; simp [colParts, ownColumns, unionAll]
    simp [fragSelect, h]
  · simp only [fragSelect, if_true]
    split <;> rfl

/-- **C134 is violated.** The tables of subqueries become part of the FROM clause, whose rows are multiplied thereby:
`SELECT * FROM t1 WHERE t1.x IN (SELECT t2.y FROM t2)` becomes `SELECT * FROM t1, t2 WHERE t1.x IN (SELECT t2.y FROM t2)`. -/
theorem C134_subquery_violated : exOps.tables () = {2} ∧
    fragSel exN exOrd exOps {1, 2} .star (exSel [.star none] [1] (some (.inP (.col ⟨some 1, 0⟩) [.subq ()]))) =
      some (some (exSel [.star none] [1, 2] (some (.inP (.col ⟨some 1, 0⟩) [.subq ()])))) := by
  refine ⟨rfl, ?_⟩
  have h1 : (toBody exN (exSel [.star none] [1] (some (.inP (.col ⟨some 1, 0⟩) [.subq ()])))).tables exOps = {1, 2} := by decide +kernel
  have h2 : fragPred exOps {1, 2} (exSel [.star none] [1] (some (.inP (.col ⟨some 1, 0⟩) [.subq ()]))).where_ =
      some (some (.inP (.col ⟨some 1, 0⟩) [.subq ()])) := by decide +kernel
  have h3 : fragFrom exN exOrd exOps {1, 2} (exSel [.star none] [1] (some (.inP (.col ⟨some 1, 0⟩) [.subq ()]))) = some ⟨.implicit, [.table 1, .table 2]⟩ := by
    unfold fragFrom
    rw [h1]
    rfl
  unfold fragSel
  rw [h1, h2, h3]
  simp only [subset_refl]
  rfl

/-- **C134 is violated.** For set queries the requested projection is ignored, and a set query of which one side does not contain all tables raises an error. -/
theorem C134_set_violated (N : Names) (ord : Finset Tab → List Tab) (ops : QOps Q) (ts : Finset Tab) (p : Proj) (l r : Stmt Q) (op : SetOp) (cte : Option (Cte Q))
    (o : Option (List (OrderItem Q))) (m : Option Limit) (h : Option Hint) (e : Option Explain) :
    fragStmt N ord ops ts p (.set l r op cte o m h e) = fragStmt N ord ops ts .keep (.set l r op cte o m h e) ∧
    (ts ⊆ (toQuery N (.set l r op cte o m h e)).tables ops → fragStmt N ord ops ts .keep l = some none →
      fragStmt N ord ops ts p (.set l r op cte o m h e) = none) := by
  constructor
  · simp only [fragStmt]
  · intro h1 h2
    simp only [fragStmt, h2]
    rw [if_neg (by simpa using h1)]
    cases fragStmt N ord ops ts .keep r <;> rfl

end PB.QTransformProps
