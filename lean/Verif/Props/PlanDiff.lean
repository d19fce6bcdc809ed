import Verif.Model.PlanDiff
import Verif.Props.PlanOps

set_option linter.unusedSimpArgs false
set_option linter.unusedVariables false

/-! Property C270 (reports of plan comparisons). -/

namespace PB.PlanDiffProps
open PB PB.Hints PB.QP PB.QPProps PB.PlanDiff

/-- Specification: the second plan is the first one or one of the plans below it. -/
inductive Below : Plan → Plan → Prop
  | refl (p : Plan) : Below p p
  | child {p c q : Plan} : c ∈ p.children → Below c q → Below p q

/-- Specification: what an entry says is true of a pair of nodes: both states are those of the nodes and they differ. -/
def Holds (l r : Plan) : Entry → Prop
  | .tree a b => a = l.tables ∧ b = r.tables ∧ a ≠ b
  | .dir a b => a = l ∧ b = r ∧ ∃ lo li ro ri, l.children = [lo, li] ∧ r.children = [ro, ri] ∧ li.tables = ro.tables
  | .op a b c => a = l.info.nodeType ∧ b = r.info.nodeType ∧ a ≠ b ∧ c = l.tables ∧ c = r.tables
  | .card a b c => a = l.info.estCard ∧ b = r.info.estCard ∧ cardNe a b = some true ∧ c = l.tables ∧ c = r.tables
  | .cost a b c => a = l.info.estCost ∧ b = r.info.estCost ∧ a ≠ b ∧ c = l.tables ∧ c = r.tables
  | .actual a b c => a = l.info.actCard ∧ b = r.info.actCard ∧ cardNe a b = some true ∧ c = l.tables ∧ c = r.tables

theorem diffInfo_kind (c : Finset Nat) (l r : Info) : (diffInfo c l r).map (·.map Entry.kind) = compareInfo l r := by
  unfold diffInfo compareInfo
  cases cardNe l.estCard r.estCard <;> cases cardNe l.actCard r.actCard <;> simp
  congr 1
  · split <;> rfl
  · congr 1
    · split <;> rfl
    · congr 1
      · split <;> rfl
      · split <;> rfl

theorem fltNe_ne {a b : Flt} (h : fltNe a b = true) (hn : a ≠ .nan) : a ≠ b := by
  rintro rfl
  cases a <;> simp_all [fltNe]

theorem diffInfo_holds {l r : Plan} {es : List Entry} (ht : l.tables = r.tables) (h : diffInfo l.tables l.info r.info = some es) :
    ∀ e ∈ es, Holds l r e := by
  unfold diffInfo at h
  cases h1 : cardNe l.info.estCard r.info.estCard with
  | none => simp [h1] at h
  | some ce =>
    cases h2 : cardNe l.info.actCard r.info.actCard with
    | none => simp [h1, h2] at h
    | some ca =>
      simp only [h1, h2, Option.bind_eq_bind, Option.bind_some, Option.some.injEq] at h
      subst h
      intro e he
      simp only [List.mem_append] at he
      rcases he with ((he | he) | he) | he <;> split at he <;> simp at he <;> subst he <;> rename_i hc
      · simp only [Bool.and_eq_true] at hc
        exact ⟨rfl, rfl, by rw [h1, hc.1], rfl, ht⟩
      · simp only [Bool.and_eq_true] at hc
        exact ⟨rfl, rfl, by rw [h2, hc.1], rfl, ht⟩
      · simp at hc
        exact ⟨rfl, rfl, fltNe_ne hc.1 hc.2, rfl, ht⟩
      · exact ⟨rfl, rfl, hc, rfl, ht⟩

/-- **C270**: every entry of a comparison is true of a node of the first and a node of the second plan. -/
theorem C270_true : ∀ (l r : Plan) (es : List Entry), diff l r = some es →
    ∀ e ∈ es, ∃ a b, Below l a ∧ Below r b ∧ Holds a b e := by
  intro l r
  induction l, r using diff.induct with
  | case1 i lo li s r ih1 ih2 =>
    intro es h e he
    simp only [diff, Option.bind_eq_bind, Option.bind_eq_some_iff] at h
    obtain ⟨_, _, _, _, h⟩ := h
    split at h
    · rename_i hn
      simp only [Option.some.injEq] at h
      subst h
      simp only [List.mem_singleton] at he
      subst he
      exact ⟨_, _, .refl _, .refl _, rfl, rfl, hn⟩
    · rename_i hn
      have ht := not_not.1 hn
      simp only [Option.bind_eq_some_iff] at h
      obtain ⟨own, ho, h⟩ := h
      have hown := diffInfo_holds ht ho
      have hlo : lo ∈ (Plan.node i [lo, li] s).children := by simp [Plan.children]
      have hli : li ∈ (Plan.node i [lo, li] s).children := by simp [Plan.children]
      split at h
      · split at h
        · rename_i ro ri hr
          have hro : ro ∈ r.children := by rw [hr]; simp
          have hri : ri ∈ r.children := by rw [hr]; simp
          split at h
          · rename_i hsw
            simp only [Option.bind_eq_some_iff, Option.some.injEq] at h
            obtain ⟨a, ha, b, hb, rfl⟩ := h
            simp only [List.mem_append, List.mem_singleton] at he
            rcases he with ((he | rfl) | he) | he
            · exact ⟨_, _, .refl _, .refl _, hown e he⟩
            · exact ⟨_, _, .refl _, .refl _, rfl, rfl, lo, li, ro, ri, rfl, hr, hsw⟩
            · obtain ⟨x, y, hx, hy, hh⟩ := ih1 ro a ha e he
              exact ⟨x, y, .child hli hx, .child hro hy, hh⟩
            · obtain ⟨x, y, hx, hy, hh⟩ := ih2 ri b hb e he
              exact ⟨x, y, .child hlo hx, .child hri hy, hh⟩
          · simp only [Option.bind_eq_some_iff, Option.some.injEq] at h
            obtain ⟨a, ha, b, hb, rfl⟩ := h
            simp only [List.mem_append] at he
            rcases he with (he | he) | he
            · exact ⟨_, _, .refl _, .refl _, hown e he⟩
            · obtain ⟨x, y, hx, hy, hh⟩ := ih1 ri a ha e he
              exact ⟨x, y, .child hli hx, .child hri hy, hh⟩
            · obtain ⟨x, y, hx, hy, hh⟩ := ih2 ri b hb e he
              exact ⟨x, y, .child hlo hx, .child hri hy, hh⟩
        · simp at h
      · simp only [Option.some.injEq] at h
        subst h
        exact ⟨_, _, .refl _, .refl _, hown e he⟩
  | case2 i cs s r hn =>
    intro es h e he
    rw [diff] at h
    · simp only [Option.bind_eq_bind, Option.bind_eq_some_iff] at h
      obtain ⟨_, _, _, _, h⟩ := h
      split at h
      · rename_i hn
        simp only [Option.some.injEq] at h
        subst h
        simp only [List.mem_singleton] at he
        subst he
        exact ⟨_, _, .refl _, .refl _, rfl, rfl, hn⟩
      · rename_i hn
        have ht := not_not.1 hn
        simp only [Option.bind_eq_some_iff] at h
        obtain ⟨own, ho, h⟩ := h
        split at h
        · simp at h
        · simp only [Option.some.injEq] at h
          subst h
          exact ⟨_, _, .refl _, .refl _, diffInfo_holds ht ho e he⟩
    · exact hn

/-- **C270**: the entries are of the kinds, in the order, of the comparison of C61. -/
theorem C270_kinds : ∀ l r : Plan, (diff l r).map (·.map Entry.kind) = comparePlans l r := by
  intro l r
  induction l, r using diff.induct with
  | case1 i lo li s r ih1 ih2 =>
    simp only [diff, comparePlans]
    cases checkNoAux (Plan.node i [lo, li] s) with
    | none => rfl
    | some _ =>
      cases checkNoAux r with
      | none => rfl
      | some _ =>
        simp only [Option.bind_eq_bind, Option.bind_some]
        split
        · rfl
        · rw [← diffInfo_kind (Plan.node i [lo, li] s).tables]
          cases diffInfo (Plan.node i [lo, li] s).tables i r.info with
          | none => rfl
          | some own =>
            simp only [Option.bind_some, Option.map_some]
            split
            · cases hr : r.children with
              | nil => rfl
              | cons ro t =>
              match t with
              | [] => rfl
              | _ :: _ :: _ => rfl
              | [ri] =>
                dsimp only
                split
                · rw [← ih1 ro, ← ih2 ri]
                  cases diff li ro <;> cases diff lo ri <;> simp [Entry.kind]
                · rw [← ih1 ri, ← ih2 ri]
                  cases diff li ri <;> cases diff lo ri <;> simp [Entry.kind]
            · rfl
  | case2 i cs s r hn =>
    rw [diff, comparePlans]
    · cases checkNoAux (Plan.node i cs s) with
      | none => rfl
      | some _ =>
        cases checkNoAux r with
        | none => rfl
        | some _ =>
          simp only [Option.bind_eq_bind, Option.bind_some]
          split
          · rfl
          · rw [← diffInfo_kind (Plan.node i cs s).tables]
            cases diffInfo (Plan.node i cs s).tables i r.info with
            | none => rfl
            | some own =>
              simp only [Option.bind_some, Option.map_some]
              split <;> rfl
    · exact hn
    · exact hn

/-! ### Texts -/

/-- Specification: the beginnings of the messages. -/
def heading : Change → String
  | .treeStructure => "Different subtrees: "
  | .joinDirection => "Swapped join direction: "
  | .physicalOp => "Different physical operators on node "
  | .cardEst => "Different cardinality estimates on node "
  | .costEst => "Different cost estimates on node "
  | .actualCard => "Different actual cardinality on node "

/-- Specification: the states and the context as they are printed. -/
def details (sh : Repr) : Entry → Option (String × String × String)
  | .tree a b => some ("", sh.ids a, sh.ids b)
  | .dir .. => none
  | .op a b c => some (sh.set c ++ ": ", a, b)
  | .card a b c | .actual a b c => some (sh.set c ++ ": ", sh.card a, sh.card b)
  | .cost a b c => some (sh.set c ++ ": ", sh.flt a, sh.flt b)

theorem planIds_none (p : Plan) : planIds p = none := by
  cases p with | node i cs s => unfold planIds Plan.iter; simp only [List.mapM_cons]; rfl

theorem inspect_eq (sh : Repr) (e : Entry) :
    e.inspect sh = (details sh e).map fun d => heading e.kind ++ (d.1 ++ ("left=" ++ (d.2.1 ++ (" right=" ++ d.2.2)))) := by
  cases e <;> simp [Entry.inspect, details, heading, Entry.kind, planIds_none, ← String.toList_inj, String.toList_append, List.append_assoc]

theorem inspect_none (sh : Repr) (e : Entry) : e.inspect sh = none ↔ e.kind = .joinDirection := by
  cases e <;> simp [Entry.inspect, Entry.kind, planIds_none]

theorem mapM_some {f : Entry → Option String} : ∀ {es : List Entry}, (∀ e ∈ es, f e ≠ none) →
    ∃ ms, es.mapM f = some ms ∧ List.Forall₂ (fun e m => f e = some m) es ms
  | [], _ => ⟨[], by simp, .nil⟩
  | e :: es, h => by
    obtain ⟨m, hm⟩ := Option.ne_none_iff_exists'.1 (h e (by simp))
    obtain ⟨ms, h1, h2⟩ := mapM_some (f := f) (es := es) (fun x hx => h x (by simp [hx]))
    exact ⟨m :: ms, by simp [List.mapM_cons, hm, h1], .cons hm h2⟩

theorem mapM_none {f : Entry → Option String} : ∀ {es : List Entry} {e : Entry}, e ∈ es → f e = none → es.mapM f = none
  | x :: es, e, h, hf => by
    rcases List.mem_cons.1 h with rfl | h
    · simp [List.mapM_cons, hf]
    · cases hx : f x <;> simp [List.mapM_cons, hx, mapM_none h hf]

/-- **C270** (partial): a comparison without swapped joins has a report, which has one message for each entry, in their order; the
message has the heading of the entry's kind, the tables of the node and both states. -/
theorem C270_text_partial (sh : Repr) (l r : Plan) (es : List Entry) (h : diff l r = some es)
    (hs : ∀ e ∈ es, e.kind ≠ .joinDirection) :
    ∃ ms, inspect sh es = some (String.intercalate "\n" ms) ∧
      List.Forall₂ (fun e m => ∃ c a b, details sh e = some (c, a, b) ∧
        m = heading e.kind ++ (c ++ ("left=" ++ (a ++ (" right=" ++ b))))) es ms := by
  obtain ⟨ms, h1, h2⟩ := mapM_some (f := Entry.inspect sh) (es := es) (fun e he hn => hs e he ((inspect_none sh e).1 hn))
  refine ⟨ms, by simp [inspect, h1], h2.imp ?_⟩
  intro e m hm
  rw [inspect_eq] at hm
  obtain ⟨d, hd, rfl⟩ := Option.map_eq_some_iff.1 hm
  exact ⟨d.1, d.2.1, d.2.2, hd, rfl⟩

/-- **C270** (violated): if any join of the plans is swapped, the comparison has no report: its inspection fails. -/
theorem C270_swapped_violated (sh : Repr) (l r : Plan) (ks : List Change) (h : comparePlans l r = some ks) (hk : .joinDirection ∈ ks) :
    ∃ es, diff l r = some es ∧ inspect sh es = none := by
  rw [← C270_kinds] at h
  obtain ⟨es, h1, rfl⟩ := Option.map_eq_some_iff.1 h
  obtain ⟨e, he, hek⟩ := List.mem_map.1 hk
  exact ⟨es, h1, by simp [inspect, mapM_none he ((inspect_none sh e).2 hek)]⟩

theorem heading_take {x y : String} {r s : String} (h : x ++ r = y ++ s) (hx : 14 ≤ x.toList.length) (hy : 14 ≤ y.toList.length) :
    x.toList.take 14 = y.toList.take 14 := by
  have h' := congrArg (fun z : String => z.toList.take 14) h
  simpa [String.toList_append, List.take_append_of_le_length hx, List.take_append_of_le_length hy] using h'

/-- **C270**: messages of different kinds of changes are never the same. -/
theorem C270_distinct (sh : Repr) (x y : Entry) (m : String) (hx : x.inspect sh = some m) (hy : y.inspect sh = some m) :
    x.kind = y.kind := by
  rw [inspect_eq] at hx hy
  obtain ⟨d, _, rfl⟩ := Option.map_eq_some_iff.1 hx
  obtain ⟨d', _, h⟩ := Option.map_eq_some_iff.1 hy
  have hl : ∀ k, 14 ≤ (heading k).toList.length := by intro k; cases k <;> decide
  have ht := heading_take h (hl _) (hl _)
  revert ht
  generalize x.kind = a
  generalize y.kind = b
  cases a <;> cases b <;> decide

/-- A join of two scans. -/
def exJoin (a b : Nat) : Plan := .node joinInfo [scanP a, scanP b] none

/-- Two plans with a swapped join can be compared, so the hypotheses of `C270_swapped_violated` are met. -/
example : ∃ ks, comparePlans (exJoin 1 2) (exJoin 2 1) = some ks ∧ .joinDirection ∈ ks := by
  have hc : ∀ a b, checkNoAux (exJoin a b) = some () := by
    intro a b
    simp [checkNoAux, exJoin, scanP, Plan.findFirst, Plan.info, Info.isAux, Info.isScan, Info.isJoin, joinInfo, scanInfo, opInfo]
  have ht : (exJoin 1 2).tables = (exJoin 2 1).tables := by
    simp [exJoin, scanP, Plan.tables, Info.ownTables, joinInfo, scanInfo, opInfo, setUnion, optSet]
    exact Finset.pair_comm 1 2
  have hs : ∀ a, comparePlans (scanP a) (scanP a) = some [] := fun a => C61_scan_partial (scanInfo a) rfl ⟨.finite 10, rfl⟩ ⟨.unknown, rfl⟩
  have hi : compareInfo joinInfo joinInfo = some [] := compareInfo_self joinInfo ⟨.finite 100, rfl⟩ ⟨.unknown, rfl⟩
  have hj : joinInfo.isJoin = true := rfl
  have hc1 := hc 1 2
  have hc2 := hc 2 1
  unfold exJoin at hc1 hc2 ht ⊢
  refine ⟨[.joinDirection], ?_, by simp⟩
  rw [comparePlans]
  simp [hc1, hc2, ht, Plan.info, Plan.children, hi, hj, hs]

/-- Two scans of the same table with different costs can be compared, so the hypotheses of `C270_text_partial` are met. -/
example : ∃ l r es, diff l r = some es ∧ es ≠ [] ∧ ∀ e ∈ es, e.kind ≠ .joinDirection := by
  obtain ⟨i, j, _, _, _, _, h⟩ := C61_cost_violated
  rw [← C270_kinds] at h
  obtain ⟨es, h1, h2⟩ := Option.map_eq_some_iff.1 h
  refine ⟨_, _, es, h1, by rintro rfl; simp at h2, ?_⟩
  intro e he hk
  have : e.kind ∈ es.map Entry.kind := List.mem_map_of_mem he
  rw [h2, hk] at this
  simp at this

end PB.PlanDiffProps
