import Verif.Model.QueryExec

set_option linter.unusedSimpArgs false
set_option linter.unusedVariables false
set_option linter.unnecessarySimpa false
set_option linter.unnecessarySeqFocus false

/-!
# Properties of the execution of queries and of the query cache (C176-C179)
-/

namespace PB.QExecProps

open PB PB.QExec

/-! ## C177: simplification of result sets -/

/-- The rows of a table with `m` columns, as the driver returns them. -/
def Table (m : Nat) (rows : List Row) : Prop := ∀ r ∈ rows, r.isList = false ∧ r.vals.length = m

theorem first_single (v : Val) : Row.first ⟨false, [v]⟩ = v := rfl

theorem table_one {rows : List Row} (h : Table 1 rows) : rows = (rows.map Row.first).map fun v => ⟨false, [v]⟩ := by
  induction rows with
  | nil => rfl
  | cons r rows ih =>
    rw [List.map_cons, List.map_cons, ← ih (fun x hx => h x (by simp [hx]))]
    obtain ⟨h1, h2⟩ := h r (by simp)
    obtain ⟨b, vs⟩ := r
    simp only at h1 h2
    match vs, h2 with
    | [v], _ => simp [h1, Row.first]

theorem table_val {m : Nat} {rows : List Row} (h : Table m rows) : rows.map Row.val = rows.map fun r => .tup r.vals := by
  apply List.map_congr_left
  intro r hr
  simp [Row.val, (h r hr).1]

/-- **C177** (partial).  Simplified results: nothing and an empty result are the empty list, a single value is that value, a single
row is a tuple, a single column is the list of its values, everything else is the list of the rows.

Missing: the simplified value does not determine the result (`C177_array_violated`, `C177_loaded_violated`). -/
theorem C177_simplify_partial :
    simplify none = .list [] ∧ simplify (some []) = .list [] ∧
    (∀ v, simplify (some [⟨false, [v]⟩]) = v) ∧
    (∀ vs : List Val, vs.length ≠ 1 → simplify (some [⟨false, vs⟩]) = .tup vs) ∧
    (∀ vs : List Val, vs.length ≠ 1 → simplify (some (vs.map fun v => ⟨false, [v]⟩)) = .list vs) ∧
    (∀ m (rows : List Row), m ≠ 1 → rows.length ≠ 1 → Table m rows →
      simplify (some rows) = .list (rows.map fun r => .tup r.vals)) := by
  refine ⟨rfl, rfl, fun v => rfl, ?_, ?_, ?_⟩
  · intro vs h
    simp [simplify, h, Row.val]
  · intro vs h
    match vs, h with
    | [], _ => rfl
    | v :: w :: vs, _ =>
      have : (List.map Row.first (List.map (fun v => (⟨false, [v]⟩ : Row)) (v :: w :: vs))) = v :: w :: vs := by
        rw [List.map_map]
        exact List.map_id'' (fun _ => rfl) _
      simp only [simplify, List.map_cons, List.length_cons, List.length_nil, if_true] at this ⊢
      rw [this]
  · intro m rows hm hl ht
    match rows, hl with
    | [], _ => rfl
    | r :: s :: rows, _ =>
      have h1 : r.vals.length ≠ 1 := by rw [(ht r (by simp)).2]; exact hm
      have h2 := table_val ht
      simp only [simplify, if_neg h1]
      rw [h2]
      rfl

/-- **C177** (partial).  Results with the same number of rows and columns are told apart. -/
theorem C177_lossless_partial (m : Nat) (rows rows' : List Row) (h : Table m rows) (h' : Table m rows')
    (hl : rows.length = rows'.length) (he : simplify (some rows) = simplify (some rows')) : rows = rows' := by
  obtain ⟨_, _, c1, c2, c3, c4⟩ := C177_simplify_partial
  by_cases hm : m = 1
  · subst hm
    rw [table_one h, table_one h'] at he ⊢
    by_cases h1 : rows.length = 1
    · match rows, rows', h1, hl with
      | [r], [r'], _, _ =>
        simp only [List.map_cons, List.map_nil] at he ⊢
        rw [c1, c1] at he
        rw [he]
    · rw [c3 _ (by simpa using h1), c3 _ (by simp; omega)] at he
      simp only [Val.list.injEq] at he
      rw [he]
  · by_cases h1 : rows.length = 1
    · match rows, rows', h1, hl with
      | [⟨b, vs⟩], [⟨b', vs'⟩], _, _ =>
        obtain ⟨hb, hv⟩ := h ⟨b, vs⟩ (by simp)
        obtain ⟨hb', hv'⟩ := h' ⟨b', vs'⟩ (by simp)
        simp only at hb hb' hv hv'
        subst hb; subst hb'
        rw [c2 vs (by rw [hv]; exact hm), c2 vs' (by rw [hv']; exact hm)] at he
        cases he
        rfl
    · rw [c4 m rows hm h1 h, c4 m rows' hm (by omega) h'] at he
      simp only [Val.list.injEq] at he
      clear hl h1
      induction rows generalizing rows' with
      | nil => cases rows' with
        | nil => rfl
        | cons _ _ => simp at he
      | cons r rows ih =>
        cases rows' with
        | nil => simp at he
        | cons r' rows' =>
          simp only [List.map_cons, List.cons.injEq, Val.tup.injEq] at he
          rw [ih rows' (fun x hx => h x (by simp [hx])) (fun x hx => h' x (by simp [hx])) he.2]
          have hb := (h r (by simp)).1
          have hb' := (h' r' (by simp)).1
          obtain ⟨b, vs⟩ := r
          obtain ⟨b', vs'⟩ := r'
          simp only at hb hb' he
          rw [hb, hb', he.1]

example : Table 2 [⟨false, [.int 42, .int 24]⟩, ⟨false, [.int 1, .null]⟩] ∧
    simplify (some [⟨false, [.int 42, .int 24]⟩]) = .tup [.int 42, .int 24] := by
  refine ⟨?_, rfl⟩
  intro r hr
  rcases List.mem_cons.mp hr with rfl | hr
  · exact ⟨rfl, rfl⟩
  · rcases List.mem_cons.mp hr with rfl | hr
    · exact ⟨rfl, rfl⟩
    · cases hr

/-- A single array cannot be told from a column of its elements, and an empty array not from an empty result. -/
theorem C177_array_violated (vs : List Val) (h : vs.length ≠ 1) :
    simplify (some [⟨false, [.list vs]⟩]) = simplify (some (vs.map fun v => ⟨false, [v]⟩)) ∧
    ([⟨false, [.list vs]⟩] : List Row) ≠ vs.map fun v => ⟨false, [v]⟩ := by
  obtain ⟨_, _, c1, c2, c3, c4⟩ := C177_simplify_partial
  refine ⟨by rw [c1, c3 vs h], ?_⟩
  intro e
  have := congrArg List.length e
  simp at this
  exact h this.symm

/-- A single row that has been loaded from the cache file cannot be told from a column. -/
theorem C177_loaded_violated (vs : List Val) (h : vs.length ≠ 1) :
    simplify (some [⟨true, vs⟩]) = simplify (some (vs.map fun v => ⟨false, [v]⟩)) ∧
    simplify (some [⟨true, vs⟩]) ≠ simplify (some [⟨false, vs⟩]) := by
  obtain ⟨_, _, c1, c2, c3, c4⟩ := C177_simplify_partial
  have h1 : simplify (some [⟨true, vs⟩]) = .list vs := by simp [simplify, h, Row.val]
  refine ⟨by rw [h1, c3 vs h], ?_⟩
  rw [h1, c2 vs h]
  simp

/-- **C177**.  MySQL simplifies as the others do. -/
theorem C177_mysql (r : Res) : simplifyMysql r = simplify r := by
  match r with
  | none => rfl
  | some [] => rfl
  | some (r :: rs) =>
    unfold simplifyMysql simplify
    simp only
    generalize hv : (if r.vals.length = 1 then (r :: rs).map Row.first else (r :: rs).map Row.val) = vals
    match vals, hv with
    | [], hv => split at hv <;> simp at hv
    | [v], _ => simp
    | v :: w :: vs, _ => simp

/-! ## C176: the query cache -/

/-- One call of `execute_query`: the query, `cache_enabled` and `raw`. -/
abbrev Call := QArg × Option Bool × Bool

/-- The outcomes of a sequence of calls. -/
def outcomes {D : Type} (exec : St D → QArg → Option Bool → Bool → St D × Outcome) (st : St D) : List Call → List Outcome
  | [] => []
  | c :: cs => (exec st c.1 c.2.1 c.2.2).2 :: outcomes exec (exec st c.1 c.2.1 c.2.2).1 cs

/-- The same calls with the cache switched off. -/
def uncached (cs : List Call) : List Call := cs.map fun c => (c.1, some false, c.2.2)

/-- As long as the data is `d`, commands do not change it, and their answers do not depend on the settings. -/
def ReadOnly {D : Type} (S : Server D) (d : D) : Prop :=
  ∀ t, (∃ e, ∀ cur, S.ans d cur t = .fail e) ∨ (∃ n rows, ∀ cur, S.ans d cur t = .ok d n rows)

/-- Each entry of the cache is the result that the server would give now, with any settings. -/
def Fresh {D : Type} (exec : St D → QArg → Option Bool → Bool → St D × Outcome) (d : D) (c : Cache) : Prop :=
  ∀ t r, Dict.get? c t = some r → ∀ σ, (exec ⟨⟨d, σ⟩, [], false, []⟩ (.text t) (some false) true).2 = .raw r

theorem runCmds_readOnly {D : Type} {S : Server D} {d : D} (h : ReadOnly S d) (cs : List Cmd) :
    ∃ rep, ∀ σ cur, ∃ σ', runCmds S ⟨d, σ⟩ cur cs = (⟨d, σ'⟩, rep) := by
  induction cs with
  | nil => exact ⟨_, fun σ cur => ⟨σ, rfl⟩⟩
  | cons c cs ih =>
    obtain ⟨rep, hr⟩ := ih
    cases c with
    | set k v =>
      refine ⟨match rep with | .fail e => .fail e | .ok _ _ => .ok (-1) none, fun σ cur => ?_⟩
      obtain ⟨σ', h'⟩ := hr (Dict.set σ k v) (Dict.set cur k v)
      refine ⟨σ', ?_⟩
      simp only [runCmds, h']
      cases rep <;> rfl
    | setLocal k v =>
      refine ⟨match rep with | .fail e => .fail e | .ok _ _ => .ok (-1) none, fun σ cur => ?_⟩
      obtain ⟨σ', h'⟩ := hr σ (Dict.set cur k v)
      refine ⟨σ', ?_⟩
      simp only [runCmds, h']
      cases rep <;> rfl
    | sql t =>
      rcases h t with ⟨e, he⟩ | ⟨n, rows, he⟩
      · exact ⟨.fail e, fun σ cur => ⟨σ, by simp only [runCmds, he]⟩⟩
      · refine ⟨match rep with | .fail e => .fail e | .ok _ _ => .ok n rows, fun σ cur => ?_⟩
        obtain ⟨σ', h'⟩ := hr σ cur
        refine ⟨σ', ?_⟩
        simp only [runCmds, he, h']
        cases rep <;> rfl

theorem runText_readOnly {D : Type} {S : Server D} {d : D} (h : ReadOnly S d) (t : String) :
    ∃ rep, ∀ σ, ∃ σ', runText S ⟨d, σ⟩ t = (⟨d, σ'⟩, rep) := by
  obtain ⟨rep, hr⟩ := runCmds_readOnly h (S.cmds t)
  refine ⟨rep, fun σ => ?_⟩
  obtain ⟨σ', h'⟩ := hr σ σ
  unfold runText
  simp only [h']
  cases rep with
  | fail e => exact ⟨σ, rfl⟩
  | ok n rows => exact ⟨σ', rfl⟩

theorem duckPrep_readOnly {D : Type} {S : Server D} {d : D} (h : ReadOnly S d) (cs : List Char) :
    ∃ b, ∀ σ, ∃ σ', duckPrep S ⟨d, σ⟩ cs = (⟨d, σ'⟩, b) := by
  induction cs with
  | nil => exact ⟨true, fun σ => ⟨σ, rfl⟩⟩
  | cons c cs ih =>
    obtain ⟨b, hb⟩ := ih
    obtain ⟨rep, hr⟩ := runText_readOnly h (String.singleton c)
    cases rep with
    | fail e =>
      refine ⟨false, fun σ => ?_⟩
      obtain ⟨σ', h'⟩ := hr σ
      exact ⟨σ', by simp only [duckPrep, h']⟩
    | ok n rows =>
      refine ⟨b, fun σ => ?_⟩
      obtain ⟨σ', h'⟩ := hr σ
      obtain ⟨σ'', h''⟩ := hb σ'
      exact ⟨σ'', by simp only [duckPrep, h', h'']⟩

/-- What the interfaces have in common. -/
def Steps {D : Type} (exec : St D → QArg → Option Bool → Bool → St D × Outcome) (d : D) : Prop :=
  ∀ q raw, ∃ o, (∀ σ c i f, ((exec ⟨⟨d, σ⟩, c, i, f⟩ q (some false) raw).2 = o ∧
        ∃ σ', (exec ⟨⟨d, σ⟩, c, i, f⟩ q (some false) raw).1 = ⟨⟨d, σ'⟩, c, i, f⟩)) ∧
      ∀ σ c i f flag, Fresh exec d c → Fresh exec d f → ((exec ⟨⟨d, σ⟩, c, i, f⟩ q flag raw).2 = o ∧
        ∃ σ' c', (exec ⟨⟨d, σ⟩, c, i, f⟩ q flag raw).1 = ⟨⟨d, σ'⟩, c', i, f⟩ ∧ Fresh exec d c')

theorem transparent {D : Type} (exec : St D → QArg → Option Bool → Bool → St D × Outcome) (d : D)
    (hstep : Steps exec d)
    (calls : List Call) : ∀ σ σ' c c' i f, Fresh exec d c → Fresh exec d f →
      outcomes exec ⟨⟨d, σ⟩, c, i, f⟩ calls = outcomes exec ⟨⟨d, σ'⟩, c', i, f⟩ (uncached calls) := by
  induction calls with
  | nil => intros; rfl
  | cons call calls ih =>
    intro σ σ' c c' i f hc hf
    obtain ⟨q, flag, raw⟩ := call
    obtain ⟨o, h1, h2⟩ := hstep q raw
    obtain ⟨e1, σ1, e2⟩ := h1 σ' c' i f
    obtain ⟨e3, σ2, c2, e4, hc2⟩ := h2 σ c i f flag hc hf
    simp only [outcomes, uncached, List.map_cons]
    rw [e1, e3, e2, e4]
    exact congrArg _ (ih σ2 σ1 c2 c' i f hc2 hf)

theorem fresh_set {D : Type} {exec : St D → QArg → Option Bool → Bool → St D × Outcome} {d : D} {c : Cache} (hc : Fresh exec d c)
    {t : String} {r : Res} (h : ∀ σ, (exec ⟨⟨d, σ⟩, [], false, []⟩ (.text t) (some false) true).2 = .raw r) :
    Fresh exec d (Dict.set c t r) := by
  intro t' r' h'
  rw [Dict.get?_set] at h'
  split at h'
  · rename_i e; subst e; cases h'; exact h
  · exact hc t' r' h'

/-- What the interfaces do with a text. -/
structure Fetch {D : Type} (exec : St D → QArg → Option Bool → Bool → St D × Outcome) (d : D) (t : String)
    (fetch : St D → Bool → Bool → St D × Outcome) : Prop where
  text : ∀ st, exec st (.text t) (some false) true = fetch st false true
  miss : (∃ o, (∀ r, o ≠ .raw r) ∧ ∀ σ c i f raw caching, (caching = true → Dict.get? c t = none) →
        ∃ σ', fetch ⟨⟨d, σ⟩, c, i, f⟩ caching raw = (⟨⟨d, σ'⟩, c, i, f⟩, o)) ∨
    (∃ r, ∀ σ c i f raw caching, (caching = true → Dict.get? c t = none) →
        ∃ σ' c', fetch ⟨⟨d, σ⟩, c, i, f⟩ caching raw =
          (⟨⟨d, σ'⟩, if caching then Dict.set c' t r else c, i, f⟩, give raw r) ∧ (c' = c ∨ c' = f))
  hit : ∀ σ c i f raw r, Dict.get? c t = some r → (∀ σ, (fetch ⟨⟨d, σ⟩, [], false, []⟩ false true).2 = .raw r) →
    fetch ⟨⟨d, σ⟩, c, i, f⟩ true raw = (⟨⟨d, σ⟩, c, i, f⟩, give raw r)

theorem fetch_step {D : Type} {exec : St D → QArg → Option Bool → Bool → St D × Outcome} {d : D} {t : String}
    {fetch : St D → Bool → Bool → St D × Outcome} (F : Fetch exec d t fetch) (raw : Bool) :
    ∃ o, (∀ σ c i f, ((fetch ⟨⟨d, σ⟩, c, i, f⟩ false raw).2 = o ∧
        ∃ σ', (fetch ⟨⟨d, σ⟩, c, i, f⟩ false raw).1 = ⟨⟨d, σ'⟩, c, i, f⟩)) ∧
      ∀ σ c i f caching, Fresh exec d c → Fresh exec d f →
        ((fetch ⟨⟨d, σ⟩, c, i, f⟩ caching raw).2 = o ∧
        ∃ σ' c', (fetch ⟨⟨d, σ⟩, c, i, f⟩ caching raw).1 = ⟨⟨d, σ'⟩, c', i, f⟩ ∧ Fresh exec d c') := by
  rcases F.miss with ⟨o, hno, ho⟩ | ⟨r, ho⟩
  · refine ⟨o, ?_, ?_⟩
    · intro σ c i f
      obtain ⟨σ', h'⟩ := ho σ c i f raw false (by simp)
      rw [h']; exact ⟨rfl, σ', rfl⟩
    · intro σ c i f caching hc hf
      by_cases hg : caching = true → Dict.get? c t = none
      · obtain ⟨σ', h'⟩ := ho σ c i f raw caching hg
        rw [h']; exact ⟨rfl, σ', c, rfl, hc⟩
      · exfalso
        push Not at hg
        obtain ⟨_, hne⟩ := hg
        obtain ⟨r, hg⟩ := Option.ne_none_iff_exists'.mp hne
        have h1 := hc t r hg σ
        obtain ⟨σ', h'⟩ := ho σ [] false [] true false (by simp)
        rw [F.text, h'] at h1
        exact hno r h1
  · have hfresh : ∀ σ, (fetch ⟨⟨d, σ⟩, [], false, []⟩ false true).2 = .raw r := by
      intro σ
      obtain ⟨σ', c', h', _⟩ := ho σ [] false [] true false (by simp)
      rw [h']; rfl
    have hfresh' : ∀ σ, (exec ⟨⟨d, σ⟩, [], false, []⟩ (.text t) (some false) true).2 = .raw r := by
      intro σ; rw [F.text]; exact hfresh σ
    refine ⟨give raw r, ?_, ?_⟩
    · intro σ c i f
      obtain ⟨σ', c', h', _⟩ := ho σ c i f raw false (by simp)
      rw [h']; exact ⟨rfl, σ', rfl⟩
    · intro σ c i f caching hc hf
      by_cases hg : caching = true → Dict.get? c t = none
      · obtain ⟨σ', c', h', hcc⟩ := ho σ c i f raw caching hg
        rw [h']
        refine ⟨rfl, σ', _, rfl, ?_⟩
        cases caching
        · exact hc
        · simp only [if_true]
          apply fresh_set _ hfresh'
          rcases hcc with rfl | rfl
          · exact hc
          · exact hf
      · push Not at hg
        obtain ⟨hcach, hne⟩ := hg
        obtain ⟨r', hg⟩ := Option.ne_none_iff_exists'.mp hne
        have h1 := hc t r' hg σ
        rw [hfresh' σ] at h1
        cases h1
        subst hcach
        rw [F.hit σ c i f raw r hg hfresh]
        exact ⟨rfl, σ, c, rfl, hc⟩

theorem no_hit (caching : Bool) (c : Cache) (t : String) (h : caching = true → Dict.get? c t = none) :
    (if caching = true then Dict.get? c t else none) = none := by
  cases caching
  · rfl
  · simpa using h rfl

theorem pg_fetch {D : Type} {S : Server D} {d : D} (hS : ReadOnly S d) (t : String) :
    Fetch (pgExecute S) d t (fun st caching raw => pgFetch S st t caching raw) := by
  obtain ⟨rep, hr⟩ := runText_readOnly hS t
  refine ⟨fun _ => rfl, ?_, ?_⟩
  · cases rep with
    | fail e =>
      left
      refine ⟨.dbError e, by simp, fun σ c i f raw caching h => ?_⟩
      obtain ⟨σ', h'⟩ := hr σ
      refine ⟨σ', ?_⟩
      unfold pgFetch
      rw [no_hit caching c t h]
      simp only [h']
    | ok n rows =>
      by_cases hn : n ≥ 0
      · cases rows with
        | none =>
          left
          refine ⟨.dbError false, by simp, fun σ c i f raw caching h => ?_⟩
          obtain ⟨σ', h'⟩ := hr σ
          refine ⟨σ', ?_⟩
          unfold pgFetch
          rw [no_hit caching c t h]
          simp only [h', hn, if_true, Option.map_none]
        | some rs =>
          right
          refine ⟨some (asRows rs), fun σ c i f raw caching h => ?_⟩
          obtain ⟨σ', h'⟩ := hr σ
          refine ⟨σ', if c.isEmpty then f else c, ?_, by split <;> simp⟩
          unfold pgFetch
          rw [no_hit caching c t h]
          simp only [h', hn, if_true, Option.map_some, inflate]
          cases caching <;> simp <;> split <;> simp
      · right
        refine ⟨none, fun σ c i f raw caching h => ?_⟩
        obtain ⟨σ', h'⟩ := hr σ
        refine ⟨σ', if c.isEmpty then f else c, ?_, by split <;> simp⟩
        unfold pgFetch
        rw [no_hit caching c t h]
        simp only [h', if_neg hn, inflate]
        cases caching <;> simp <;> split <;> simp
  · intro σ c i f raw r hg _
    unfold pgFetch
    simp only [if_true, hg]

theorem my_fetch {D : Type} {S : Server D} {d : D} (hS : ReadOnly S d) (t : String) :
    Fetch (myExecute S) d t (fun st caching raw => myFetch S st t caching raw) := by
  obtain ⟨rep, hr⟩ := runText_readOnly hS t
  refine ⟨fun _ => rfl, ?_, ?_⟩
  · cases rep with
    | fail e =>
      left
      refine ⟨.driverError, by simp, fun σ c i f raw caching h => ?_⟩
      obtain ⟨σ', h'⟩ := hr σ
      refine ⟨σ', ?_⟩
      unfold myFetch
      simp only [no_hit caching c t h, h']
    | ok n rows =>
      cases rows with
      | none =>
        left
        refine ⟨.driverError, by simp, fun σ c i f raw caching h => ?_⟩
        obtain ⟨σ', h'⟩ := hr σ
        refine ⟨σ', ?_⟩
        unfold myFetch
        simp only [no_hit caching c t h, h']
      | some rs =>
        right
        refine ⟨some (asRows rs), fun σ c i f raw caching h => ?_⟩
        obtain ⟨σ', h'⟩ := hr σ
        refine ⟨σ', if c.isEmpty then f else c, ?_, by split <;> simp⟩
        unfold myFetch
        simp only [no_hit caching c t h, h', inflate, C177_mysql, give]
        cases caching <;> simp <;> split <;> simp
  · intro σ c i f raw r hg _
    unfold myFetch
    simp only [if_true, hg, C177_mysql, give]

theorem duck_fetch {D : Type} {S : Server D} {d : D} (hS : ReadOnly S d) (t : String) :
    Fetch (duckExecute S) d t (fun st caching raw => duckFetch S st t (some caching) raw) := by
  obtain ⟨rep, hr⟩ := runText_readOnly hS t
  refine ⟨fun _ => rfl, ?_, ?_⟩
  · cases rep with
    | fail e =>
      left
      refine ⟨.driverError, by simp, fun σ c i f raw caching h => ?_⟩
      obtain ⟨σ', h'⟩ := hr σ
      refine ⟨σ', ?_⟩
      unfold duckFetch
      simp only [Option.getD_some, no_hit caching c t h, h']
    | ok n rows =>
      right
      refine ⟨some (asRows (rows.getD [])), fun σ c i f raw caching h => ?_⟩
      obtain ⟨σ', h'⟩ := hr σ
      refine ⟨σ', c, ?_, Or.inl rfl⟩
      unfold duckFetch
      simp only [Option.getD_some, no_hit caching c t h, h']
      cases caching <;> simp
  · intro σ c i f raw r hg hf
    have hsome : ∃ rows, r = some rows := by
      have := hf σ
      obtain ⟨σ', h'⟩ := hr σ
      unfold duckFetch at this
      simp only [Option.getD_some, Bool.false_eq_true, if_false, h'] at this
      cases rep with
      | fail e => simp at this
      | ok n rows => simp [give] at this; exact ⟨_, this.symm⟩
    obtain ⟨rows, rfl⟩ := hsome
    unfold duckFetch
    simp only [Option.getD_some, if_true, hg]

theorem fresh_nil {D : Type} (exec : St D → QArg → Option Bool → Bool → St D × Outcome) (d : D) : Fresh exec d [] := by
  intro t r h; simp [Dict.get?] at h

theorem transparent_connect {D : Type} (exec : St D → QArg → Option Bool → Bool → St D × Outcome) (d : D)
    (hstep : Steps exec d)
    (σ : Settings) (inst : Bool) (file : Cache) (hf : Fresh exec d file) (calls : List Call) :
    outcomes exec (connect ⟨d, σ⟩ inst file) calls = outcomes exec (connect ⟨d, σ⟩ inst file) (uncached calls) := by
  have key := transparent exec d hstep
  unfold connect
  split
  · unfold inflate
    exact key calls σ σ file file inst file hf hf
  · exact key calls σ σ [] [] inst file (fresh_nil exec d) hf

theorem pgExecute_steps {D : Type} (S : Server D) (d : D) (hS : ReadOnly S d) : Steps (pgExecute S) d := by
  intro q raw
  cases q with
  | text t =>
    obtain ⟨o, h1, h2⟩ := fetch_step (pg_fetch hS t) raw
    exact ⟨o, h1, fun σ c i f flag hc hf => h2 σ c i f _ hc hf⟩
  | query prep body =>
    obtain ⟨o, h1, h2⟩ := fetch_step (pg_fetch hS body) raw
    by_cases hp : prep = ""
    · refine ⟨o, fun σ c i f => ?_, fun σ c i f flag hc hf => ?_⟩
      · simpa [pgExecute, hp, useCache] using h1 σ c i f
      · simpa [pgExecute, hp] using h2 σ c i f (useCache flag i) hc hf
    · obtain ⟨rep, hr⟩ := runText_readOnly hS prep
      cases rep with
      | fail e =>
        refine ⟨.driverError, fun σ c i f => ?_, fun σ c i f flag hc hf => ?_⟩
        · obtain ⟨σ', h'⟩ := hr σ
          simp only [pgExecute, if_neg hp, h']
          exact ⟨trivial, σ', rfl⟩
        · obtain ⟨σ', h'⟩ := hr σ
          simp only [pgExecute, if_neg hp, h']
          exact ⟨trivial, σ', c, rfl, hc⟩
      | ok n rows =>
        refine ⟨o, fun σ c i f => ?_, fun σ c i f flag hc hf => ?_⟩
        · obtain ⟨σ', h'⟩ := hr σ
          simpa [pgExecute, hp, useCache, h'] using h1 σ' c i f
        · obtain ⟨σ', h'⟩ := hr σ
          simpa [pgExecute, hp, h'] using h2 σ' c i f (useCache flag i) hc hf

/-- **C176** (partial).  On Postgres, as long as nobody changes the data and the cache file is up to date, the outcomes of any
sequence of calls of `execute_query` are the same as without the cache.

Missing: changes of the data (`C176_stale_violated`, `C176_update_violated`, `C176_reset_violated`), and what the file loses
(`C179`). -/
theorem C176_postgres_partial {D : Type} (S : Server D) (d : D) (hS : ReadOnly S d) (σ : Settings) (inst : Bool) (file : Cache)
    (hf : Fresh (pgExecute S) d file) (calls : List Call) :
    outcomes (pgExecute S) (connect ⟨d, σ⟩ inst file) calls = outcomes (pgExecute S) (connect ⟨d, σ⟩ inst file) (uncached calls) := by
  exact transparent_connect _ d (pgExecute_steps S d hS) σ inst file hf calls

theorem myExecute_steps {D : Type} (S : Server D) (d : D) (hS : ReadOnly S d) : Steps (myExecute S) d := by
  intro q raw
  cases q with
  | text t =>
    obtain ⟨o, h1, h2⟩ := fetch_step (my_fetch hS t) raw
    exact ⟨o, h1, fun σ c i f flag hc hf => h2 σ c i f _ hc hf⟩
  | query prep body =>
    obtain ⟨o, h1, h2⟩ := fetch_step (my_fetch hS body) raw
    by_cases hp : prep = ""
    · refine ⟨o, fun σ c i f => ?_, fun σ c i f flag hc hf => ?_⟩
      · simpa [myExecute, hp, useCache] using h1 σ c i f
      · simpa [myExecute, hp] using h2 σ c i f (useCache flag i) hc hf
    · obtain ⟨rep, hr⟩ := runText_readOnly hS prep
      cases rep with
      | fail e =>
        refine ⟨.driverError, fun σ c i f => ?_, fun σ c i f flag hc hf => ?_⟩
        · obtain ⟨σ', h'⟩ := hr σ
          simp only [myExecute, if_neg hp, h']
          exact ⟨trivial, σ', rfl⟩
        · obtain ⟨σ', h'⟩ := hr σ
          simp only [myExecute, if_neg hp, h']
          exact ⟨trivial, σ', c, rfl, hc⟩
      | ok n rows =>
        refine ⟨o, fun σ c i f => ?_, fun σ c i f flag hc hf => ?_⟩
        · obtain ⟨σ', h'⟩ := hr σ
          simpa [myExecute, hp, useCache, h'] using h1 σ' c i f
        · obtain ⟨σ', h'⟩ := hr σ
          simpa [myExecute, hp, h'] using h2 σ' c i f (useCache flag i) hc hf

/-- **C176** (partial).  The same on MySQL. -/
theorem C176_mysql_partial {D : Type} (S : Server D) (d : D) (hS : ReadOnly S d) (σ : Settings) (inst : Bool) (file : Cache)
    (hf : Fresh (myExecute S) d file) (calls : List Call) :
    outcomes (myExecute S) (connect ⟨d, σ⟩ inst file) calls = outcomes (myExecute S) (connect ⟨d, σ⟩ inst file) (uncached calls) := by
  exact transparent_connect _ d (myExecute_steps S d hS) σ inst file hf calls

theorem duckExecute_steps {D : Type} (S : Server D) (d : D) (hS : ReadOnly S d) : Steps (duckExecute S) d := by
  have hflag : ∀ (st : St D) t flag raw, duckFetch S st t flag raw = duckFetch S st t (some (flag.getD false)) raw := by
    intro st t flag raw; cases flag <;> rfl
  intro q raw
  cases q with
  | text t =>
    obtain ⟨o, h1, h2⟩ := fetch_step (duck_fetch hS t) raw
    refine ⟨o, h1, fun σ c i f flag hc hf => ?_⟩
    have := h2 σ c i f (flag.getD false) hc hf
    simp only [duckExecute]
    rw [hflag]; exact this
  | query prep body =>
    obtain ⟨o, h1, h2⟩ := fetch_step (duck_fetch hS body) raw
    by_cases hp : prep = ""
    · refine ⟨o, fun σ c i f => ?_, fun σ c i f flag hc hf => ?_⟩
      · simpa [duckExecute, hp] using h1 σ c i f
      · have := h2 σ c i f (flag.getD false) hc hf
        simp only [duckExecute, hp, if_true]
        rw [hflag]; exact this
    · obtain ⟨b, hb⟩ := duckPrep_readOnly hS prep.toList
      cases b with
      | false =>
        refine ⟨.driverError, fun σ c i f => ?_, fun σ c i f flag hc hf => ?_⟩
        · obtain ⟨σ', h'⟩ := hb σ
          simp only [duckExecute, if_neg hp, h']
          exact ⟨trivial, σ', rfl⟩
        · obtain ⟨σ', h'⟩ := hb σ
          simp only [duckExecute, if_neg hp, h']
          exact ⟨trivial, σ', c, rfl, hc⟩
      | true =>
        refine ⟨o, fun σ c i f => ?_, fun σ c i f flag hc hf => ?_⟩
        · obtain ⟨σ', h'⟩ := hb σ
          simp only [duckExecute, if_neg hp, h']
          exact h1 σ' c i f
        · obtain ⟨σ', h'⟩ := hb σ
          have := h2 σ' c i f (flag.getD false) hc hf
          simp only [duckExecute, if_neg hp, h']
          rw [hflag]; exact this

/-- **C176** (partial).  The same on DuckDB. -/
theorem C176_duckdb_partial {D : Type} (S : Server D) (d : D) (hS : ReadOnly S d) (σ : Settings) (inst : Bool) (file : Cache)
    (hf : Fresh (duckExecute S) d file) (calls : List Call) :
    outcomes (duckExecute S) (connect ⟨d, σ⟩ inst file) calls =
      outcomes (duckExecute S) (connect ⟨d, σ⟩ inst file) (uncached calls) := by
  exact transparent_connect _ d (duckExecute_steps S d hS) σ inst file hf calls

/-- What a user does with a connection: execute a query, switch the cache on or off, or empty it. -/
inductive Event where
  | call (c : Call)
  | enable (b : Bool)
  | reset

/-- The outcomes of the calls in a history. -/
def history {D : Type} (exec : St D → QArg → Option Bool → Bool → St D × Outcome) (st : St D) : List Event → List Outcome
  | [] => []
  | .call c :: es => (exec st c.1 c.2.1 c.2.2).2 :: history exec (exec st c.1 c.2.1 c.2.2).1 es
  | .enable b :: es => history exec (setCacheEnabled st b) es
  | .reset :: es => history exec (resetCache st) es

/-- The calls in a history. -/
def callsOf : List Event → List Call
  | [] => []
  | .call c :: es => c :: callsOf es
  | _ :: es => callsOf es

theorem outcomes_inst {D : Type} {exec : St D → QArg → Option Bool → Bool → St D × Outcome} {d : D} (hstep : Steps exec d)
    (cs : List Call) : ∀ σ σ' c c' i i' f, outcomes exec ⟨⟨d, σ⟩, c, i, f⟩ (uncached cs) =
      outcomes exec ⟨⟨d, σ'⟩, c', i', f⟩ (uncached cs) := by
  induction cs with
  | nil => intros; rfl
  | cons call cs ih =>
    intro σ σ' c c' i i' f
    obtain ⟨q, flag, raw⟩ := call
    obtain ⟨o, h1, -⟩ := hstep q raw
    obtain ⟨e1, σ1, e2⟩ := h1 σ c i f
    obtain ⟨e3, σ2, e4⟩ := h1 σ' c' i' f
    simp only [outcomes, uncached, List.map_cons]
    rw [e1, e3, e2, e4]
    exact congrArg _ (ih σ1 σ2 c c' i i' f)

theorem transparent_history {D : Type} {exec : St D → QArg → Option Bool → Bool → St D × Outcome} {d : D} (hstep : Steps exec d)
    (es : List Event) : ∀ σ c i f, Fresh exec d c → Fresh exec d f →
      history exec ⟨⟨d, σ⟩, c, i, f⟩ es = outcomes exec ⟨⟨d, σ⟩, c, i, f⟩ (uncached (callsOf es)) := by
  induction es with
  | nil => intros; rfl
  | cons e es ih =>
    intro σ c i f hc hf
    cases e with
    | call call =>
      obtain ⟨q, flag, raw⟩ := call
      obtain ⟨o, h1, h2⟩ := hstep q raw
      obtain ⟨e1, σ1, e2⟩ := h1 σ c i f
      obtain ⟨e3, σ2, c2, e4, hc2⟩ := h2 σ c i f flag hc hf
      simp only [outcomes, uncached, List.map_cons, history, callsOf]
      rw [e1, e3, e2, e4]
      exact congrArg _ ((ih σ2 c2 i f hc2 hf).trans (outcomes_inst hstep _ σ2 σ1 c2 c i i f))
    | enable b =>
      have : ∃ c', setCacheEnabled (⟨⟨d, σ⟩, c, i, f⟩ : St D) b = ⟨⟨d, σ⟩, c', b, f⟩ ∧ Fresh exec d c' := by
        unfold setCacheEnabled inflate
        split
        · split
          · exact ⟨f, rfl, hf⟩
          · exact ⟨c, rfl, hc⟩
        · exact ⟨c, rfl, hc⟩
      obtain ⟨c', e, hc'⟩ := this
      simp only [history, callsOf]
      rw [e]
      exact (ih σ c' b f hc' hf).trans (outcomes_inst hstep _ σ σ c' c b i f)
    | reset =>
      simp only [history, callsOf, resetCache]
      exact (ih σ [] i f (fresh_nil exec d) hf).trans (outcomes_inst hstep _ σ σ [] c i i f)

theorem history_connect {D : Type} {exec : St D → QArg → Option Bool → Bool → St D × Outcome} {d : D} (hstep : Steps exec d)
    (σ : Settings) (inst : Bool) (file : Cache) (hf : Fresh exec d file) (es : List Event) :
    history exec (connect ⟨d, σ⟩ inst file) es = outcomes exec (connect ⟨d, σ⟩ false []) (uncached (callsOf es)) := by
  have aux : ∀ cs c, Fresh exec d c → ∀ c' i' f', outcomes exec ⟨⟨d, σ⟩, c, inst, file⟩ (uncached cs) =
      outcomes exec ⟨⟨d, σ⟩, c', i', f'⟩ (uncached cs) := by
    intro cs c _ c' i' f'
    have gen : ∀ (cs : List Call) σ σ' c c' i i' f f', outcomes exec ⟨⟨d, σ⟩, c, i, f⟩ (uncached cs) =
        outcomes exec ⟨⟨d, σ'⟩, c', i', f'⟩ (uncached cs) := by
      intro cs
      induction cs with
      | nil => intros; rfl
      | cons call cs ih =>
        intro σ σ' c c' i i' f f'
        obtain ⟨q, flag, raw⟩ := call
        obtain ⟨o, h1, -⟩ := hstep q raw
        obtain ⟨e1, σ1, e2⟩ := h1 σ c i f
        obtain ⟨e3, σ2, e4⟩ := h1 σ' c' i' f'
        simp only [outcomes, uncached, List.map_cons]
        rw [e1, e3, e2, e4]
        exact congrArg _ (ih σ1 σ2 c c' i i' f f')
    exact gen cs σ σ c c' inst i' file f'
  unfold connect inflate
  split
  · simp only [List.isEmpty_nil, if_true, Bool.false_eq_true, if_false]
    exact (transparent_history hstep es σ file inst file hf hf).trans (aux _ file hf [] false [])
  · simp only [Bool.false_eq_true, if_false]
    exact (transparent_history hstep es σ [] inst file (fresh_nil exec d) hf).trans (aux _ [] (fresh_nil exec d) [] false [])

/-- **C176** (partial).  The same for histories in which the cache is switched on and off and emptied at any point: each call has
the outcome that it has on a connection that never uses a cache.  Missing: as above. -/
theorem C176_switches_partial {D : Type} (S : Server D) (d : D) (hS : ReadOnly S d) (σ : Settings) (inst : Bool) (file : Cache)
    (es : List Event) :
    (Fresh (pgExecute S) d file → history (pgExecute S) (connect ⟨d, σ⟩ inst file) es =
      outcomes (pgExecute S) (connect ⟨d, σ⟩ false []) (uncached (callsOf es))) ∧
    (Fresh (myExecute S) d file → history (myExecute S) (connect ⟨d, σ⟩ inst file) es =
      outcomes (myExecute S) (connect ⟨d, σ⟩ false []) (uncached (callsOf es))) ∧
    (Fresh (duckExecute S) d file → history (duckExecute S) (connect ⟨d, σ⟩ inst file) es =
      outcomes (duckExecute S) (connect ⟨d, σ⟩ false []) (uncached (callsOf es))) :=
  ⟨fun hf => history_connect (pgExecute_steps S d hS) σ inst file hf es,
    fun hf => history_connect (myExecute_steps S d hS) σ inst file hf es,
    fun hf => history_connect (duckExecute_steps S d hS) σ inst file hf es⟩

/-- A server with a single number as data: `read` reads it, `bump` increments it, `noop` is a command without a result. -/
def counter : Server Nat where
  cmds t := [.sql t]
  ans n _ t :=
    if t = "read" then .ok n 1 (some [[.int n]])
    else if t = "bump" then .ok (n + 1) 1 none
    else if t = "bump returning" then .ok (n + 1) 1 (some [[.int (n + 1)]])
    else .fail false

/-- The part of it that only reads. -/
def reader : Server Nat where
  cmds t := [.sql t]
  ans n _ t := if t = "read" then .ok n 1 (some [[.int n]]) else .fail false

example : ReadOnly reader 3 ∧ Fresh (pgExecute reader) 3 [("read", some [⟨false, [.int 3]⟩])] := by
  constructor
  · intro t
    by_cases h : t = "read"
    · exact Or.inr ⟨1, some [[.int 3]], fun _ => by simp [reader, h]⟩
    · exact Or.inl ⟨false, fun _ => by simp [reader, h]⟩
  · intro t r h σ
    have : t = "read" ∧ r = some [⟨false, [.int 3]⟩] := by
      simp only [Dict.get?] at h
      split at h
      · rename_i e; exact ⟨by simpa using e.symm, by cases h; rfl⟩
      · simp at h
    obtain ⟨rfl, rfl⟩ := this
    rfl

/-- **C176**.  Without the cache, the result is the answer of the server, as it is or simplified, and the data is changed as the
server says. -/
theorem C176_answer {D : Type} (S : Server D) (st : St D) (t u : String) (d : D) (n : Int) (hn : n ≥ 0) (rows : List (List Val))
    (hc : S.cmds t = [.sql u]) (ha : S.ans st.sess.data st.sess.settings u = .ok d n (some rows)) (raw : Bool) :
    let res : Res := some (rows.map fun vs => ⟨false, vs⟩)
    let done := ({ st with sess := ⟨d, st.sess.settings⟩ }, if raw then Outcome.raw res else .simple (simplify res))
    pgExecute S st (.text t) (some false) raw = done ∧ myExecute S st (.text t) (some false) raw = done ∧
    duckExecute S st (.text t) (some false) raw = done := by
  have h1 : runText S st.sess t = (⟨d, st.sess.settings⟩, .ok n (some rows)) := by
    simp only [runText, hc, runCmds, ha]
  refine ⟨?_, ?_, ?_⟩
  · simp only [pgExecute, useCache, pgFetch, Bool.false_eq_true, if_false, h1, hn, if_true, Option.map_some, give, asRows]
  · simp only [myExecute, useCache, myFetch, Bool.false_eq_true, if_false, h1, C177_mysql, asRows]
  · simp only [duckExecute, duckFetch, Option.getD_some, Bool.false_eq_true, if_false, h1, give, asRows]

/-- After the data has been changed, the cached result of the old data is returned. -/
theorem C176_stale_violated {D : Type} (S : Server D) (d d' : D) (σ : Settings) (t : String) (r r' : Res)
    (h : (pgExecute S (connect ⟨d, σ⟩ false []) (.text t) (some false) true).2 = .raw r)
    (h' : (pgExecute S (connect ⟨d', σ⟩ false []) (.text t) (some false) true).2 = .raw r') :
    let st := (pgExecute S (connect ⟨d, σ⟩ false []) (.text t) (some true) true).1
    (pgExecute S { st with sess := ⟨d', σ⟩ } (.text t) (some true) true).2 = .raw r := by
  intro st
  have hget : Dict.get? st.cache t = some r := by
    show Dict.get? (pgExecute S (connect ⟨d, σ⟩ false []) (.text t) (some true) true).1.cache t = some r
    revert h
    simp only [pgExecute, useCache, connect, pgFetch, Dict.get?, if_true, Bool.false_eq_true, if_false]
    generalize runText S ⟨d, σ⟩ t = x
    obtain ⟨s, rep⟩ := x
    cases rep with
    | fail e => simp
    | ok n rows =>
      by_cases hn : n ≥ 0
      · cases rows with
        | none => simp [hn]
        | some rs =>
          simp only [hn, if_true, Option.map_some, give]
          intro h; cases h
          simp [Dict.get?_set]
      · simp only [if_neg hn, give, if_true]
        intro h; cases h
        simp [Dict.get?_set]
  simp only [pgExecute, useCache, pgFetch, if_true, hget, give]

example : (pgExecute counter (connect ⟨3, []⟩ false []) (.text "read") (some false) true).2 = .raw (some [⟨false, [.int 3]⟩]) ∧
    (pgExecute counter (connect ⟨4, []⟩ false []) (.text "read") (some false) true).2 = .raw (some [⟨false, [.int 4]⟩]) := by
  constructor <;> rfl

/-- A command whose result is in the cache is not executed again, although it changes the data. -/
theorem C176_update_violated {D : Type} (S : Server D) (st : St D) (t : String) (r : Res) (h : Dict.get? st.cache t = some r)
    (raw : Bool) : (pgExecute S st (.text t) (some true) raw).1 = st := by
  simp only [pgExecute, useCache, pgFetch, if_true, h]

example : ∃ r, Dict.get? (pgExecute counter (connect ⟨3, []⟩ false []) (.text "bump returning") (some true) true).1.cache
      "bump returning" = some r ∧
    (pgExecute counter (connect ⟨3, []⟩ false []) (.text "bump returning") (some false) true).1.sess.data = 4 := ⟨_, rfl, rfl⟩

/-- The entries of the file come back after a reset of the cache: as soon as another result has been cached, results of the file
are returned without asking the server. -/
theorem C176_reset_violated {D : Type} (S : Server D) (st : St D) (t u : String) (r r' : Res) (htu : t ≠ u)
    (hf : Dict.get? st.file t = some r)
    (hu : (pgExecute S (resetCache st) (.text u) (some true) true).2 = .raw r') :
    let st' := (pgExecute S (resetCache st) (.text u) (some true) true).1
    ∀ sess, (pgExecute S { st' with sess := sess } (.text t) (some true) true).2 = .raw r := by
  intro st' sess
  have hget : Dict.get? st'.cache t = some r := by
    show Dict.get? (pgExecute S (resetCache st) (.text u) (some true) true).1.cache t = some r
    revert hu
    simp only [pgExecute, useCache, resetCache, pgFetch, Dict.get?, if_true]
    generalize runText S st.sess u = x
    obtain ⟨s, rep⟩ := x
    cases rep with
    | fail e => simp
    | ok n rows =>
      by_cases hn : n ≥ 0
      · cases rows with
        | none => simp [hn]
        | some rs =>
          intro _
          simp only [hn, if_true, Option.map_some, inflate, List.isEmpty_nil]
          rw [Dict.get?_set, if_neg (Ne.symm htu), hf]
      · intro _
        simp only [if_neg hn, inflate, List.isEmpty_nil, if_true]
        rw [Dict.get?_set, if_neg (Ne.symm htu), hf]
  simp only [pgExecute, useCache, pgFetch, if_true, hget, give]

/-- On DuckDB, the cache is not used unless it is requested in each call, even if it has been enabled for the connection. -/
theorem C176_duckdb_default_violated {D : Type} (S : Server D) (st : St D) (q : QArg) (raw : Bool) :
    duckExecute S st q none raw = duckExecute S st q (some false) raw := by
  cases q <;> rfl

/-! ## C178: settings of a query -/

/-- The commands that set the given values. -/
def sets (kvs : List (String × String)) : List Cmd := kvs.map fun p => .set p.1 p.2
def localSets (kvs : List (String × String)) : List Cmd := kvs.map fun p => .setLocal p.1 p.2
def with_ (σ : Settings) (kvs : List (String × String)) : Settings := kvs.foldl (fun σ p => Dict.set σ p.1 p.2) σ

theorem runCmds_sets {D : Type} (S : Server D) (kvs : List (String × String)) (sess : Sess D) (cur : Settings) :
    runCmds S sess cur (sets kvs) = (⟨sess.data, with_ sess.settings kvs⟩, .ok (-1) none) := by
  induction kvs generalizing sess cur with
  | nil => rfl
  | cons p kvs ih =>
    simp only [sets, List.map_cons, runCmds]
    have := ih ⟨sess.data, Dict.set sess.settings p.1 p.2⟩ (Dict.set cur p.1 p.2)
    simp only [sets] at this
    rw [this]
    rfl

theorem runCmds_localSets {D : Type} (S : Server D) (kvs : List (String × String)) (sess : Sess D) (cur : Settings) :
    runCmds S sess cur (localSets kvs) = (sess, .ok (-1) none) := by
  induction kvs generalizing sess cur with
  | nil => rfl
  | cons p kvs ih =>
    simp only [localSets, List.map_cons, runCmds]
    have := ih sess (Dict.set cur p.1 p.2)
    simp only [localSets] at this
    rw [this]

/-- **C178** (partial).  On Postgres, a query whose preparatory statements are *SET* commands is executed with these settings.

Missing: *SET LOCAL* (`C178_local_violated`), the settings stay in force for later queries (`C178_leak_violated`), DuckDB
(`C178_duckdb_violated`). -/
theorem C178_settings_partial {D : Type} (S : Server D) (st : St D) (prep body : String) (kvs : List (String × String))
    (hp : prep ≠ "") (hc : S.cmds prep = sets kvs) (flag : Option Bool) (raw : Bool) :
    pgExecute S st (.query prep body) flag raw =
      pgExecute S { st with sess := ⟨st.sess.data, with_ st.sess.settings kvs⟩ } (.text body) flag raw := by
  simp only [pgExecute, if_neg hp, runText, hc, runCmds_sets]

/-- The settings of the hints that PostBOUND generates have no effect: they are *SET LOCAL* commands, which end with their own
transaction. -/
theorem C178_local_violated {D : Type} (S : Server D) (st : St D) (prep body : String) (kvs : List (String × String))
    (hp : prep ≠ "") (hc : S.cmds prep = localSets kvs) (flag : Option Bool) (raw : Bool) :
    pgExecute S st (.query prep body) flag raw = pgExecute S st (.text body) flag raw := by
  simp only [pgExecute, if_neg hp, runText, hc, runCmds_localSets]

/-- *SET* commands of a query are in force for all later queries. -/
theorem C178_leak_violated {D : Type} (S : Server D) (st : St D) (prep body : String) (kvs : List (String × String))
    (hp : prep ≠ "") (hc : S.cmds prep = sets kvs) (text : String) (hb : S.cmds body = [.sql text]) (flag : Option Bool)
    (raw : Bool) :
    (pgExecute S st (.query prep body) flag raw).1.sess.settings = with_ st.sess.settings kvs := by
  rw [C178_settings_partial S st prep body kvs hp hc]
  simp only [pgExecute, pgFetch]
  split
  · rfl
  · have : (runText S ⟨st.sess.data, with_ st.sess.settings kvs⟩ body).1.settings = with_ st.sess.settings kvs := by
      simp only [runText, hb, runCmds]
      split
      · rfl
      · rename_i h
        split at h
        · cases h
        · cases h; rfl
    revert this
    generalize runText S ⟨st.sess.data, with_ st.sess.settings kvs⟩ body = x
    intro h
    obtain ⟨s, rep⟩ := x
    cases rep with
    | fail e => exact h
    | ok n rows =>
      simp only
      split
      · exact h
      · split
        · unfold inflate; split <;> exact h
        · exact h

/-- On DuckDB, the preparatory statements are executed character by character: if the first character is no command, the query is
not executed at all. -/
theorem C178_duckdb_violated {D : Type} (S : Server D) (st : St D) (prep body : String) (c : Char) (cs : List Char)
    (hp : prep.toList = c :: cs) (e : Bool) (hc : (runText S st.sess (String.singleton c)).2 = .fail e) (flag : Option Bool)
    (raw : Bool) : duckExecute S st (.query prep body) flag raw = (st, .driverError) := by
  have hne : prep ≠ "" := by rintro rfl; simp at hp
  have h1 : runText S st.sess (String.singleton c) = (st.sess, .fail e) := by
    revert hc
    unfold runText
    split <;> simp
  simp only [duckExecute, if_neg hne, hp, duckPrep, h1]

/-- A server that understands *SET* and *SET LOCAL* and tells whether nested-loop joins are enabled. -/
def pgServer : Server Unit where
  cmds t := if t = "SET enable_nestloop TO 'off';" then [.set "enable_nestloop" "off"]
    else if t = "SET LOCAL enable_nestloop TO 'off';" then [.setLocal "enable_nestloop" "off"]
    else [.sql t]
  ans _ σ t := if t = "SHOW enable_nestloop" then .ok () 1 (some [[.str ((Dict.get? σ "enable_nestloop").getD "on")]])
    else .fail false

def answer (prep : String) : Outcome :=
  (pgExecute pgServer (connect ⟨(), []⟩ false []) (.query prep "SHOW enable_nestloop") none false).2

example : answer "SET enable_nestloop TO 'off';" = .simple (.str "off") ∧
    answer "SET LOCAL enable_nestloop TO 'off';" = .simple (.str "on") := ⟨rfl, rfl⟩

/-! ## C180: failed calls -/

/-- **C180** (partial).  On Postgres, if the server rejects the query, an error is reported and nothing has changed.

Missing: commands that do not return rows (`C180_update_violated`); preparatory statements (their settings stay). -/
theorem C180_rejected_partial {D : Type} (S : Server D) (st : St D) (t : String) (e : Bool) (raw : Bool) (flag : Option Bool)
    (hc : Dict.get? st.cache t = none) (h : (runText S st.sess t).2 = .fail e) :
    pgExecute S st (.text t) flag raw = (st, .dbError e) := by
  have h1 : runText S st.sess t = (st.sess, .fail e) := by
    revert h
    unfold runText
    split <;> simp
  simp only [pgExecute, pgFetch]
  rw [no_hit _ st.cache t (fun _ => hc)]
  simp only [h1]

/-- Commands that count rows but do not return any, e.g. *UPDATE*, are executed, but an error is reported. -/
theorem C180_update_violated {D : Type} (S : Server D) (st : St D) (t u : String) (d : D) (n : Int) (hn : n ≥ 0)
    (hc : S.cmds t = [.sql u]) (ha : S.ans st.sess.data st.sess.settings u = .ok d n none) (raw : Bool) :
    pgExecute S st (.text t) (some false) raw = ({ st with sess := ⟨d, st.sess.settings⟩ }, .dbError false) := by
  have h1 : runText S st.sess t = (⟨d, st.sess.settings⟩, .ok n none) := by
    simp only [runText, hc, runCmds, ha]
  simp only [pgExecute, useCache, pgFetch, Bool.false_eq_true, if_false, h1, hn, if_true, Option.map_none]

example : counter.ans 3 [] "bump" = .ok 4 1 none := rfl

/-! ## C179: the cache file -/

mutual
/-- Values that survive in the file: no values that JSON does not know, and no dictionaries that look like dates. -/
def Storable (iso : String → Bool) : Val → Prop
  | .list vs => StorableL iso vs
  | .tup vs => StorableL iso vs
  | .dict vs => StorableD iso vs
  | .datetime s => iso s = true
  | .date s => iso s = true
  | .time s => iso s = true
  | .other _ => False
  | .null | .bool _ | .int _ | .float _ | .str _ | .delta _ => True
def StorableL (iso : String → Bool) : List Val → Prop
  | [] => True
  | v :: vs => Storable iso v ∧ StorableL iso vs
def StorableD (iso : String → Bool) : List (String × Val) → Prop
  | [] => True
  | (k, v) :: vs => k ∉ ["$datetime", "$date", "$time", "$timedelta"] ∧ Storable iso v ∧ StorableD iso vs
end

mutual
/-- The value with lists instead of tuples. -/
def asLists : Val → Val
  | .list vs => .list (asListsL vs)
  | .tup vs => .list (asListsL vs)
  | .dict vs => .dict (asListsD vs)
  | .null => .null
  | .bool b => .bool b
  | .int i => .int i
  | .float t => .float t
  | .str s => .str s
  | .datetime s => .datetime s
  | .date s => .date s
  | .time s => .time s
  | .delta s => .delta s
  | .other s => .other s
def asListsL : List Val → List Val
  | [] => []
  | v :: vs => asLists v :: asListsL vs
def asListsD : List (String × Val) → List (String × Val)
  | [] => []
  | (k, v) :: vs => (k, asLists v) :: asListsD vs
end

theorem member_none (k : String) (hk : k ∈ ["$datetime", "$date", "$time", "$timedelta"]) (iso : String → Bool)
    (vs : List (String × Val)) (h : StorableD iso vs) : member k (asListsD vs) = none := by
  induction vs with
  | nil => rfl
  | cons p vs ih =>
    obtain ⟨k', v⟩ := p
    simp only [StorableD] at h
    have := ih h.2.2
    unfold member at this ⊢
    simp only [asListsD]
    rw [List.find?_cons_of_neg]
    · exact this
    · simp only [beq_iff_eq]
      rintro rfl
      exact h.1 hk

mutual
theorem roundtrip (iso : String → Bool) (v : Val) (h : Storable iso v) :
    ∃ j, encode v = some j ∧ decode iso j = some (asLists v) := by
  cases v with
  | list vs =>
    obtain ⟨js, h1, h2⟩ := roundtripL iso vs (by simpa only [Storable] using h)
    exact ⟨.arr js, by simp [encode, h1], by simp [decode, h2, asLists]⟩
  | tup vs =>
    obtain ⟨js, h1, h2⟩ := roundtripL iso vs (by simpa only [Storable] using h)
    exact ⟨.arr js, by simp [encode, h1], by simp [decode, h2, asLists]⟩
  | dict vs =>
    have h := (by simpa only [Storable] using h : StorableD iso vs)
    obtain ⟨js, h1, h2⟩ := roundtripD iso vs h
    refine ⟨.obj js, by simp [encode, h1], ?_⟩
    simp only [decode, h2, Option.bind_some, objectHook, member_none "$datetime" (by simp) iso vs h,
      member_none "$date" (by simp) iso vs h, member_none "$time" (by simp) iso vs h,
      member_none "$timedelta" (by simp) iso vs h, asLists]
  | datetime s =>
    have h := (by simpa only [Storable] using h : iso s = true)
    exact ⟨_, by simp only [encode]; rfl, by
      simp [decode, decodeDict, objectHook, member, fromIso, h, asLists]⟩
  | date s =>
    have h := (by simpa only [Storable] using h : iso s = true)
    exact ⟨_, by simp only [encode]; rfl, by
      simp [decode, decodeDict, objectHook, member, fromIso, h, asLists]⟩
  | time s =>
    have h := (by simpa only [Storable] using h : iso s = true)
    exact ⟨_, by simp only [encode]; rfl, by
      simp [decode, decodeDict, objectHook, member, fromIso, h, asLists]⟩
  | delta s => exact ⟨_, by simp only [encode]; rfl, by
      simp [decode, decodeDict, objectHook, member, fromSeconds, asLists]⟩
  | other s => exact absurd h (by simp [Storable])
  | null => exact ⟨_, by simp only [encode]; rfl, by simp [decode, asLists]⟩
  | bool b => exact ⟨_, by simp only [encode]; rfl, by simp [decode, asLists]⟩
  | int b => exact ⟨_, by simp only [encode]; rfl, by simp [decode, asLists]⟩
  | float b => exact ⟨_, by simp only [encode]; rfl, by simp [decode, asLists]⟩
  | str b => exact ⟨_, by simp only [encode]; rfl, by simp [decode, asLists]⟩
theorem roundtripL (iso : String → Bool) (vs : List Val) (h : StorableL iso vs) :
    ∃ js, encodeList vs = some js ∧ decodeList iso js = some (asListsL vs) := by
  cases vs with
  | nil => exact ⟨[], by simp [encodeList], by simp [decodeList, asListsL]⟩
  | cons v vs =>
    simp only [StorableL] at h
    obtain ⟨j, h1, h2⟩ := roundtrip iso v h.1
    obtain ⟨js, h3, h4⟩ := roundtripL iso vs h.2
    exact ⟨j :: js, by simp [encodeList, h1, h3], by simp [decodeList, h2, h4, asListsL]⟩
theorem roundtripD (iso : String → Bool) (vs : List (String × Val)) (h : StorableD iso vs) :
    ∃ js, encodeDict vs = some js ∧ decodeDict iso js = some (asListsD vs) := by
  cases vs with
  | nil => exact ⟨[], by simp [encodeDict], by simp [decodeDict, asListsD]⟩
  | cons p vs =>
    obtain ⟨k, v⟩ := p
    simp only [StorableD] at h
    obtain ⟨j, h1, h2⟩ := roundtrip iso v h.2.1
    obtain ⟨js, h3, h4⟩ := roundtripD iso vs h.2.2
    exact ⟨(k, j) :: js, by simp [encodeDict, h1, h3], by simp [decodeDict, h2, h4, asListsD]⟩
end

/-- **C179** (partial).  A cache whose values can be stored is the same after it has been written to the file and read again,
except that tuples are lists.

Missing: tuples (`C179_tuple_violated`), other values (`C179_decimal_violated`) and dictionaries (`C179_dict_violated`). -/
theorem C179_roundtrip_partial (iso : String → Bool) (c : Cache) (h : Storable iso (cacheVal c)) :
    load iso (store c) = some (asLists (cacheVal c)) := by
  obtain ⟨j, h1, h2⟩ := roundtrip iso (cacheVal c) h
  simp only [store, h1, load, h2]

example : Storable (fun _ => true) (cacheVal [("SELECT 1", some [⟨false, [.int 1, .date "2024-01-01"]⟩]), ("SET x", none)]) := by
  simp [Storable, StorableD, StorableL, cacheVal, resVal, Row.val]

/-- Rows are not the same after they have been read again. -/
theorem C179_tuple_violated (iso : String → Bool) (t : String) (row : Row) (rows : List Row) (hr : row.isList = false)
    (h : Storable iso (cacheVal [(t, some (row :: rows))])) :
    load iso (store [(t, some (row :: rows))]) ≠ some (cacheVal [(t, some (row :: rows))]) := by
  rw [C179_roundtrip_partial iso _ h]
  simp [cacheVal, resVal, Row.val, hr, asLists, asListsD, asListsL]

/-- The value contains one that JSON does not know. -/
inductive Unknown : Val → Prop
  | here (s : String) : Unknown (.other s)
  | list {vs : List Val} {v : Val} : v ∈ vs → Unknown v → Unknown (.list vs)
  | tup {vs : List Val} {v : Val} : v ∈ vs → Unknown v → Unknown (.tup vs)
  | dict {vs : List (String × Val)} {k : String} {v : Val} : (k, v) ∈ vs → Unknown v → Unknown (.dict vs)

theorem encodeList_none {vs : List Val} {v : Val} (hv : v ∈ vs) (h : encode v = none) : encodeList vs = none := by
  induction vs with
  | nil => cases hv
  | cons w vs ih =>
    rcases List.mem_cons.mp hv with rfl | hv
    · simp [encodeList, h]
    · simp only [encodeList, ih hv]
      cases encode w <;> rfl

theorem encodeDict_none {vs : List (String × Val)} {k : String} {v : Val} (hv : (k, v) ∈ vs) (h : encode v = none) :
    encodeDict vs = none := by
  induction vs with
  | nil => cases hv
  | cons w vs ih =>
    obtain ⟨k', w⟩ := w
    rcases List.mem_cons.mp hv with e | hv
    · cases e; simp [encodeDict, h]
    · simp only [encodeDict, ih hv]
      cases encode w <;> rfl

theorem encode_unknown {v : Val} (h : Unknown v) : encode v = none := by
  induction h with
  | here s => simp [encode]
  | list hv _ ih => simp [encode, encodeList_none hv ih]
  | tup hv _ ih => simp [encode, encodeList_none hv ih]
  | dict hv _ ih => simp [encode, encodeDict_none hv ih]

/-- A single value that JSON does not know, e.g. a decimal number, destroys the whole cache. -/
theorem C179_decimal_violated (iso : String → Bool) (c : Cache) (t : String) (rows : List Row) (row : Row) (s : String)
    (hc : (t, some rows) ∈ c) (hr : row ∈ rows) (hs : .other s ∈ row.vals) : load iso (store c) = some (.dict []) := by
  have h : Unknown (cacheVal c) := by
    unfold cacheVal
    refine Unknown.dict (k := t) (v := resVal (some rows)) (List.mem_map.mpr ⟨_, hc, rfl⟩) ?_
    unfold resVal
    refine Unknown.list (v := row.val) (List.mem_map.mpr ⟨_, hr, rfl⟩) ?_
    unfold Row.val
    split
    · exact Unknown.list hs (Unknown.here s)
    · exact Unknown.tup hs (Unknown.here s)
  simp only [store, encode_unknown h, load]

/-- JSON values with a key `$date` become dates, or make it impossible to connect to the database with the cache. -/
theorem C179_dict_violated (iso : String → Bool) (t s : String) (ht : t ∉ ["$datetime", "$date", "$time", "$timedelta"]) :
    load iso (store [(t, some [⟨false, [.dict [("$date", .str s)]]⟩])]) =
      if iso s then some (.dict [(t, .list [.list [.date s]])]) else none := by
  simp only [List.mem_cons, List.not_mem_nil, or_false, not_or] at ht
  obtain ⟨h1, h2, h3, h4⟩ := ht
  have hk : ∀ k v, t ≠ k → member k [(t, v)] = none := by
    intro k v hk
    simp [member, hk]
  simp only [store, cacheVal, resVal, List.map_cons, List.map_nil, Row.val, Bool.false_eq_true, if_false, encode, encodeDict,
    encodeList, Option.map_some, load, decode, decodeDict, decodeList, Option.bind_some]
  by_cases hi : iso s = true
  · simp [objectHook, member, fromIso, hi, h1, h2, h3, h4]
  · simp [objectHook, member, fromIso, hi]

end PB.QExecProps
