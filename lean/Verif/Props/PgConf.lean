import Verif.Model.PgConf
import Mathlib.Data.List.Basic

/-!
# Configurations of Postgres: properties
-/

set_option linter.unusedSimpArgs false
set_option linter.unusedVariables false
set_option linter.unnecessarySimpa false
set_option linter.unnecessarySeqFocus false

namespace PB.PgConfProps

open PB.PgConf

/-! ## Specification -/

/-- A change of a configuration by name. -/
inductive Edit
  | add (p : Text) (v : Val) | addMany (l : List (Text × Val)) | remove (a : Arg) | update (p : Text) (v : Val)

/-- The values of settings that a user expects: what was assigned last. -/
abbrev Expected := Text → Option Val

/-- An assignment. -/
def assign (e : Expected) (p : Text) (v : Val) : Expected := fun q => if q = p then some v else e q

/-- Several assignments. -/
def assignAll : Expected → List (Text × Val) → Expected
  | e, [] => e
  | e, (p, v) :: l => assignAll (assign e p v) l

/-- The setting that is named by an argument. -/
def named : Arg → Text
  | .obj s => s.param
  | .name n => n

/-- The expected values after a change. -/
def expect (e : Expected) : Edit → Expected
  | .add p v => assign e p v
  | .update p v => assign e p v
  | .addMany l => assignAll e l
  | .remove a => fun q => if q = named a then none else e q

/-- A change. -/
def step (c : Config) : Edit → Option Config
  | .add p v => add c (some (.name p)) v []
  | .addMany l => add c none .none l
  | .remove a => remove c a
  | .update p v => update c (.name p) v

/-- A sequence of changes. -/
def steps : Config → List Edit → Option Config
  | c, [] => some c
  | c, e :: es => (step c e).bind fun c => steps c es

/-- The expected values after a sequence of changes. -/
def expectAll : Expected → List Edit → Expected
  | e, [] => e
  | e, x :: xs => expectAll (expect e x) xs

/-- How Postgres writes the value of a setting: switches are on or off. -/
def written : Val → Text
  | .text t => t
  | .none => lit "None"
  | .bool b => if b then lit "on" else lit "off"

/-- The configuration contains exactly the expected settings, each of them once, and its text is made up of one SET command per setting. -/
def Represents (c : Config) (e : Expected) : Prop :=
  ∃ l : List (Text × Val),
    (l.map Prod.fst).Nodup
    ∧ (∀ p v, (p, v) ∈ l ↔ e p = some v)
    ∧ (∀ p, c.entries.get? p = (e p).map fun v => .setting ⟨p, v⟩)
    ∧ c.text = join (lit "\n") (l.map fun x => lit "SET " ++ x.1 ++ lit " = '" ++ written x.2 ++ lit "';")

theorem show_written (v : Val) : v.show = written v := by
  cases v with
  | bool b => cases b <;> rfl
  | _ => rfl

/-! ## Lemmas -/

/-- A configuration with settings only, each stored at its name. -/
structure Good (c : Config) : Prop where
  wf : c.entries.WF
  ok : ∀ p x, (p, x) ∈ c.entries → ∃ v, x = .setting ⟨p, v⟩

theorem good_list (d : Dict Text Entry) (h : ∀ p x, (p, x) ∈ d → ∃ v, x = Entry.setting ⟨p, v⟩) :
    ∃ l : List (Text × Val), d = l.map fun e => (e.1, Entry.setting ⟨e.1, e.2⟩) := by
  induction d with
  | nil => exact ⟨[], rfl⟩
  | cons a d ih =>
    obtain ⟨p, x⟩ := a
    obtain ⟨l, rfl⟩ := ih (fun p x hx => h p x (List.mem_cons_of_mem _ hx))
    obtain ⟨v, rfl⟩ := h p x (by simp)
    exact ⟨(p, v) :: l, by simp⟩

theorem settingsOf_map (l : List (Text × Val)) :
    settingsOf (l.map fun e => Entry.setting ⟨e.1, e.2⟩) = some (l.map fun e => ⟨e.1, e.2⟩) := by
  induction l with
  | nil => rfl
  | cons a l ih => simp [settingsOf, ih]

theorem set_append_new {ν : Type} (d : Dict Text ν) (k : Text) (v : ν) (h : k ∉ d.keys) : d.set k v = d ++ [(k, v)] := by
  induction d with
  | nil => rfl
  | cons a d ih =>
    obtain ⟨k', v'⟩ := a
    simp only [Dict.keys_cons, List.mem_cons, not_or] at h
    have := ih h.2
    simp [Dict.set, Ne.symm h.1, h.1, this]

theorem foldl_set {ν : Type} (l : List (Text × ν)) :
    ∀ d : Dict Text ν, (d ++ l).WF → l.foldl (fun d e => d.set e.1 e.2) d = d ++ l := by
  induction l with
  | nil => intro d _; simp
  | cons a l ih =>
    intro d h
    have hk : a.1 ∉ d.keys := by
      intro hm
      have : (d ++ a :: l).keys.Nodup := h
      simp only [Dict.keys, List.map_append, List.map_cons] at this hm
      rw [List.nodup_append] at this
      exact this.2.2 _ hm _ (by simp) rfl
    have e : d ++ a :: l = (d ++ [(a.1, a.2)]) ++ l := by simp
    simp only [List.foldl_cons]
    rw [set_append_new d a.1 a.2 hk, ih _ (by rw [← e]; exact h), ← e]

theorem ofList_id {ν : Type} (d : Dict Text ν) (h : d.WF) : Dict.ofList d = d := by
  have := foldl_set d [] (by simpa using h)
  simpa [Dict.ofList] using this

theorem rebuild_good (d : Dict Text Entry) (wf : d.WF) (ok : ∀ p x, (p, x) ∈ d → ∃ v, x = Entry.setting ⟨p, v⟩) :
    rebuild d = some ⟨d⟩ := by
  obtain ⟨l, rfl⟩ := good_list d ok
  simp only [rebuild, Dict.values, List.map_map, Function.comp_def]
  rw [settingsOf_map]
  simp only [Option.map_some, Config.ofSettings, List.map_map, Function.comp_def]
  rw [ofList_id _ wf]

theorem mem_set {ν : Type} {d : Dict Text ν} (hd : d.WF) {k p : Text} {v x : ν} (h : (p, x) ∈ d.set k v) :
    (p = k ∧ x = v) ∨ (p, x) ∈ d := by
  have := Dict.get?_of_mem (Dict.WF_set hd k v) h
  rw [Dict.get?_set] at this
  split at this
  · rename_i hh
    left
    exact ⟨by first | exact hh | exact hh.symm, by simpa using this.symm⟩
  · right
    exact Dict.mem_of_get? this

/-- The invariant: the configuration is good, and its entries are the expected values. -/
def Inv (c : Config) (e : Expected) : Prop := Good c ∧ ∀ p, c.entries.get? p = (e p).map fun v => .setting ⟨p, v⟩

theorem good_set {d : Dict Text Entry} (h : Good ⟨d⟩) (p : Text) (v : Val) : Good ⟨d.set p (.setting ⟨p, v⟩)⟩ := by
  refine ⟨Dict.WF_set h.wf _ _, fun q x hx => ?_⟩
  rcases mem_set h.wf hx with ⟨rfl, rfl⟩ | hx
  · exact ⟨v, rfl⟩
  · exact h.ok q x hx

theorem inv_set {d : Dict Text Entry} {e : Expected} (h : Inv ⟨d⟩ e) (p : Text) (v : Val) :
    Inv ⟨d.set p (.setting ⟨p, v⟩)⟩ (assign e p v) := by
  refine ⟨good_set h.1 p v, fun q => ?_⟩
  simp only [assign]
  rw [Dict.get?_set]
  by_cases hq : q = p
  · subst hq; simp
  · simp [hq, Ne.symm hq]
    exact h.2 q

theorem inv_update (l : List (Text × Val)) : ∀ {d : Dict Text Entry} {e : Expected}, Inv ⟨d⟩ e →
    Inv ⟨d.update (l.map fun x => (x.1, .setting ⟨x.1, x.2⟩))⟩ (assignAll e l) := by
  induction l with
  | nil => intro d e h; exact h
  | cons a l ih =>
    intro d e h
    have := ih (inv_set h a.1 a.2)
    simpa [Dict.update, assignAll] using this

theorem rebuild_inv {d : Dict Text Entry} {e : Expected} (h : Inv ⟨d⟩ e) : rebuild d = some ⟨d⟩ := rebuild_good d h.1.wf h.1.ok

theorem inv_del {d : Dict Text Entry} {e : Expected} (h : Inv ⟨d⟩ e) (n : Text) :
    Inv ⟨d.del n⟩ (fun q => if q = n then none else e q) := by
  refine ⟨⟨Dict.WF_filter h.1.wf _, fun p x hx => h.1.ok p x (List.mem_of_mem_filter hx)⟩, fun p => ?_⟩
  have := Dict.get?_del d n p
  rw [this]
  by_cases hp : p = n
  · subst hp; simp
  · simp [hp, Ne.symm hp]
    exact h.2 p

theorem step_inv {c : Config} {e : Expected} (h : Inv c e) (x : Edit) : ∃ c', step c x = some c' ∧ Inv c' (expect e x) := by
  obtain ⟨d⟩ := c
  cases x with
  | add p v => exact ⟨_, rebuild_inv (inv_set h p v), inv_set h p v⟩
  | update p v => exact ⟨_, rebuild_inv (inv_set h p v), inv_set h p v⟩
  | addMany l => exact ⟨_, rebuild_inv (inv_update l h), inv_update l h⟩
  | remove a =>
    cases a with
    | obj s => exact ⟨_, rebuild_inv (inv_del h s.param), inv_del h s.param⟩
    | name n => exact ⟨_, rebuild_inv (inv_del h n), inv_del h n⟩

theorem steps_inv (es : List Edit) : ∀ {c : Config} {e : Expected}, Inv c e → ∃ c', steps c es = some c' ∧ Inv c' (expectAll e es) := by
  induction es with
  | nil => intro c e h; exact ⟨c, rfl, h⟩
  | cons x es ih =>
    intro c e h
    obtain ⟨c', h1, h2⟩ := step_inv h x
    obtain ⟨c'', h3, h4⟩ := ih h2
    exact ⟨c'', by simp [steps, h1, h3], h4⟩

theorem inv_represents {c : Config} {e : Expected} (h : Inv c e) : Represents c e := by
  obtain ⟨d⟩ := c
  obtain ⟨l, rfl⟩ := good_list d h.1.ok
  have wf := h.1.wf
  refine ⟨l, ?_, ?_, h.2, ?_⟩
  · simpa [Dict.WF, Dict.keys, Function.comp_def] using wf
  · intro p v
    have h2 := h.2 p
    have h3 := Dict.get?_iff_mem (v := Entry.setting ⟨p, v⟩) (k := p) wf
    rw [h2] at h3
    constructor
    · intro hm
      have : (e p).map (fun v => Entry.setting ⟨p, v⟩) = some (Entry.setting ⟨p, v⟩) := h3.mpr (by
        simp only [List.mem_map]; exact ⟨(p, v), hm, rfl⟩)
      cases he : e p with
      | none => simp [he] at this
      | some w => simp [he] at this; simp [this]
    · intro he
      have := h3.mp (by simp [he])
      simp only [List.mem_map] at this
      obtain ⟨⟨p', v'⟩, hm, heq⟩ := this
      simp at heq
      obtain ⟨rfl, rfl⟩ := heq
      exact hm
  · simp [Config.text, Dict.values, Entry.text, Setting.text, Function.comp_def, show_written]

theorem inv_load (args : List Setting) (kwargs : List (Text × Val)) :
    Inv (load args kwargs) (assignAll (assignAll (fun _ => none) (args.map fun s => (s.param, s.val))) kwargs) := by
  have h0 : Inv ⟨[]⟩ (fun _ => none) := ⟨⟨Dict.WF_nil, by simp⟩, fun p => by simp [Dict.get?]⟩
  have h1 := inv_update kwargs (inv_update (args.map fun s => (s.param, s.val)) h0)
  simpa [load, Config.ofSettings, Dict.ofList, Dict.update, List.foldl_append, Function.comp_def, List.map_map] using h1

/-! ## C207 -/

/-- C207 (partial). Every sequence of `add`, `remove` and `update` calls that name their settings works, and the resulting configuration contains exactly the values that were assigned last, and
its text sets each of them exactly once. Missing: `add` and `update` with `PostgresSetting` objects (`C207_objects_violated`) and item assignments (`C207_items_violated`). -/
theorem C207_history_partial (args : List Setting) (kwargs : List (Text × Val)) (es : List Edit) :
    ∃ c, steps (load args kwargs) es = some c
      ∧ Represents c (expectAll (assignAll (assignAll (fun _ => none) (args.map fun s => (s.param, s.val))) kwargs) es) := by
  obtain ⟨c, h1, h2⟩ := steps_inv es (inv_load args kwargs)
  exact ⟨c, h1, inv_represents h2⟩

/-- A history with an overwritten and a removed setting. -/
example : expectAll (assignAll (fun _ => none) [(lit "geqo", .bool true), (lit "jit", .bool false)]) [.add (lit "geqo") (.bool false), .remove (.name (lit "jit"))] (lit "geqo") = some (.bool false)
    ∧ expectAll (assignAll (fun _ => none) [(lit "geqo", .bool true), (lit "jit", .bool false)]) [.add (lit "geqo") (.bool false), .remove (.name (lit "jit"))] (lit "jit") = none := by
  decide +kernel

theorem text_ne_param (s : Setting) : s.text ≠ s.param := by
  intro h
  have := congrArg List.length h
  simp [Setting.text, lit] at this
  omega

/-- C207 is violated for `PostgresSetting` objects: neither `add` nor `update` change the setting; instead, they store a setting whose name is the entire SET command. For `add`, this is the case for
every configuration that has been created by names, and every setting (without an explicit value). -/
theorem C207_objects_violated (args : List Setting) (kwargs : List (Text × Val)) (es : List Edit) (c : Config) (h : steps (load args kwargs) es = some c) (s : Setting) (v : Val) :
    (∃ c', add c (some (.obj s)) v [] = some c'
      ∧ c'.entries.get? s.param = c.entries.get? s.param
      ∧ c'.entries.get? s.text = some (.setting ⟨s.text, v⟩))
    ∧ (∃ c', update c (.obj s) v = some c'
      ∧ c'.entries.get? s.param = c.entries.get? s.param
      ∧ c'.entries.get? s.text = some (.setting ⟨s.text, v⟩)) := by
  obtain ⟨c1, h1, h2⟩ := steps_inv es (inv_load args kwargs)
  rw [h] at h1
  obtain rfl := Option.some.inj h1
  obtain ⟨d⟩ := c
  have key := inv_set h2 s.text v
  have a1 : (d.set s.text (.setting ⟨s.text, v⟩)).get? s.param = d.get? s.param := by
    rw [Dict.get?_set]
    simp [text_ne_param s, Ne.symm (text_ne_param s)]
  have a2 : (d.set s.text (.setting ⟨s.text, v⟩)).get? s.text = some (.setting ⟨s.text, v⟩) := by
    rw [Dict.get?_set]; simp
  exact ⟨⟨_, rebuild_inv key, a1, a2⟩, ⟨_, rebuild_inv key, a1, a2⟩⟩

theorem settingsOf_raw (l : List Entry) (v : Val) (h : Entry.raw v ∈ l) : settingsOf l = none := by
  induction l with
  | nil => simp at h
  | cons a l ih =>
    cases a with
    | raw w => rfl
    | setting s =>
      simp at h
      simp [settingsOf, ih h]

theorem raw_mem_values {c : Config} (p : Text) (v : Val) {d : Dict Text Entry} (h : d.get? p = some (.raw v)) : Entry.raw v ∈ d.values := by
  exact List.mem_map.mpr ⟨(p, .raw v), Dict.mem_of_get? h, rfl⟩

/-- C207 is violated for item assignments: afterwards, the configuration cannot be extended, updated or applied anymore. -/
theorem C207_items_violated (c : Config) (p : Text) (v : Val) (q : Text) (hq : q ≠ p) (w : Val) (S : Server) (s : Session) :
    add (setItem c p v) (some (.name q)) w [] = none
    ∧ update (setItem c p v) (.name q) w = none
    ∧ remove (setItem c p v) (.name q) = none
    ∧ apply S (.config (setItem c p v)) s = (s, true) := by
  have h0 : (c.entries.set p (.raw v)).get? p = some (.raw v) := by rw [Dict.get?_set]; simp
  have h1 : ((c.entries.set p (.raw v)).set q (.setting ⟨q, w⟩)).get? p = some (.raw v) := by
    rw [Dict.get?_set]; simp [hq, Ne.symm hq, h0]
  have h2 : ((c.entries.set p (.raw v)).del q).get? p = some (.raw v) := by
    rw [Dict.get?_del]; simp [hq, Ne.symm hq, h0]
  refine ⟨?_, ?_, ?_, ?_⟩
  · simp [add, setItem, Arg.toSetting, rebuild, settingsOf_raw _ v (raw_mem_values (c := c) p v h1)]
  · simp [update, setItem, Arg.toSetting, rebuild, settingsOf_raw _ v (raw_mem_values (c := c) p v h1)]
  · simp [remove, setItem, rebuild, settingsOf_raw _ v (raw_mem_values (c := c) p v h2)]
  · simp [apply, setItem, settingsOf_raw _ v (raw_mem_values (c := c) p v h0)]

example : lit "geqo" ≠ lit "jit" := by decide +kernel

/-! ## C208 -/

theorem scanName_append (n r : Text) (h : ' ' ∉ n) : scanName (n ++ ' ' :: r) = some (n, r) := by
  induction n with
  | nil => rfl
  | cons c n ih =>
    simp only [List.mem_cons, not_or] at h
    have hc : c ≠ ' ' := fun e => h.1 e.symm
    rw [List.cons_append, scanName.eq_3 _ _ (by intro e; exact hc e), ih h.2]
    rfl

theorem scanVal_append (v r : Text) (h : '\'' ∉ v) : scanVal (v ++ '\'' :: ';' :: r) = some (v, ';' :: r) := by
  induction v with
  | nil => simp [scanVal]
  | cons c v ih =>
    simp only [List.mem_cons, not_or] at h
    have hc : c ≠ '\'' := fun e => h.1 e.symm
    rw [List.cons_append, scanVal.eq_4 _ _ (by intro _ e; exact absurd e hc) (by intro e; exact absurd e hc), ih h.2]
    rfl

theorem text_eq (s : Setting) (r : Text) :
    s.text ++ r = 'S' :: 'E' :: 'T' :: ' ' :: (s.param ++ ' ' :: '=' :: ' ' :: '\'' :: (s.val.show ++ '\'' :: ';' :: r)) := by
  have e1 : lit "SET " = ['S', 'E', 'T', ' '] := by decide +kernel
  have e2 : lit " = '" = [' ', '=', ' ', '\''] := by decide +kernel
  have e3 : lit "';" = ['\'', ';'] := by decide +kernel
  simp [Setting.text, e1, e2, e3]

theorem scanSet_text (s : Setting) (r : Text) (hp : ' ' ∉ s.param) (hv : '\'' ∉ s.val.show) :
    scanSet (s.text ++ r) = some (s.param, s.val.show, r) := by
  rw [text_eq]
  simp only [scanSet]
  rw [scanName_append _ _ hp]
  simp [scanVal_append _ _ hv]

theorem parse_join (l : List Setting) (h : ∀ s ∈ l, ' ' ∉ s.param ∧ '\'' ∉ s.val.show) :
    ∀ n, (join (lit "\n") (l.map Setting.text)).length ≤ n →
      parse n (join (lit "\n") (l.map Setting.text)) = some (l.map fun s => (s.param, s.val.show)) := by
  have enl : lit "\n" = ['\n'] := by decide +kernel
  rw [enl]
  induction l with
  | nil => intro n _; cases n <;> rfl
  | cons s l ih =>
    intro n hn
    have hs := h s (by simp)
    have key : ∀ (r : Text) (m : Nat), parse (m + 1) (s.text ++ r) = (parse m r).map ((s.param, s.val.show) :: ·) := by
      intro r m
      have := scanSet_text s r hs.1 hs.2
      rw [text_eq] at this ⊢
      rw [parse]
      simp [this]
    have hlen : s.text.length ≥ 2 := by
      have := congrArg List.length (text_eq s [])
      simp at this
      omega
    cases l with
    | nil =>
      simp only [List.map_cons, List.map_nil, join] at hn ⊢
      obtain ⟨m, rfl⟩ : ∃ m, n = m + 1 := ⟨n - 1, by omega⟩
      have := key [] m
      rw [List.append_nil] at this
      rw [this]
      cases m <;> simp [parse]
    | cons u us =>
      simp only [List.map_cons, join, List.append_assoc] at hn ⊢
      simp only [List.length_append, List.length_cons, List.length_nil] at hn
      obtain ⟨m, rfl⟩ : ∃ m, n = m + 2 := ⟨n - 2, by omega⟩
      rw [key _ (m + 1)]
      have ih' := ih (fun s hs => h s (List.mem_cons_of_mem _ hs)) m (by simp only [List.map_cons]; omega)
      simp only [List.map_cons] at ih'
      have : parse (m + 1) (['\n'] ++ join ['\n'] (u.text :: List.map Setting.text us)) = parse m (join ['\n'] (u.text :: List.map Setting.text us)) := by
        simp [parse]
      rw [this, ih']
      simp

theorem runAll_ok (S : Server) (l : List (Text × Text)) : ∀ s : Session, (l.map Prod.fst).Nodup → (∀ e ∈ l, S.normalize e.1 e.2 = some e.2) →
    ∃ s', runAll S l s = some s' ∧ (∀ e ∈ l, s' e.1 = e.2) ∧ ∀ p, p ∉ l.map Prod.fst → s' p = s p := by
  induction l with
  | nil => intro s _ _; exact ⟨s, rfl, by simp, by simp⟩
  | cons a l ih =>
    intro s hn hS
    obtain ⟨p, v⟩ := a
    simp only [List.map_cons, List.nodup_cons] at hn
    obtain ⟨s', h1, h2, h3⟩ := ih (fun q => if q = p then v else s q) hn.2 (fun e he => hS e (List.mem_cons_of_mem _ he))
    refine ⟨s', ?_, ?_, ?_⟩
    · have := hS (p, v) (by simp)
      simp only at this
      simp [runAll, this, h1]
    · intro e he
      rcases List.mem_cons.mp he with rfl | he
      · rw [h3 p hn.1]; simp
      · exact h2 e he
    · intro q hq
      simp only [List.map_cons, List.mem_cons, not_or] at hq
      rw [h3 q hq.2]
      simp [hq.1]

/-- The execution of a configuration whose names contain no spaces and whose values contain no quotes. -/
theorem execute_settings (S : Server) (l : List Setting) (hn : (l.map (·.param)).Nodup)
    (h : ∀ s ∈ l, ' ' ∉ s.param ∧ '\'' ∉ s.val.show) (hS : ∀ s ∈ l, S.normalize s.param s.val.show = some s.val.show) (s : Session) :
    ∃ s', execute S (Config.ofSettings l).text s = (s', false) ∧ (∀ x ∈ l, s' x.param = x.val.show) ∧ ∀ p, p ∉ l.map (·.param) → s' p = s p := by
  have e0 : (Config.ofSettings l).text = join (lit "\n") (l.map Setting.text) := by
    rw [Config.text, Config.ofSettings]
    simp only
    rw [ofList_id _ (by simpa [Dict.WF, Dict.keys, Function.comp_def] using hn)]
    simp [Dict.values, Function.comp_def, Entry.text]
  obtain ⟨s', h1, h2, h3⟩ := runAll_ok S (l.map fun s => (s.param, s.val.show)) s (by simpa [Function.comp_def] using hn)
    (by intro e he; obtain ⟨x, hx, rfl⟩ := List.mem_map.mp he; exact hS x hx)
  refine ⟨s', ?_, ?_, ?_⟩
  · rw [e0, execute, parse_join l h _ (Nat.le_refl _)]
    simp [h1]
  · intro x hx
    exact h2 _ (List.mem_map_of_mem hx)
  · intro p hp
    exact h3 p (by simpa [Function.comp_def] using hp)

/-- No name contains a space. -/
theorem runtime_no_space : ∀ p ∈ runtimeChangeable, ' ' ∉ p := by decide +kernel

theorem runtime_significant : ∀ p ∈ runtimeChangeable, p ∈ significant := by decide +kernel

/-- The settings of `current_configuration`. -/
theorem current_entries (names : List Text) (ro : Bool) (s : Session) :
    ∃ l : List Text, l.Nodup ∧ (∀ p, p ∈ l ↔ p ∈ names ∧ p ∈ (if ro then runtimeChangeable else significant))
      ∧ (current names ro s).entries = l.map fun p => (p, .setting ⟨p, .text (s p)⟩) := by
  have h := inv_load [] (Dict.ofList ((names.filter fun n => n ∈ (if ro then runtimeChangeable else significant)).map fun n => (n, Val.text (s n))))
  generalize hl : Dict.ofList ((names.filter fun n => n ∈ (if ro then runtimeChangeable else significant)).map fun n => (n, Val.text (s n))) = d at h
  have wf : d.WF := by rw [← hl]; exact Dict.WF_ofList _
  have hmem : ∀ p v, (p, v) ∈ d ↔ (p ∈ names ∧ p ∈ (if ro then runtimeChangeable else significant)) ∧ v = .text (s p) := by
    have gen : ∀ (l : List Text) (d0 : Dict Text Val), d0.WF → (∀ p v, (p, v) ∈ d0 → v = .text (s p)) →
        ((l.map fun n => (n, Val.text (s n))).foldl (fun d e => Dict.set d e.1 e.2) d0).WF
        ∧ ∀ p v, (p, v) ∈ (l.map fun n => (n, Val.text (s n))).foldl (fun d e => Dict.set d e.1 e.2) d0 ↔ ((p ∈ l ∨ p ∈ d0.keys) ∧ v = .text (s p)) := by
      intro l
      induction l with
      | nil =>
        intro d0 w0 h0
        refine ⟨w0, fun p v => ?_⟩
        simp only [List.map_nil, List.foldl_nil, List.not_mem_nil, false_or]
        constructor
        · intro hm; exact ⟨List.mem_map.mpr ⟨(p, v), hm, rfl⟩, h0 p v hm⟩
        · rintro ⟨hk, rfl⟩
          obtain ⟨⟨p', v'⟩, hm, rfl⟩ := List.mem_map.mp hk
          simp only at *
          rw [← h0 p' v' hm]; exact hm
      | cons a l ih =>
        intro d0 w0 h0
        simp only [List.map_cons, List.foldl_cons]
        obtain ⟨i1, i2⟩ := ih (d0.set a (.text (s a))) (Dict.WF_set w0 _ _) (by
          intro p v hm
          rcases mem_set w0 hm with ⟨rfl, rfl⟩ | hm
          · rfl
          · exact h0 p v hm)
        refine ⟨i1, fun p v => ?_⟩
        rw [i2 p v, Dict.mem_keys_set]
        simp only [List.mem_cons]
        tauto
    intro p v
    rw [← hl]
    have := (gen (names.filter fun n => n ∈ (if ro then runtimeChangeable else significant)) [] Dict.WF_nil (by simp)).2 p v
    rw [Dict.ofList, this]
    simp
  refine ⟨d.keys, wf, ?_, ?_⟩
  · intro p
    constructor
    · intro hk
      obtain ⟨⟨p', v'⟩, hm, rfl⟩ := List.mem_map.mp hk
      exact ((hmem p' v').mp hm).1
    · intro hk
      exact List.mem_map.mpr ⟨(p, .text (s p)), (hmem p _).mpr ⟨hk, rfl⟩, rfl⟩
  · rw [current, hl, load, Config.ofSettings]
    simp only [List.nil_append, List.map_map, Function.comp_def]
    rw [ofList_id _ (by simpa [Dict.WF, Dict.keys, Function.comp_def] using wf)]
    simp only [Dict.keys, List.map_map, Function.comp_def]
    apply List.map_congr_left
    rintro ⟨p, v⟩ hm
    simp [((hmem p v).mp hm).2]

/-- Applying the configuration of a session. -/
theorem apply_current (S : Server) (names : List Text) (ro : Bool) (s s' : Session)
    (hq : ∀ p ∈ runtimeChangeable, '\'' ∉ s p) (hS : ∀ p ∈ runtimeChangeable, p ∈ names → S.normalize p (s p) = some (s p)) :
    ∃ r, apply S (.config (current names ro s)) s' = (r, false)
      ∧ (∀ p ∈ runtimeChangeable, p ∈ names → r p = s p) ∧ ∀ p, ¬ (p ∈ runtimeChangeable ∧ p ∈ names) → r p = s' p := by
  obtain ⟨l, hn, hl, he⟩ := current_entries names ro s
  have hv : settingsOf (current names ro s).entries.values = some (l.map fun p => ⟨p, .text (s p)⟩) := by
    have := settingsOf_map (l.map fun p => (p, Val.text (s p)))
    rw [he]
    simpa [Dict.values, List.map_map, Function.comp_def] using this
  have hmem : ∀ p, p ∈ ((l.map fun p => (⟨p, .text (s p)⟩ : Setting)).filter fun x => x.param ∈ runtimeChangeable).map (·.param) ↔ p ∈ runtimeChangeable ∧ p ∈ names := by
    intro p
    simp only [List.mem_map, List.mem_filter]
    constructor
    · rintro ⟨x, ⟨⟨q, hq, rfl⟩, hr⟩, rfl⟩
      exact ⟨by simpa using hr, ((hl q).mp hq).1⟩
    · rintro ⟨h1, h2⟩
      refine ⟨⟨p, .text (s p)⟩, ⟨⟨p, (hl p).mpr ⟨h2, ?_⟩, rfl⟩, by simpa using h1⟩, rfl⟩
      cases ro
      · simpa using runtime_significant p h1
      · simpa using h1
  have hform : ∀ x ∈ (l.map fun p => (⟨p, .text (s p)⟩ : Setting)).filter (fun x => x.param ∈ runtimeChangeable), x.val = .text (s x.param) ∧ x.param ∈ runtimeChangeable ∧ x.param ∈ names := by
    intro x hx
    have hp := (hmem x.param).mp (List.mem_map_of_mem hx)
    obtain ⟨hx1, _⟩ := List.mem_filter.mp hx
    obtain ⟨q, _, rfl⟩ := List.mem_map.mp hx1
    exact ⟨rfl, hp⟩
  obtain ⟨r, h1, h2, h3⟩ := execute_settings S ((l.map fun p => (⟨p, .text (s p)⟩ : Setting)).filter fun x => x.param ∈ runtimeChangeable)
    (by
      have : (l.map fun p => (⟨p, .text (s p)⟩ : Setting)).map (·.param) = l := by simp [Function.comp_def]
      exact (List.Sublist.map Setting.param List.filter_sublist).nodup (by rw [this]; exact hn))
    (by
      intro x hx
      obtain ⟨a, b, _⟩ := hform x hx
      exact ⟨runtime_no_space _ b, by rw [a]; exact hq _ b⟩)
    (by
      intro x hx
      obtain ⟨a, b, c⟩ := hform x hx
      rw [a]; exact hS _ b c)
    s'
  refine ⟨r, ?_, ?_, ?_⟩
  · simp only [apply, hv]
    exact h1
  · intro p hp hm
    obtain ⟨x, hx, rfl⟩ := List.mem_map.mp ((hmem p).mpr ⟨hp, hm⟩)
    have := h2 x hx
    rw [this, (hform x hx).1]
    rfl
  · intro p hp
    exact h3 p (fun h => hp ((hmem p).mp h))

/-- C208 (partial). A saved configuration can be restored: however the settings of the session have been changed in the meantime, applying the configuration that has been obtained earlier restores
the value of each listed setting, and it does not touch any other settings. The server accepts the values that it reports, and those values do not contain any quotes. Missing: the settings that
are not listed although they should be (`C208_missing_violated`) and quotes (`C208_quotes_violated`). -/
theorem C208_restore_partial (S : Server) (names : List Text) (runtimeOnly : Bool) (saved now : Session)
    (hq : ∀ p ∈ runtimeChangeable, '\'' ∉ saved p) (hS : ∀ p ∈ runtimeChangeable, p ∈ names → S.normalize p (saved p) = some (saved p)) :
    (apply S (.config (current names runtimeOnly saved)) now).2 = false
    ∧ ∀ p, (apply S (.config (current names runtimeOnly saved)) now).1 p = if p ∈ runtimeChangeable ∧ p ∈ names then saved p else now p := by
  obtain ⟨r, h1, h2, h3⟩ := apply_current S names runtimeOnly saved now hq hS
  rw [h1]
  refine ⟨rfl, fun p => ?_⟩
  by_cases hp : p ∈ runtimeChangeable ∧ p ∈ names
  · simp [hp, h2 p hp.1 hp.2]
  · rw [if_neg hp]; exact h3 p hp

/-- A server that accepts all values. -/
def anyServer : Server := ⟨fun _ v => some v⟩

example : (∀ p ∈ runtimeChangeable, '\'' ∉ (fun _ => lit "on" : Session) p) ∧ (∀ p ∈ runtimeChangeable, p ∈ [lit "geqo"] → anyServer.normalize p (lit "on") = some (lit "on"))
    ∧ (lit "geqo" ∈ runtimeChangeable ∧ lit "geqo" ∈ [lit "geqo"]) := by
  refine ⟨?_, fun _ _ _ => rfl, by decide +kernel⟩
  intro p _
  have : '\'' ∉ lit "on" := by decide +kernel
  exact this

/-- C208 is violated for `recursive_worktable_factor`, a planner setting that can be changed at runtime: it is never part of the current configuration and it is never restored, for all servers and sessions.
Likewise, `autovacuum` is never part of the current configuration. The reason is a missing comma in the list of settings. -/
theorem C208_missing_violated (S : Server) (names : List Text) (runtimeOnly : Bool) (saved now : Session)
    (hq : ∀ p ∈ runtimeChangeable, '\'' ∉ saved p) (hS : ∀ p ∈ runtimeChangeable, p ∈ names → S.normalize p (saved p) = some (saved p)) :
    (apply S (.config (current names runtimeOnly saved)) now).1 (lit "recursive_worktable_factor") = now (lit "recursive_worktable_factor")
    ∧ (current names runtimeOnly saved).entries.get? (lit "recursive_worktable_factor") = none
    ∧ (current names runtimeOnly saved).entries.get? (lit "autovacuum") = none
    ∧ ∀ v, apply S (.setting ⟨lit "recursive_worktable_factor", v⟩) now = (now, false) := by
  have n1 : lit "recursive_worktable_factor" ∉ runtimeChangeable := by decide +kernel
  have n2 : lit "recursive_worktable_factor" ∉ significant := by decide +kernel
  have n3 : lit "autovacuum" ∉ runtimeChangeable := by decide +kernel
  have n4 : lit "autovacuum" ∉ significant := by decide +kernel
  obtain ⟨l, _, hl, he⟩ := current_entries names runtimeOnly saved
  have hk : ∀ p, p ∉ runtimeChangeable → p ∉ significant → (current names runtimeOnly saved).entries.get? p = none := by
    intro p h1 h2
    rw [Dict.get?_eq_none, he]
    simp only [Dict.keys, List.map_map, Function.comp_def, List.map_id']
    rw [hl p]
    rintro ⟨_, h⟩
    cases runtimeOnly
    · exact h2 (by simpa using h)
    · exact h1 (by simpa using h)
  refine ⟨?_, hk _ n1 n2, hk _ n3 n4, ?_⟩
  · rw [(C208_restore_partial S names runtimeOnly saved now hq hS).2, if_neg (fun h => n1 h.1)]
  · intro v
    simp [apply, n1]

/-- C208: the application of a configuration is atomic: if there is an error, no setting is changed at all. -/
theorem C208_atomic (S : Server) (c : Conf) (s : Session) (h : (apply S c s).2 = true) : (apply S c s).1 = s := by
  have key : ∀ t, (execute S t s).2 = true → (execute S t s).1 = s := by
    intro t ht
    rw [execute] at ht ⊢
    split <;> simp_all
  cases c with
  | setting x =>
    simp only [apply] at h ⊢
    split at h
    · simp at h
    · rename_i hx
      rw [if_neg hx]
      exact key _ h
  | text t => exact key t h
  | config c =>
    simp only [apply] at h ⊢
    cases hh : settingsOf c.entries.values with
    | none => rfl
    | some l =>
      simp only [hh] at h
      exact key _ h

/-- A server that rejects all values. -/
example : (apply ⟨fun _ _ => none⟩ (.setting ⟨lit "geqo", .bool false⟩) (fun _ => lit "on")).2 = true := by decide +kernel

/-- C208: settings that cannot be changed at runtime are skipped, and all others of the configuration are applied. For configurations that have been created by names, the values are those of
the configuration. -/
theorem C208_apply (S : Server) (args : List Setting) (now : Session)
    (hn : (args.map (·.param)).Nodup) (hq : ∀ s ∈ args, '\'' ∉ s.val.show)
    (hS : ∀ s ∈ args, s.param ∈ runtimeChangeable → S.normalize s.param s.val.show = some s.val.show) :
    (apply S (.config (load args [])) now).2 = false
    ∧ (∀ s ∈ args, s.param ∈ runtimeChangeable → (apply S (.config (load args [])) now).1 s.param = s.val.show)
    ∧ ∀ p, (p ∉ runtimeChangeable ∨ ∀ s ∈ args, s.param ≠ p) → (apply S (.config (load args [])) now).1 p = now p := by
  have hv : settingsOf (load args []).entries.values = some args := by
    rw [load, Config.ofSettings]
    simp only [List.map_nil, List.append_nil]
    rw [ofList_id _ (by simpa [Dict.WF, Dict.keys, Function.comp_def] using hn)]
    have := settingsOf_map (args.map fun s => (s.param, s.val))
    simpa [Dict.values, List.map_map, Function.comp_def] using this
  obtain ⟨r, h1, h2, h3⟩ := execute_settings S (args.filter fun x => x.param ∈ runtimeChangeable)
    ((List.Sublist.map Setting.param List.filter_sublist).nodup hn)
    (by
      intro x hx
      obtain ⟨a, b⟩ := List.mem_filter.mp hx
      exact ⟨runtime_no_space _ (by simpa using b), hq x a⟩)
    (by
      intro x hx
      obtain ⟨a, b⟩ := List.mem_filter.mp hx
      exact hS x a (by simpa using b))
    now
  have e : apply S (.config (load args [])) now = (r, false) := by
    simp only [apply, hv]
    exact h1
  rw [e]
  refine ⟨rfl, ?_, ?_⟩
  · intro s hs hr
    exact h2 s (List.mem_filter.mpr ⟨hs, by simpa using hr⟩)
  · intro p hp
    apply h3
    intro hm
    obtain ⟨x, hx, rfl⟩ := List.mem_map.mp hm
    obtain ⟨a, b⟩ := List.mem_filter.mp hx
    rcases hp with hp | hp
    · exact hp (by simpa using b)
    · exact hp x a rfl

example : (([⟨lit "geqo", .bool false⟩, ⟨lit "shared_buffers", .text (lit "8GB")⟩] : List Setting).map (·.param)).Nodup
    ∧ lit "geqo" ∈ runtimeChangeable ∧ lit "shared_buffers" ∉ runtimeChangeable := by decide +kernel

/-- C208: a single setting is skipped if it cannot be changed at runtime. Otherwise it gets the value that the server makes of it, all
other settings keep theirs, and there is an error exactly if the server rejects the value. -/
theorem C208_setting (S : Server) (x : Setting) (now : Session) (hq : '\'' ∉ x.val.show) :
    (x.param ∉ runtimeChangeable → apply S (.setting x) now = (now, false)) ∧
    (x.param ∈ runtimeChangeable →
      (S.normalize x.param x.val.show = none → apply S (.setting x) now = (now, true)) ∧
      ∀ v, S.normalize x.param x.val.show = some v →
        apply S (.setting x) now = (fun q => if q = x.param then v else now q, false)) := by
  refine ⟨fun h => by simp [apply, h], fun h => ?_⟩
  have hp := parse_join [x] (by
    intro y hy
    rw [List.mem_singleton.1 hy]
    exact ⟨runtime_no_space _ h, hq⟩)
  have hj : join (lit "\n") ([x].map Setting.text) = x.text := by simp [join]
  rw [hj] at hp
  have he : execute S x.text now = match runAll S [(x.param, x.val.show)] now with | none => (now, true) | some s' => (s', false) := by
    rw [execute, hp _ (Nat.le_refl _)]
    rfl
  constructor
  · intro hn
    simp [apply, h, he, runAll, hn]
  · intro v hv
    simp [apply, h, he, runAll, hv]

example : lit "geqo" ∈ runtimeChangeable ∧ '\'' ∉ (Val.bool false).show := by decide +kernel

/-- C208 is violated for values with quotes, because they are not escaped: a value that contains a doubled quote arrives as a different value, and no error is reported. -/
theorem C208_quotes_violated (now : Session) :
    (apply anyServer (.setting ⟨lit "plan_cache_mode", .text (lit "a''b")⟩) now).2 = false
    ∧ (apply anyServer (.setting ⟨lit "plan_cache_mode", .text (lit "a''b")⟩) now).1 (lit "plan_cache_mode") = lit "a'b" := by
  have h1 : lit "plan_cache_mode" ∈ runtimeChangeable := by decide +kernel
  have h2 : parse (Setting.text ⟨lit "plan_cache_mode", .text (lit "a''b")⟩).length (Setting.text ⟨lit "plan_cache_mode", .text (lit "a''b")⟩) = some [(lit "plan_cache_mode", lit "a'b")] := by
    decide +kernel
  simp [apply, h1, execute, h2, runAll, anyServer]

end PB.PgConfProps
