import Verif.Model.PgCtl
set_option linter.unusedVariables false
set_option linter.unusedSimpArgs false

namespace PB.PgCtlProps
open PB.PgCtl
open PB PB.Hints PB.QP

/-- The directories with a running server. -/
abbrev Servers := String → Bool

/-- What `pg_ctl` does for a directory: servers are started in valid directories (`valid`) unless they are running, and stopped if they are running. Its status is zero exactly for running servers, and never without a directory. -/
structure PgCtl (run : List String → Servers → Int × Servers) (valid : String → Bool) : Prop where
  startOk : ∀ d log w, valid d = true → w d = false → run (["pg_ctl", "-D", d] ++ log ++ ["start"]) w = (0, Function.update w d true)
  startErr : ∀ d log w, valid d = false ∨ w d = true → run (["pg_ctl", "-D", d] ++ log ++ ["start"]) w = (1, w)
  stopOk : ∀ d w, w d = true → run ["pg_ctl", "-D", d, "stop"] w = (0, Function.update w d false)
  stopErr : ∀ d w, w d = false → run ["pg_ctl", "-D", d, "stop"] w = (1, w)
  status : ∀ d w, run ["pg_ctl", "-D", d, "status"] w = (if w d then 0 else 3, w)
  noDir : ∀ w, run ["pg_ctl", "status"] w = (1, w)

/-- The directory of a call: the argument, or else the variable `PGDATA`. -/
def Chosen (env arg d : String) : Prop := d ≠ "" ∧ (d = arg ∨ (arg = "" ∧ d = env))

theorem chosen_eq {env arg d : String} (h : Chosen env arg d) : (if arg = "" then env else arg) = d := by
  obtain ⟨h0, rfl | ⟨rfl, rfl⟩⟩ := h
  · rw [if_neg h0]
  · rw [if_pos rfl]

/-- **C256 (partial).** A server is started in the requested directory (by default that of `PGDATA`), if it is valid and not running, and no other server changes; otherwise there is an error and nothing changes. (Missing: calls without a directory, see
`C256_missing_violated`.) -/
theorem C256_start_partial (s : Sys Servers) (valid : String → Bool) (hs : PgCtl s.run valid) (hp : s.onPath = true) (arg log d : String) (w : Servers) (hd : Chosen s.env arg d) :
    (valid (s.expand d) = true ∧ w (s.expand d) = false → start s arg log w = (true, Function.update w (s.expand d) true)) ∧
      (valid (s.expand d) = false ∨ w (s.expand d) = true → start s arg log w = (false, w)) := by
  constructor
  · rintro ⟨h1, h2⟩
    simp only [start, hp, chosen_eq hd, pathTruthy, hs.startOk _ _ w h1 h2]
    simp
  · intro h
    simp only [start, hp, chosen_eq hd, pathTruthy, hs.startErr _ _ w h]
    simp

/-- **C256 (partial).** A running server is stopped, and no other server changes. If it is not running, nothing changes and there is an error exactly if errors are requested. (Missing: calls without a directory, see `C256_missing_violated`.) -/
theorem C256_stop_partial (s : Sys Servers) (valid : String → Bool) (hs : PgCtl s.run valid) (hp : s.onPath = true) (arg d : String) (raise : Bool) (w : Servers) (hd : Chosen s.env arg d) :
    (w (s.expand d) = true → stop s arg raise w = (true, Function.update w (s.expand d) false)) ∧ (w (s.expand d) = false → stop s arg raise w = (!raise, w)) := by
  constructor
  · intro h
    simp only [stop, hp, chosen_eq hd, pathTruthy, hs.stopOk _ w h]
    simp
  · intro h
    simp only [stop, hp, chosen_eq hd, pathTruthy, hs.stopErr _ w h]
    simp

/-- **C256 (partial).** The check tells whether the server in the requested directory is running and changes nothing. (Missing: directories relative to a home directory, see `C256_home_violated`.) -/
theorem C256_running_partial (s : Sys Servers) (valid : String → Bool) (hs : PgCtl s.run valid) (hp : s.onPath = true) (arg d : String) (w : Servers) (hd : Chosen s.env arg d) (he : s.expand d = d) :
    isRunning s arg w = (some (w (s.expand d)), w) := by
  have hst := hs.status d w
  simp only [isRunning, hp, chosen_eq hd, he]
  rw [if_neg (by simp), if_neg hd.1]
  simp only [List.cons_append, List.nil_append, hst]
  cases w d <;> simp

/-- **C256.** Without a directory there is no running server. -/
theorem C256_nowhere (s : Sys Servers) (valid : String → Bool) (hs : PgCtl s.run valid) (hp : s.onPath = true) (he : s.env = "") (w : Servers) : isRunning s "" w = (some false, w) := by
  simp [isRunning, hp, he, hs.noDir w]

/-- **C256.** Without `pg_ctl` all calls fail and nothing changes. -/
theorem C256_path {W : Type} (s : Sys W) (hp : s.onPath = false) (arg log : String) (raise : Bool) (w : W) : start s arg log w = (false, w) ∧ stop s arg raise w = (false, w) ∧ isRunning s arg w = (none, w) := by
  simp [start, stop, isRunning, hp]

/-- **C256 (partial).** A server that was started is running until it is stopped. -/
theorem C256_cycle_partial (s : Sys Servers) (valid : String → Bool) (hs : PgCtl s.run valid) (hp : s.onPath = true) (arg log d : String) (raise : Bool) (w : Servers) (hd : Chosen s.env arg d) (he : s.expand d = d) (hv : valid d = true) (hn : w d = false) :
    (start s arg log w).1 = true ∧ (isRunning s arg (start s arg log w).2).1 = some true ∧ stop s arg raise (start s arg log w).2 = (true, w) ∧ (isRunning s arg (stop s arg raise (start s arg log w).2).2).1 = some false := by
  have h1 := (C256_start_partial s valid hs hp arg log d w hd).1 (by rw [he]; exact ⟨hv, hn⟩)
  rw [he] at h1
  have h2 := (C256_stop_partial s valid hs hp arg d raise (Function.update w d true) hd).1 (by rw [he]; simp)
  have hback : Function.update (Function.update w d true) d false = w := by rw [Function.update_idem, ← hn, Function.update_eq_self]
  rw [he, hback] at h2
  rw [h1]
  refine ⟨rfl, ?_, h2, ?_⟩
  · rw [C256_running_partial s valid hs hp arg d _ hd he, he]; simp
  · rw [h2, C256_running_partial s valid hs hp arg d _ hd he, he]; simp [hn]

/-- A system with this behaviour; `~/db` is in a home directory. -/
def sampleRun (valid : String → Bool) (c : List String) (w : Servers) : Int × Servers :=
  match c with
  | _ :: _ :: d :: rest => if rest.getLast? = some "start" then (if valid d && !w d then (0, Function.update w d true) else (1, w)) else if rest = ["stop"] then (if w d then (0, Function.update w d false) else (1, w)) else (if w d then 0 else 3, w)
  | _ => (1, w)

theorem sample_laws (valid : String → Bool) : PgCtl (sampleRun valid) valid where
  startOk d log w h1 h2 := by
    have : (log ++ ["start"]).getLast? = some "start" := by simp
    simp only [List.cons_append, List.nil_append, sampleRun, this, h1, h2]
    simp
  startErr d log w h := by
    have : (log ++ ["start"]).getLast? = some "start" := by simp
    simp only [List.cons_append, List.nil_append, sampleRun, this]
    rcases h with h | h <;> simp [h]
  stopOk d w h := by simp [sampleRun, h]
  stopErr d w h := by simp [sampleRun, h]
  status d w := by simp [sampleRun]
  noDir w := rfl

def sampleSys : Sys Servers := ⟨true, "/db", fun p => if p = "~/db" then "/home/u/db" else if p = "" then "." else p, sampleRun fun d => d != "/none"⟩

/-- The hypotheses are met. -/
example : PgCtl sampleSys.run (fun d => d != "/none") ∧ Chosen sampleSys.env "" "/db" ∧ Chosen sampleSys.env "/x" "/x" ∧ sampleSys.expand "/db" = "/db" :=
  ⟨sample_laws _, ⟨by decide +kernel, .inr ⟨rfl, rfl⟩⟩, ⟨by decide +kernel, .inl rfl⟩, by decide +kernel⟩

/-- **C256 (violated).** Servers in directories that are relative to a home directory are started, but the check reports that they are not running. -/
theorem C256_home_violated (s : Sys Servers) (valid : String → Bool) (hs : PgCtl s.run valid) (hp : s.onPath = true) (arg log d : String) (w : Servers) (hd : Chosen s.env arg d) (he : s.expand d ≠ d) (hv : valid (s.expand d) = true)
    (hn : w (s.expand d) = false) (hl : w d = false) : ∃ w', start s arg log w = (true, w') ∧ w' (s.expand d) = true ∧ isRunning s arg w' = (some false, w') := by
  refine ⟨_, (C256_start_partial s valid hs hp arg log d w hd).1 ⟨hv, hn⟩, by simp, ?_⟩
  have hst := hs.status d (Function.update w (s.expand d) true)
  simp only [isRunning, hp, chosen_eq hd]
  rw [if_neg (by simp), if_neg hd.1]
  simp only [List.cons_append, List.nil_append, hst, Function.update_of_ne (Ne.symm he), hl]
  simp

/-- The hypotheses are met. -/
example : Chosen sampleSys.env "~/db" "~/db" ∧ sampleSys.expand "~/db" ≠ "~/db" := ⟨⟨by decide +kernel, .inl rfl⟩, by decide +kernel⟩

/-- **C256 (violated).** Without a directory there should be an error, but the server in the current directory is started or stopped. -/
theorem C256_missing_violated (s : Sys Servers) (valid : String → Bool) (hs : PgCtl s.run valid) (hp : s.onPath = true) (he : s.env = "") (hdot : s.expand "" = ".") (hv : valid "." = true) (log : String) (raise : Bool) (w : Servers) :
    (w "." = false → start s "" log w = (true, Function.update w "." true)) ∧ (w "." = true → stop s "" raise w = (true, Function.update w "." false)) := by
  constructor
  · intro h
    simp only [start, hp, he, pathTruthy, hdot, ite_self, hs.startOk _ _ w hv h]
    simp
  · intro h
    simp only [stop, hp, he, pathTruthy, hdot, ite_self, hs.stopOk _ w h]
    simp

/-- The hypotheses are met. -/
example : sampleSys.expand "" = "." := by decide +kernel

/-- The last call for an operator in a sequence of calls. -/
def LastCall (cs : List (PhysOp × Bool)) (op : PhysOp) (b : Bool) : Prop := ∃ p q, cs = p ++ (op, b) :: q ∧ ∀ c ∈ q, c.1 ≠ op

/-- The settings of Postgres (see its documentation): all operators but index nested-loop joins can be switched. -/
def settingOf : PhysOp → Option String
  | .join .nlj => some "enable_nestloop"
  | .join .hash => some "enable_hashjoin"
  | .join .merge => some "enable_mergejoin"
  | .join .indexNlj => none
  | .scan .seqScan => some "enable_seqscan"
  | .scan .idxScan => some "enable_indexscan"
  | .scan .idxOnlyScan => some "enable_indexonlyscan"
  | .scan .bitmapScan => some "enable_bitmapscan"
  | .inter .memoize => some "enable_memoize"
  | .inter .materialize => some "enable_material"
  | .inter .sort => some "enable_sort"

theorem setting_eq (op : PhysOp) : DbHints.pgSetting op = settingOf op := by
  rcases op with o | o | o <;> cases o <;> rfl

theorem setting_inj (a b : PhysOp) (n : String) (ha : settingOf a = some n) (hb : settingOf b = some n) : a = b := by
  rw [← ha] at hb
  rcases a with a | a | a <;> rcases b with b | b | b <;> cases a <;> cases b <;> first | rfl | (exfalso; revert hb ha; simp [settingOf])

theorem configure_eq (s : Session) (op : PhysOp) (b : Bool) (n : String) (h : settingOf op = some n) : configure s op b = some fun m => if m = n then some (if b then "on" else "off") else s m := by
  simp only [configure, setting_eq, h]

theorem configureAll_append (p q : List (PhysOp × Bool)) : ∀ s, configureAll s (p ++ q) = configureAll (configureAll s p) q := by
  induction p with
  | nil => intro s; rfl
  | cons c p ih => intro s; exact ih _

theorem configure_other (op : PhysOp) (n : String) (h : settingOf op = some n) : ∀ (q : List (PhysOp × Bool)) (s : Session), (∀ c ∈ q, c.1 ≠ op) → configureAll s q n = s n
  | [], s, _ => rfl
  | c :: q, s, hq => by
    simp only [configureAll]
    rw [configure_other op n h q _ fun c hc => hq c (by simp [hc])]
    rcases hc : settingOf c.1 with _ | m
    · simp [configure, setting_eq, hc]
    · rw [configure_eq s c.1 c.2 m hc]
      have : n ≠ m := fun hnm => hq c (by simp) (setting_inj _ _ n (hnm ▸ hc) h)
      simp [this]

/-- **C257.** After any sequence of calls, each operator that Postgres can switch is on or off as requested by its last call, and all other settings are as before. Other operators are errors. -/
theorem C257_configure (s : Session) (cs : List (PhysOp × Bool)) :
    (∀ op b n, settingOf op = some n → LastCall cs op b → configureAll s cs n = some (if b then "on" else "off")) ∧ (∀ n, (∀ c ∈ cs, settingOf c.1 ≠ some n) → configureAll s cs n = s n) ∧
      ∀ op b, configure s op b = none ↔ op = .join .indexNlj := by
  refine ⟨?_, ?_, ?_⟩
  · rintro op b n h ⟨p, q, rfl, hq⟩
    rw [configureAll_append]
    simp only [configureAll]
    rw [configure_other op n h q _ hq, configure_eq _ _ _ n h]
    simp
  · intro n
    induction cs generalizing s with
    | nil => intro _; rfl
    | cons c cs ih =>
      intro h
      simp only [configureAll]
      rw [ih _ fun c hc => h c (by simp [hc])]
      rcases hc : settingOf c.1 with _ | m
      · simp [configure, setting_eq, hc]
      · rw [configure_eq s c.1 c.2 m hc]
        have : n ≠ m := fun hnm => h c (by simp) (hnm ▸ hc)
        simp [this]
  · intro op b
    rcases op with o | o | o <;> cases o <;> simp [configure, DbHints.pgSetting]

/-- The hypotheses are met. -/
example : LastCall [(.join .hash, true), (.scan .seqScan, true), (.join .hash, false)] (.join .hash) false := ⟨[(.join .hash, true), (.scan .seqScan, true)], [], rfl, by simp⟩

/-- **C258 (partial).** Parsed queries are executed with all hints that are given, and as they are if there are none. (Missing: texts, see `C258_text_violated`.) -/
theorem C258_hints_partial {Q P J O R : Type} (hint : Q → Option P → Option J → Option O → Option R → Q) (q : Q) (plan : Option P) (order : Option J) (ops : Option O) (params : Option R) :
    (plan = none ∧ order = none ∧ ops = none ∧ params = none → applyHints hint (.parsed q) plan order ops params = .parsed q) ∧
      (¬ (plan = none ∧ order = none ∧ ops = none ∧ params = none) → applyHints hint (.parsed q) plan order ops params = .parsed (hint q plan order ops params)) := by
  cases plan <;> cases order <;> cases ops <;> cases params <;> simp [applyHints]

/-- Both cases occur. -/
example : ((some 1 : Option Nat) ≠ none) := by simp

/-- **C258 (violated).** Hints for queries that are given as a text are ignored. -/
theorem C258_text_violated {Q P J O R : Type} (hint : Q → Option P → Option J → Option O → Option R → Q) (t : String) (plan : Option P) (order : Option J) (ops : Option O) (params : Option R) :
    applyHints hint (.text t) plan order ops params = .text t := rfl

/-- A key in any case: each letter is the upper or lower one. -/
def AnyCase : List (Char × Char) → List Char → Prop
  | [], k => k = []
  | (u, l) :: ps, k => ∃ c k', k = c :: k' ∧ (c = u ∨ c = l) ∧ AnyCase ps k'

theorem upper_iff (u l : Char) (hu : u.toUpper = u) (e : l.val + ('A'.val - 'a'.val) = u.val) (hl : l.toUpper = u) (c : Char) : c.toUpper = u ↔ c = u ∨ c = l := by
  constructor
  · intro h
    unfold Char.toUpper at h
    split at h
    · right
      have := congrArg Char.val h
      simp only at this
      apply Char.ext
      rw [← e] at this
      exact (UInt32.add_left_inj _).1 this
    · exact .inl h
  · rintro (rfl | rfl)
    · exact hu
    · exact hl

theorem ues_iff (k : List Char) : k.map Char.toUpper = ['U', 'E', 'S'] ↔ AnyCase [('U', 'u'), ('E', 'e'), ('S', 's')] k := by
  have hU := upper_iff 'U' 'u' (by decide) (by decide) (by decide)
  have hE := upper_iff 'E' 'e' (by decide) (by decide) (by decide)
  have hS := upper_iff 'S' 's' (by decide) (by decide) (by decide)
  constructor
  · intro h
    rcases k with _ | ⟨a, _ | ⟨b, _ | ⟨c, _ | ⟨d, k⟩⟩⟩⟩ <;> simp only [List.map_cons, List.map_nil, List.cons.injEq, reduceCtorEq, and_false, and_true] at h
    exact ⟨a, [b, c], rfl, (hU a).1 h.1, b, [c], rfl, (hE b).1 h.2.1, c, [], rfl, (hS c).1 h.2.2, rfl⟩
  · rintro ⟨a, k1, rfl, ha, b, k2, rfl, hb, c, k3, rfl, hc, hk⟩
    have hk : k3 = [] := hk
    subst hk
    simp only [List.map_cons, List.map_nil, (hU a).2 ha, (hE b).2 hb, (hS c).2 hc]

/-- **C259 (partial).** The settings of UES are found exactly under the key `ues` in any case, and those of the native optimizer under `native` in lower case. (Missing: the latter in other cases, see `C259_native_violated`.) -/
theorem C259_fetch_partial (k : List Char) : (fetch k = some .ues ↔ AnyCase [('U', 'u'), ('E', 'e'), ('S', 's')] k) ∧ (fetch k = some .native ↔ k = "native".toList) := by
  have hn : "native".toList = ['n', 'a', 't', 'i', 'v', 'e'] := by decide +kernel
  rw [← ues_iff, hn]
  unfold fetch
  constructor
  · split_ifs with h1 h2 <;> simp [h1]
  · split_ifs with h1 h2
    · simp only [reduceCtorEq, Option.some.injEq, false_iff]
      rintro rfl
      simp at h1
    · simp [h2]
    · simp [h2]

/-- Both cases occur. -/
example : fetch "Ues".toList = some .ues ∧ fetch "native".toList = some .native ∧ fetch "nativ".toList = none := by decide +kernel

/-- **C259 (violated).** The key of the native optimizer in any other case is an error. -/
theorem C259_native_violated (k : List Char) (h : AnyCase [('N', 'n'), ('A', 'a'), ('T', 't'), ('I', 'i'), ('V', 'v'), ('E', 'e')] k) (hk : k ≠ "native".toList) : fetch k = none := by
  have hn : "native".toList = ['n', 'a', 't', 'i', 'v', 'e'] := by decide +kernel
  rw [hn] at hk
  unfold fetch
  rw [if_neg, if_neg hk]
  intro hu
  have hl := congrArg List.length hu
  obtain ⟨a, _, rfl, -, b, _, rfl, -, c, _, rfl, -, d, k, rfl, -⟩ := h
  simp at hl

/-- The hypotheses are met. -/
example : AnyCase [('N', 'n'), ('A', 'a'), ('T', 't'), ('I', 'i'), ('V', 'v'), ('E', 'e')] "Native".toList ∧ "Native".toList ≠ "native".toList := by
  refine ⟨?_, by decide +kernel⟩
  have : "Native".toList = ['N', 'a', 't', 'i', 'v', 'e'] := by decide +kernel
  rw [this]
  simp [AnyCase]

end PB.PgCtlProps
