import Verif.Model.Conn
import Mathlib.Data.List.Nodup

/-! # C266: the life of the connections of a database interface -/

namespace PB.ConnProps
open PB.Conn

/-! ## Vocabulary -/

/-- The session with this number is open on the server. -/
def Open (s : St) (i : Nat) : Prop := ∃ x ∈ s.sessions, x.id = i

/-- Numbers of sessions are used once, and those that are still to come are free. -/
structure Sound (s : St) : Prop where
  fresh : ∀ x ∈ s.sessions, x.id < s.next
  nodup : (s.sessions.map Sess.id).Nodup
  main : s.main < s.next
  wd : ∀ w, s.wd = some w → w < s.next ∧ w ≠ s.main
  /-- the two sessions of the interface were not opened for somebody else -/
  mainKind : ∀ x ∈ s.sessions, x.id = s.main → x.kind = .main
  wdKind : ∀ x ∈ s.sessions, s.wd = some x.id → x.kind = .watchdog

/-- Every session that was opened for the interface is one that it still uses. -/
def NoLeak (s : St) : Prop :=
  ∀ x ∈ s.sessions, (x.kind = .main → x.id = s.main) ∧ (x.kind = .watchdog → s.wd = some x.id)

/-- Tearing down a connection works in this step. -/
def Calm : Op → Prop
  | .reset f | .reconnect f => f.wdClose = false ∧ f.cancel = false ∧ f.curClose = false ∧ f.conClose = false
  | _ => True

/-! ## Lemmas -/

theorem alive_iff (s : St) (i : Nat) : s.alive i = true ↔ Open s i := by
  simp [St.alive, Open]

theorem sound_kill {s : St} (h : Sound s) (i : Nat) : Sound (s.kill i) := by
  constructor
  · intro x hx; exact h.fresh x (List.mem_of_mem_filter hx)
  · exact (List.filter_sublist.map _).nodup h.nodup
  · exact h.main
  · exact h.wd
  · intro x hx; exact h.mainKind x (List.mem_of_mem_filter hx)
  · intro x hx; exact h.wdKind x (List.mem_of_mem_filter hx)

theorem sound_bad {s : St} (h : Sound s) (b : Bool) : Sound { s with bad := b } :=
  ⟨h.fresh, h.nodup, h.main, h.wd, h.mainKind, h.wdKind⟩

theorem sound_wd_none {s : St} (h : Sound s) : Sound { s with wd := none } :=
  ⟨h.fresh, h.nodup, h.main, by simp, h.mainKind, by simp⟩

theorem nodup_snoc {s : St} (h : Sound s) (k : Kind) :
    ((s.sessions ++ [({ id := s.next, kind := k } : Sess)]).map Sess.id).Nodup := by
  rw [List.map_append, List.nodup_append]
  refine ⟨h.nodup, by simp, ?_⟩
  intro a ha b hb
  obtain ⟨x, hx, rfl⟩ := List.mem_map.mp ha
  have := h.fresh x hx
  simp at hb; omega

theorem fresh_snoc {s : St} (h : Sound s) (k : Kind) :
    ∀ x ∈ s.sessions ++ [{ id := s.next, kind := k }], x.id < s.next + 1 := by
  intro x hx
  rcases List.mem_append.mp hx with hx | hx
  · have := h.fresh x hx; omega
  · simp at hx; subst hx; simp

theorem sound_init {s : St} (h : Sound s) (b : Bool) : Sound (s.init b).1 := by
  unfold St.init
  split
  · exact h
  · refine ⟨fresh_snoc h _, nodup_snoc h _, by simp [St.connect], ?_, ?_, ?_⟩
    · intro w hw
      have := h.wd w hw
      simp [St.connect]; omega
    · intro x hx hid
      rcases List.mem_append.mp hx with hx | hx
      · have := h.fresh x hx; simp [St.connect] at hid; omega
      · simp at hx; subst hx; rfl
    · intro x hx hid
      rcases List.mem_append.mp hx with hx | hx
      · exact h.wdKind x hx hid
      · simp at hx; subst hx
        have := h.wd _ hid; simp at this

theorem sound_closeWd {s t : St} (h : Sound s) {b : Bool} (e : s.closeWd b = some t) : Sound t := by
  unfold St.closeWd at e
  split at e
  · cases e; exact h
  · split at e
    · cases e
    · cases e; exact sound_wd_none (sound_kill h _)

theorem sound_closeMain {s : St} (h : Sound s) : Sound s.closeMain := sound_bad (sound_kill h _) true

theorem sound_teardown {s : St} (h : Sound s) (f : Faults) : Sound (s.teardown f) := by
  unfold St.teardown
  split
  · exact h
  · rename_i s1 e
    split
    · exact sound_closeWd h e
    · exact sound_closeMain (sound_closeWd h e)

theorem sound_reset {s : St} (h : Sound s) (f : Faults) : Sound (s.reset f).1 := sound_init (sound_teardown h f) _

theorem sound_exec {s : St} (h : Sound s) : Sound s.exec.1 := by
  unfold St.exec; split
  · exact h
  · exact sound_bad h true

theorem sound_initWd {s : St} (h : Sound s) (b : Bool) : Sound (s.initWd b).1 := by
  unfold St.initWd
  split
  · exact h
  · rename_i hn
    split
    · exact h
    · refine ⟨fresh_snoc h _, nodup_snoc h _, ?_, ?_, ?_, ?_⟩
      · have := h.main; simp [St.connect]; omega
      · intro w hw
        have := h.main
        simp [St.connect] at hw ⊢; omega
      · intro x hx hid
        rcases List.mem_append.mp hx with hx | hx
        · exact h.mainKind x hx hid
        · simp at hx; subst hx
          have := h.main; simp [St.connect] at hid; omega
      · intro x hx hid
        rcases List.mem_append.mp hx with hx | hx
        · have := h.fresh x hx; simp [St.connect] at hid; omega
        · simp at hx; subst hx; rfl

theorem sound_set {s : St} (h : Sound s) (k v : String) : Sound (s.set k v).1 := by
  unfold St.set; split
  · have hid : ∀ x : Sess, (if x.id = s.main then { x with cfg := (k, v) :: x.cfg } else x).id = x.id := by
      intro x; split <;> rfl
    have hkind : ∀ x : Sess, (if x.id = s.main then { x with cfg := (k, v) :: x.cfg } else x).kind = x.kind := by
      intro x; split <;> rfl
    constructor
    · intro x hx
      obtain ⟨y, hy, rfl⟩ := List.mem_map.mp hx
      rw [hid]; exact h.fresh y hy
    · have : (s.sessions.map fun x => if x.id = s.main then { x with cfg := (k, v) :: x.cfg } else x).map Sess.id
          = s.sessions.map Sess.id := by
        rw [List.map_map]; exact List.map_congr_left fun x _ => hid x
      show (List.map Sess.id _).Nodup
      rw [this]; exact h.nodup
    · exact h.main
    · exact h.wd
    · intro x hx
      obtain ⟨y, hy, rfl⟩ := List.mem_map.mp hx
      rw [hid, hkind]; exact h.mainKind y hy
    · intro x hx
      obtain ⟨y, hy, rfl⟩ := List.mem_map.mp hx
      rw [hid, hkind]; exact h.wdKind y hy
  · exact sound_bad h true

theorem sound_local {s : St} (h : Sound s) (f : Faults) : Sound (s.local f).1 := by
  unfold St.local; split
  · exact h
  · refine ⟨fresh_snoc h _, nodup_snoc h _, ?_, ?_, ?_, ?_⟩
    · have := h.main; simp [St.connect]; omega
    · intro w hw
      have := h.wd w hw
      simp [St.connect]; omega
    · intro x hx hid
      rcases List.mem_append.mp hx with hx | hx
      · exact h.mainKind x hx hid
      · simp at hx; subst hx
        have := h.main; simp [St.connect] at hid; omega
    · intro x hx hid
      rcases List.mem_append.mp hx with hx | hx
      · exact h.wdKind x hx hid
      · simp at hx; subst hx
        have := h.wd _ hid; simp at this

theorem sound_timed {s : St} (h : Sound s) (f : Faults) : Sound (s.timed f).1 := by
  unfold St.timed
  have := sound_initWd h f.connect
  split
  · rename_i e; rw [e] at this; exact this
  · rename_i e; rw [e] at this; exact sound_exec this

theorem sound_close {s : St} (h : Sound s) (f : Faults) : Sound (s.close f).1 := by
  unfold St.close; split
  · exact h
  · simp only
    split
    · exact sound_closeMain h
    · rename_i e; exact sound_closeWd (sound_closeMain h) e

theorem sound_step {s : St} (h : Sound s) (o : Op) : Sound (step s o) := by
  cases o with
  | exec => exact sound_exec h
  | set k v => exact sound_set h k v
  | timed f => exact sound_timed h f
  | «local» f => exact sound_local h f
  | reset f => exact sound_reset h f
  | close f => exact sound_close h f
  | reconnect f =>
    show Sound (s.reconnect f).1
    unfold St.reconnect; split
    · exact sound_reset h f
    · exact h
  | drop i => exact sound_kill h i

theorem sound_run {s : St} (h : Sound s) (ops : List Op) : Sound (run s ops) := by
  induction ops generalizing s with
  | nil => exact h
  | cons o os ih => exact ih (sound_step h o)

theorem sound_create (n : Nat) (others : List Sess) (hf : ∀ x ∈ others, x.id < n) (hn : (others.map Sess.id).Nodup) :
    Sound (create n others) := by
  refine ⟨?_, ?_, by simp [create, St.init, St.connect], by simp [create, St.init, St.connect], ?_,
    by simp [create, St.init, St.connect]⟩
  · intro x hx
    have hx : x ∈ others ++ [{ id := n, kind := .main }] := hx
    show x.id < n + 1
    rcases List.mem_append.mp hx with hx | hx
    · have := hf x hx; omega
    · simp at hx; subst hx; simp
  · show ((others ++ [({ id := n, kind := .main } : Sess)]).map Sess.id).Nodup
    rw [List.map_append, List.nodup_append]
    refine ⟨hn, by simp, ?_⟩
    intro a ha b hb
    obtain ⟨x, hx, rfl⟩ := List.mem_map.mp ha
    have := hf x hx
    simp at hb; omega
  · intro x hx hid
    have hx : x ∈ others ++ [{ id := n, kind := .main }] := hx
    have hid : x.id = n := hid
    rcases List.mem_append.mp hx with hx | hx
    · have := hf x hx; omega
    · simp at hx; subst hx; rfl

/-! ## Leaks -/

theorem noLeak_sub {s t : St} (h : NoLeak s) (hs : ∀ x ∈ t.sessions, x ∈ s.sessions) (hm : t.main = s.main) (hw : t.wd = s.wd) :
    NoLeak t := by
  intro x hx
  rw [hm, hw]; exact h x (hs x hx)

theorem noLeak_exec {s : St} (h : NoLeak s) : NoLeak s.exec.1 := by
  unfold St.exec; split
  · exact h
  · exact noLeak_sub h (fun _ hx => hx) rfl rfl

theorem noLeak_closeWd {s t : St} (h : NoLeak s) {b : Bool} (e : s.closeWd b = some t) :
    NoLeak t ∧ t.main = s.main ∧ t.wd = none := by
  unfold St.closeWd at e
  split at e
  · rename_i hw; cases e; exact ⟨h, rfl, hw⟩
  · rename_i w hw
    split at e
    · cases e
    · cases e
      refine ⟨?_, rfl, rfl⟩
      intro x hx
      have hx2 := List.mem_filter.mp hx
      refine ⟨(h x hx2.1).1, fun hk => ?_⟩
      have := (h x hx2.1).2 hk
      rw [hw] at this; cases this
      simp at hx2

theorem closeMain_none {s : St} (h : NoLeak s) : ∀ x ∈ s.closeMain.sessions, x.kind ≠ .main := by
  intro x hx hk
  have hx2 := List.mem_filter.mp hx
  have := (h x hx2.1).1 hk
  simp [this] at hx2

theorem noLeak_init {s : St} (h : NoLeak s) (hm : ∀ x ∈ s.sessions, x.kind ≠ .main) (b : Bool) : NoLeak (s.init b).1 := by
  unfold St.init; split
  · exact h
  · intro x hx
    rcases List.mem_append.mp hx with hx | hx
    · exact ⟨fun hk => absurd hk (hm x hx), (h x hx).2⟩
    · simp at hx; subst hx; simp [St.connect]

theorem noLeak_reset {s : St} (h : NoLeak s) {f : Faults}
    (hf : f.wdClose = false ∧ f.cancel = false ∧ f.curClose = false ∧ f.conClose = false) : NoLeak (s.reset f).1 := by
  unfold St.reset St.teardown
  obtain ⟨h1, h2, h3, h4⟩ := hf
  simp only [h1, h2, h3, h4, Bool.or_self, Bool.false_eq_true, ↓reduceIte]
  split
  · rename_i e
    unfold St.closeWd at e
    split at e <;> simp at e
  · rename_i s1 e
    have h5 := noLeak_closeWd h e
    have h6 : NoLeak s1.closeMain := noLeak_sub h5.1 (fun x hx => List.mem_of_mem_filter hx) rfl rfl
    exact noLeak_init h6 (closeMain_none h5.1) _

theorem noLeak_step {s : St} (h : NoLeak s) (o : Op) (hc : Calm o) : NoLeak (step s o) := by
  cases o with
  | exec => exact noLeak_exec h
  | set k v =>
    show NoLeak (s.set k v).1
    unfold St.set; split
    · intro x hx
      obtain ⟨y, hy, rfl⟩ := List.mem_map.mp hx
      have := h y hy
      split <;> exact this
    · exact noLeak_sub h (fun _ hx => hx) rfl rfl
  | timed f =>
    have h1 : NoLeak (s.initWd f.connect).1 := by
      unfold St.initWd; split
      · exact h
      · rename_i hw
        split
        · exact h
        · intro x hx
          rcases List.mem_append.mp hx with hx | hx
          · have := h x hx
            rw [hw] at this
            exact ⟨this.1, fun hk => by simpa using this.2 hk⟩
          · simp at hx; subst hx; simp [St.connect]
    show NoLeak (s.timed f).1
    unfold St.timed
    split
    · rename_i e; rw [e] at h1; exact h1
    · rename_i e; rw [e] at h1; exact noLeak_exec h1
  | «local» f =>
    show NoLeak (s.local f).1
    unfold St.local; split
    · exact h
    · intro x hx
      rcases List.mem_append.mp hx with hx | hx
      · exact h x hx
      · simp at hx; subst hx; simp
  | reset f => exact noLeak_reset h hc
  | close f =>
    show NoLeak (s.close f).1
    have h1 : NoLeak s.closeMain := noLeak_sub h (fun x hx => List.mem_of_mem_filter hx) rfl rfl
    unfold St.close; split
    · exact h
    · simp only
      split
      · exact h1
      · rename_i e; exact (noLeak_closeWd h1 e).1
  | reconnect f =>
    show NoLeak (s.reconnect f).1
    unfold St.reconnect; split
    · exact noLeak_reset h hc
    · exact h
  | drop i => exact noLeak_sub h (fun x hx => List.mem_of_mem_filter hx) rfl rfl

/-! ## Theorems -/

/-- Sessions are never mixed up: whatever happens to the interface, to the driver and to the server, the session that it uses,
its watchdog and all others are told apart, and the interface uses only sessions that were opened for it. -/
theorem C266_sound (n : Nat) (others : List Sess) (hf : ∀ x ∈ others, x.id < n) (hn : (others.map Sess.id).Nodup)
    (ops : List Op) : Sound (run (create n others) ops) :=
  sound_run (sound_create n others hf hn) ops

/-- Resetting always gives a working connection: after any history and with any errors while the old connection is torn down,
if the server accepts a connection then the number that is returned is one that no session had before, the interface uses it,
statements work, the settings are those of the server, and the driver thinks well of it. -/
theorem C266_reset (n : Nat) (others : List Sess) (hf : ∀ x ∈ others, x.id < n) (hn : (others.map Sess.id).Nodup)
    (ops : List Op) (f : Faults) (hc : f.connect = false) :
    let s := run (create n others) ops
    ∃ i, (s.reset f).2 = some i ∧ (s.reset f).1.main = i ∧ (∀ x ∈ s.sessions, x.id ≠ i) ∧ i ≠ s.main
      ∧ ({ id := i, kind := .main, cfg := [] } : Sess) ∈ (s.reset f).1.sessions
      ∧ (s.reset f).1.exec.2 = true ∧ (s.reset f).1.bad = false := by
  intro s
  have hs : Sound s := C266_sound n others hf hn ops
  have hnext : (s.teardown f).next = s.next := by
    unfold St.teardown St.closeWd
    cases s.wd with
    | none => simp only; split <;> rfl
    | some w => cases f.wdClose <;> simp only [Bool.false_eq_true, ↓reduceIte]; split <;> rfl
  have hr : s.reset f = ({ (s.teardown f).connect .main |>.1 with main := s.next, bad := false }, some s.next) := by
    simp [St.reset, St.init, hc, St.connect, hnext]
  have hmem : ({ id := s.next, kind := .main, cfg := [] } : Sess) ∈ (s.reset f).1.sessions := by
    rw [hr]; simp [St.connect, hnext]
  refine ⟨s.next, by rw [hr], by rw [hr], ?_, ?_, hmem, ?_, by rw [hr]⟩
  · intro x hx
    have := hs.fresh x hx; omega
  · have := hs.main; omega
  · have : (s.reset f).1.alive (s.reset f).1.main = true := (alive_iff _ _).mpr ⟨_, hmem, by rw [hr]⟩
    simp [St.exec, this]

/-- Nothing is left behind, as long as tearing down works (`Calm`): after any such history, every session that was opened for the
interface and is still open is the one that it uses or its watchdog.
Missing: histories in which closing the watchdog or cancelling raises, see `C266_leak_violated`. -/
theorem C266_no_leak_partial (n : Nat) (others : List Sess)
    (ho : ∀ x ∈ others, x.kind = .client) (ops : List Op) (hc : ∀ o ∈ ops, Calm o) : NoLeak (run (create n others) ops) := by
  have h0 : NoLeak (create n others) := by
    intro x hx
    have hx : x ∈ others ++ [{ id := n, kind := .main }] := hx
    rcases List.mem_append.mp hx with hx | hx
    · have := ho x hx; simp [this]
    · simp at hx; subst hx; simp [create, St.init, St.connect]
  have key : ∀ (ops : List Op) (s : St), NoLeak s → (∀ o ∈ ops, Calm o) → NoLeak (run s ops) := by
    intro ops
    induction ops with
    | nil => intro s h _; exact h
    | cons o os ih =>
      intro s h hc
      exact ih _ (noLeak_step h o (hc o (by simp))) fun p hp => hc p (by simp [hp])
  exact key ops _ h0 hc

/-- A failed cancellation leaves the old session open for ever: the `try` block ends before the connection is closed, and the
interface forgets it.  Every reset of this kind adds one more session. -/
theorem C266_leak_violated (k : Nat) :
    let s := run (create 0 []) (List.replicate k (.reset { cancel := true }))
    s.sessions.length = k + 1 ∧ ∀ i, i ≤ k → Open s i := by
  have key : ∀ k, run (create 0 []) (List.replicate k (.reset { cancel := true }))
      = { next := k + 1, sessions := (List.range (k + 1)).map fun i => { id := i, kind := .main }, main := k, bad := false,
          wd := none } := by
    intro k
    induction k with
    | zero => rfl
    | succ k ih =>
      have e : run (create 0 []) (List.replicate (k + 1) (.reset { cancel := true }))
          = step (run (create 0 []) (List.replicate k (.reset { cancel := true }))) (.reset { cancel := true }) := by
        rw [List.replicate_succ', run, List.foldl_append]; rfl
      rw [e, ih]
      simp [step, St.reset, St.teardown, St.closeWd, St.init, St.connect, List.range_succ (n := k + 1)]
  intro s
  have hs := key k
  refine ⟨by simp [s, hs], ?_⟩
  intro i hi
  refine ⟨{ id := i, kind := .main }, ?_, rfl⟩
  simp [s, hs]; omega

/-- Closing ends everything that the interface has opened, if nothing was left behind before and the driver does not raise:
sessions of clients are all that remains, and they are untouched; statements fail from then on. -/
theorem C266_close {s : St} (h : NoLeak s) (hs : Sound s) (f : Faults) (hf : (s.close f).2 = true) :
    (∀ x, x ∈ (s.close f).1.sessions ↔ x ∈ s.sessions ∧ x.kind = .client)
      ∧ (s.close f).1.wd = none ∧ (s.close f).1.exec.2 = false := by
  unfold St.close at hf ⊢
  split at hf
  · simp at hf
  · rename_i hcf
    simp only [hcf, Bool.false_eq_true, ↓reduceIte] at hf ⊢
    cases hw : s.wd with
    | none =>
      have e : s.closeMain.closeWd f.wdClose = some s.closeMain := by simp [St.closeWd, St.closeMain, St.kill, hw]
      rw [e] at hf ⊢
      simp only at hf ⊢
      have hmem : ∀ x, x ∈ s.closeMain.sessions ↔ x ∈ s.sessions ∧ x.kind = .client := by
        intro x
        simp only [St.closeMain, St.kill, List.mem_filter, decide_eq_true_eq, ne_eq]
        refine and_congr_right fun hx => ?_
        have h1 := h x hx
        have h2 := hs.mainKind x hx
        rw [hw] at h1
        cases hk : x.kind <;> simp_all
      refine ⟨hmem, by simpa [St.closeMain, St.kill] using hw, ?_⟩
      have : s.closeMain.alive s.closeMain.main = false := by
        simp [St.alive, St.closeMain, St.kill]
      simp [St.exec, this]
    | some w =>
      have hf2 : f.wdClose = false := by
        cases hb : f.wdClose
        · rfl
        · simp [St.closeWd, St.closeMain, St.kill, hw, hb] at hf
      have e : s.closeMain.closeWd f.wdClose = some { s.closeMain.kill w with wd := none } := by
        simp [St.closeWd, St.closeMain, St.kill, hw, hf2]
      rw [e] at hf ⊢
      simp only at hf ⊢
      have hmem : ∀ x, x ∈ (s.closeMain.kill w).sessions ↔ x ∈ s.sessions ∧ x.kind = .client := by
        intro x
        simp only [St.closeMain, St.kill, List.mem_filter, decide_eq_true_eq, ne_eq, and_assoc]
        refine and_congr_right fun hx => ?_
        have h1 := h x hx
        have h2 := hs.mainKind x hx
        have h3 := hs.wdKind x hx
        rw [hw] at h1 h3
        simp only [Option.some.injEq] at h1 h3
        cases hk : x.kind <;> simp [hk] at h1 h2 h3 ⊢
        · exact fun h => absurd h1 h
        · exact fun _ => h1.symm
        · exact ⟨h2, fun h => h3 h.symm⟩
      refine ⟨hmem, by trivial, ?_⟩
      have : ({ s.closeMain.kill w with wd := none } : St).alive s.closeMain.main = false := by
        simp only [St.alive, St.closeMain, St.kill, List.any_eq_false, List.mem_filter, decide_eq_true_eq, ne_eq]
        exact fun x hx h => hx.1.2 (of_decide_eq_true h)
      have h5 : ∀ t : St, t.alive t.main = false → t.exec.2 = false := fun t ht => by simp [St.exec, ht]
      exact h5 _ this

/-- Connections that clients have asked for are theirs: no operation of the interface, whatever fails, ends or changes such a
session; only the server can. -/
theorem C266_local (n : Nat) (others : List Sess) (hf : ∀ x ∈ others, x.id < n) (hn : (others.map Sess.id).Nodup)
    (before after : List Op) (x : Sess) (hx : x ∈ (run (create n others) before).sessions) (hk : x.kind = .client)
    (hd : Op.drop x.id ∉ after) : x ∈ (run (create n others) (before ++ after)).sessions := by
  have hs : Sound (run (create n others) before) := C266_sound n others hf hn before
  have e : run (create n others) (before ++ after) = run (run (create n others) before) after := by
    simp [run, List.foldl_append]
  rw [e]
  generalize run (create n others) before = s at hx hs
  clear e
  induction after generalizing s with
  | nil => exact hx
  | cons o os ih =>
    refine ih (fun h => hd (by simp [h])) (step s o) ?_ (sound_step hs o)
    have hdo : o ≠ .drop x.id := fun h => hd (by simp [h])
    have hm : x.id ≠ s.main := fun h => by have := hs.mainKind x hx h; simp [hk] at this
    have hw : s.wd ≠ some x.id := fun h => by have := hs.wdKind x hx h; simp [hk] at this
    have hcw : ∀ b t, s.closeWd b = some t → x ∈ t.sessions ∧ t.main = s.main := by
      intro b t ht
      unfold St.closeWd at ht
      split at ht
      · cases ht; exact ⟨hx, rfl⟩
      · rename_i w hw2
        split at ht
        · cases ht
        · cases ht
          refine ⟨List.mem_filter.mpr ⟨hx, ?_⟩, rfl⟩
          rw [hw2] at hw
          simpa using fun h => hw (by rw [h])
    have hr : ∀ f, x ∈ (s.reset f).1.sessions := by
      intro f
      have ht : x ∈ (s.teardown f).sessions := by
        unfold St.teardown
        split
        · exact hx
        · rename_i s1 e1
          have h1 := hcw _ _ e1
          split
          · exact h1.1
          · refine List.mem_filter.mpr ⟨h1.1, ?_⟩
            rw [h1.2]; simpa using hm
      unfold St.reset St.init
      split
      · exact ht
      · exact List.mem_append.mpr (.inl ht)
    cases o with
    | exec => show x ∈ s.exec.1.sessions; unfold St.exec; split <;> exact hx
    | set k v =>
      show x ∈ (s.set k v).1.sessions
      unfold St.set; split
      · exact List.mem_map.mpr ⟨x, hx, by simp [hm]⟩
      · exact hx
    | timed f =>
      have h1 : x ∈ (s.initWd f.connect).1.sessions := by
        unfold St.initWd; split
        · exact hx
        · split
          · exact hx
          · exact List.mem_append.mpr (.inl hx)
      show x ∈ (s.timed f).1.sessions
      unfold St.timed; split
      · rename_i e; rw [e] at h1; exact h1
      · rename_i e; rw [e] at h1; unfold St.exec; split <;> exact h1
    | «local» f =>
      show x ∈ (s.local f).1.sessions
      unfold St.local; split
      · exact hx
      · exact List.mem_append.mpr (.inl hx)
    | reset f => exact hr f
    | close f =>
      show x ∈ (s.close f).1.sessions
      have h1 : x ∈ s.closeMain.sessions := List.mem_filter.mpr ⟨hx, by simpa using hm⟩
      unfold St.close; split
      · exact hx
      · simp only
        split
        · exact h1
        · rename_i s2 e2
          unfold St.closeWd at e2
          split at e2
          · cases e2; exact h1
          · rename_i w hw2
            split at e2
            · cases e2
            · cases e2
              refine List.mem_filter.mpr ⟨h1, ?_⟩
              have hw3 : s.wd = some w := hw2
              rw [hw3] at hw
              simpa using fun h => hw (by rw [h])
    | reconnect f =>
      show x ∈ (s.reconnect f).1.sessions
      unfold St.reconnect; split
      · exact hr f
      · exact hx
    | drop i =>
      refine List.mem_filter.mpr ⟨hx, ?_⟩
      simpa using fun h => hdo (by rw [h])

/-- A connection of one's own is a new session with the settings of the server, and the interface is as before. -/
theorem C266_obtain {s : St} (hs : Sound s) (f : Faults) (hc : f.connect = false) :
    ∃ i, (s.local f).2 = some i ∧ ¬ Open s i
      ∧ (s.local f).1.sessions = s.sessions ++ [{ id := i, kind := .client, cfg := [] }]
      ∧ (s.local f).1.main = s.main ∧ (s.local f).1.wd = s.wd ∧ (s.local f).1.bad = s.bad := by
  refine ⟨s.next, by simp [St.local, hc, St.connect], ?_, by simp [St.local, hc, St.connect], by simp [St.local, hc, St.connect],
    by simp [St.local, hc, St.connect], by simp [St.local, hc, St.connect]⟩
  rintro ⟨x, hx, hi⟩
  have := hs.fresh x hx; omega

/-- Fetching a connection from the pool again makes it usable if the driver knows of the trouble: after a close, or after a
statement failed.  Missing: sessions that the server ended without a statement having failed since, see
`C266_reconnect_violated`. -/
theorem C266_reconnect_partial (s : St) (f g : Faults) (hc : f.connect = false) :
    ((s.close g).2 = true → ((s.close g).1.reconnect f).1.exec.2 = true)
      ∧ ((s.exec.1.reconnect f).1.exec.2 = true)
      ∧ (s.bad = false → s.reconnect f = (s, some s.main)) := by
  have hu : ∀ t : St, t.bad = true → (t.reconnect f).1.exec.2 = true := by
    intro t ht
    have : (t.reconnect f).1.alive (t.reconnect f).1.main = true := by
      simp [St.reconnect, ht, St.reset, St.init, hc, St.connect, St.alive]
    simp [St.exec, this]
  refine ⟨fun h => hu _ ?_, ?_, fun h => by simp [St.reconnect, h]⟩
  · unfold St.close at h ⊢
    split at h
    · simp at h
    · rename_i hcf
      simp only [hcf, Bool.false_eq_true, ↓reduceIte] at h ⊢
      split
      · rename_i e; rw [e] at h; simp at h
      · rename_i s2 e
        unfold St.closeWd at e
        split at e
        · cases e; rfl
        · split at e
          · cases e
          · cases e; rfl
  · by_cases ha : s.alive s.main = true
    · have he : s.exec.1 = s := by simp [St.exec, ha]
      rw [he]
      by_cases hb : s.bad = true
      · exact hu _ hb
      · simp [St.reconnect, hb, St.exec, ha]
    · exact hu _ (by simp [St.exec, ha])

/-- When the server has ended the session and no statement was run since, the pool hands out a connection that does not work. -/
theorem C266_reconnect_violated (f : Faults) :
    let s := run (create 0 []) [.drop 0]
    (s.reconnect f).2 = some 0 ∧ (s.reconnect f).1.exec.2 = false := by
  exact ⟨rfl, rfl⟩

/-- Settings live in the session: they last until the connection is replaced, and statements and connections of clients do not
touch them. -/
theorem C266_settings {s : St} (hs : Sound s) (k v : String) (x : Sess) (hx : x ∈ s.sessions) (hi : x.id = s.main) :
    (s.set k v).2 = true
      ∧ (∀ y, y ∈ (s.set k v).1.sessions ↔
          y = { x with cfg := (k, v) :: x.cfg } ∨ (y ∈ s.sessions ∧ y.id ≠ x.id))
      ∧ s.exec = (s, true) := by
  have ha : s.alive s.main = true := (alive_iff _ _).mpr ⟨x, hx, hi⟩
  refine ⟨by simp [St.set, ha], ?_, by simp [St.exec, ha]⟩
  intro y
  simp only [St.set, ha, ↓reduceIte, List.mem_map]
  constructor
  · rintro ⟨z, hz, rfl⟩
    by_cases hzi : z.id = s.main
    · have hzx : z = x := List.inj_on_of_nodup_map hs.nodup hz hx (by rw [hzi, hi])
      subst hzx
      exact .inl (by simp [hzi])
    · exact .inr (by simp [hzi, hz, hi])
  · rintro (rfl | ⟨hy, hne⟩)
    · exact ⟨x, hx, by simp [hi]⟩
    · exact ⟨y, hy, by rw [if_neg (by rw [← hi]; exact hne)]⟩

/-- A query with a timeout on a closed interface fails, but opens a watchdog before it does: one session is open although the
interface was closed. -/
theorem C266_closed_watchdog_violated :
    let s := (run (create 0 []) [.close {}])
    (s.timed {}).2 = false ∧ s.sessions = [] ∧ (s.timed {}).1.sessions = [{ id := 1, kind := .watchdog }] := by
  exact ⟨rfl, rfl, rfl⟩

/-- At most one watchdog: queries with timeouts share it. -/
theorem C266_watchdog {s : St} (f g : Faults) (h : (s.timed f).2 = true) :
    (∃ w, (s.timed f).1.wd = some w ∧ ∀ v, s.wd = some v → v = w) ∧ ((s.timed f).1.timed g) = ((s.timed f).1, true) := by
  unfold St.timed St.initWd at h ⊢
  cases hw : s.wd with
  | some v =>
    simp only [hw] at h ⊢
    by_cases ha : s.alive s.main = true
    · simp [St.exec, ha, hw]
    · simp [St.exec, ha] at h
  | none =>
    cases hc : f.connect
    · simp only [hw, hc, Bool.false_eq_true, ↓reduceIte] at h ⊢
      simp only [St.exec] at h ⊢
      split at h
      · rename_i ha
        simp only [ha, ↓reduceIte]
        simp
      · simp at h
    · simp [hw, hc] at h

/-! ## DuckDB and MySQL -/

/-- DuckDB: a reset always leaves the interface with a new connection; the old one is gone, unless closing it raised. -/
theorem C266_duck (d : Duck) (hf : ∀ h ∈ d.handles, h < d.next) (fails : Bool) :
    (d.reset fails).cur ∉ d.handles ∧ (d.reset fails).cur ∈ (d.reset fails).handles
      ∧ (∀ h, h ∈ (d.reset fails).handles ↔ (h ∈ d.handles ∧ (fails = true ∨ h ≠ d.cur)) ∨ h = (d.reset fails).cur)
      ∧ (∀ h ∈ (d.reset fails).handles, h < (d.reset fails).next) ∧ (d.reset fails).cur < (d.reset fails).next := by
  cases fails
  all_goals
    simp only [Duck.reset, Duck.close, Duck.reconnect, Bool.false_eq_true, ↓reduceIte]
    refine ⟨fun h => by have := hf _ h; omega, by simp, fun h => by simp, ?_, by omega⟩
    intro h hh
    simp at hh
    rcases hh with hh | hh
    · have := hf h (by first | exact hh.1 | exact hh); omega
    · omega

/-- DuckDB: `reconnect` does not close the connection that it replaces. -/
theorem C266_duck_reconnect_violated (d : Duck) (h : d.cur ∈ d.handles) (hc : d.cur < d.next) :
    d.cur ∈ d.reconnect.handles ∧ d.reconnect.cur ≠ d.cur := by
  simp [Duck.reconnect, h]; omega

/-- MySQL: a reset keeps the session, forgets its settings and gives a new cursor; after a close it fails, and always will. -/
theorem C266_mysql (m : My) :
    (m.isOpen = true → m.reset.2 = true ∧ m.reset.1.isOpen = true ∧ m.reset.1.cfg = [] ∧ m.reset.1.cursor ≠ m.cursor
        ∧ m.reset.1.curOpen = true)
      ∧ (m.close.reset.2 = false ∧ m.close.reset.1 = m.close) := by
  refine ⟨fun h => by simp [My.reset, h], by simp [My.reset, My.close]⟩

/-! ## Examples -/

/-- A history with a watchdog, a connection of a client, settings, a dropped session and a reset. -/
def hist : List Op := [.set "enable_nestloop" "off", .timed {}, .local {}, .drop 5, .exec, .reconnect {}, .timed {}]

/-- The hypotheses about the server. -/
example : (∀ x ∈ [({ id := 3, kind := .client } : Sess)], x.id < 5) ∧ ([({ id := 3, kind := .client } : Sess)].map Sess.id).Nodup
    ∧ (∀ x ∈ [({ id := 3, kind := .client } : Sess)], x.kind = .client) := by decide

example : ∀ o ∈ hist, Calm o := by simp [hist, Calm]

/-- The watchdog is replaced with the connection; the two connections of clients stay. -/
example : run (create 5 [{ id := 3, kind := .client }]) hist
    = { next := 10, sessions := [{ id := 3, kind := .client }, { id := 7, kind := .client }, { id := 8, kind := .main },
        { id := 9, kind := .watchdog }], main := 8, bad := false, wd := some 9 } := by decide

/-- `C266_close` on it. -/
example : ((run (create 5 [{ id := 3, kind := .client }]) hist).close {}).2 = true := by decide

/-- `C266_watchdog` on it. -/
example : ((run (create 5 [{ id := 3, kind := .client }]) hist).timed {}).2 = true := by decide

example : ∃ d : Duck, (∀ h ∈ d.handles, h < d.next) ∧ d.cur < d.next ∧ d.cur ∈ d.handles :=
  ⟨{ next := 2, handles := [0, 1], cur := 1 }, by decide⟩

end PB.ConnProps
