import Verif.Model.Hashable
set_option linter.unusedVariables false
set_option linter.unusedSimpArgs false

namespace PB.HashableProps
open PB.Hashable

/-- `Conv o p`: `p` is the hashable form of `o`. Sets become frozensets and lists become tuples; dictionaries become hashable ones with the same keys. Elements and values are converted, everything else is kept. -/
inductive Conv : Obj → Obj → Prop
  | atom (n) : Conv (.atom n) (.atom n)
  | other (n) : Conv (.other n) (.other n)
  | frozenset (es) : Conv (.frozenset es) (.frozenset es)
  | hdict (es) : Conv (.hdict es) (.hdict es)
  | set (es) : Conv (.set es) (.frozenset es)
  | list (es ps) : es.length = ps.length → (∀ i (h : i < es.length) (h' : i < ps.length), Conv es[i] ps[i]) → Conv (.list es) (.tuple ps)
  | tuple (es ps) : es.length = ps.length → (∀ i (h : i < es.length) (h' : i < ps.length), Conv es[i] ps[i]) → Conv (.tuple es) (.tuple ps)
  | dict (es ps) : es.length = ps.length → (∀ i (h : i < es.length) (h' : i < ps.length), es[i].1 = ps[i].1) → (∀ i (h : i < es.length) (h' : i < ps.length), Conv es[i].2 ps[i].2) → Conv (.dict es) (.hdict ps)

theorem makeAll_eq : (es : List Obj) → makeAll es = es.map makeHashable
  | [] => rfl
  | o :: os => by rw [makeAll, makeAll_eq os]; rfl

theorem makeValues_eq : (es : List (Nat × Obj)) → makeValues es = es.map fun e => (e.1, makeHashable e.2)
  | [] => rfl
  | (k, o) :: os => by rw [makeValues, makeValues_eq os]; rfl

mutual
theorem conv_make : (o : Obj) → Conv o (makeHashable o)
  | .atom n => .atom n
  | .other n => .other n
  | .frozenset es => .frozenset es
  | .hdict es => .hdict es
  | .set es => .set es
  | .list es => by
    rw [makeHashable]
    refine .list es _ (by simp [makeAll_eq]) fun i h h' => ?_
    have := conv_all es es[i] (List.getElem_mem h)
    simpa [makeAll_eq] using this
  | .tuple es => by
    rw [makeHashable]
    refine .tuple es _ (by simp [makeAll_eq]) fun i h h' => ?_
    have := conv_all es es[i] (List.getElem_mem h)
    simpa [makeAll_eq] using this
  | .dict es => by
    rw [makeHashable]
    refine .dict es _ (by simp [makeValues_eq]) (fun i h h' => by simp [makeValues_eq]) fun i h h' => ?_
    have := conv_values es es[i] (List.getElem_mem h)
    simpa [makeValues_eq] using this
theorem conv_all : (es : List Obj) → ∀ o ∈ es, Conv o (makeHashable o)
  | [] => by simp
  | o :: os => by
    intro p hp
    have ho := conv_make o
    rcases List.mem_cons.1 hp with hp | hp
    · exact hp ▸ ho
    · exact conv_all os p hp
theorem conv_values : (es : List (Nat × Obj)) → ∀ e ∈ es, Conv e.2 (makeHashable e.2)
  | [] => by simp
  | (k, o) :: os => by
    intro p hp
    rcases List.mem_cons.1 hp with rfl | hp
    · exact conv_make o
    · exact conv_values os p hp
end

theorem conv_unique {o p : Obj} (h : Conv o p) : p = makeHashable o := by
  induction h with
  | atom n => rfl
  | other n => rfl
  | frozenset es => rfl
  | hdict es => rfl
  | set es => rfl
  | list es ps hl hc ih =>
    rw [makeHashable, makeAll_eq]
    congr 1
    exact List.ext_getElem (by simp [hl]) fun i h h' => by rw [List.getElem_map]; exact ih i (by omega) h
  | tuple es ps hl hc ih =>
    rw [makeHashable, makeAll_eq]
    congr 1
    exact List.ext_getElem (by simp [hl]) fun i h h' => by rw [List.getElem_map]; exact ih i (by omega) h
  | dict es ps hl hk hc ih =>
    rw [makeHashable, makeValues_eq]
    congr 1
    refine List.ext_getElem (by simp [hl]) fun i h h' => ?_
    rw [List.getElem_map]
    exact Prod.ext (hk i (by omega) h).symm (ih i (by omega) h)

/-- **C254.** The result of the conversion has the documented form, at all levels. -/
theorem C254_form (o p : Obj) : makeHashable o = p ↔ Conv o p := ⟨fun h => h ▸ conv_make o, fun h => (conv_unique h).symm⟩

/-- Objects that consist of hashable objects and standard containers. -/
inductive Plain : Obj → Prop
  | atom (n) : Plain (.atom n)
  | set (es) : Plain (.set es)
  | frozenset (es) : Plain (.frozenset es)
  | list (es) : (∀ e ∈ es, Plain e) → Plain (.list es)
  | tuple (es) : (∀ e ∈ es, Plain e) → Plain (.tuple es)
  | dict (es) : (∀ e ∈ es, Plain e.2) → Plain (.dict es)

theorem hashAll_some : (es : List Obj) → (∀ e ∈ es, ∃ h, hashOf e = some h) → ∃ hs, hashAll es = some hs ∧ hs.length = es.length
  | [], _ => ⟨[], rfl, rfl⟩
  | o :: os, h => by
    obtain ⟨a, ha⟩ := h o (by simp)
    obtain ⟨hs, h1, h2⟩ := hashAll_some os fun e he => h e (by simp [he])
    exact ⟨a :: hs, by simp [hashAll, ha, h1], by simp [h2]⟩

theorem hashValues_cons (k : Nat) (o : Obj) (os : List (Nat × Obj)) (a : Hash) (h : hashOf o = some a) : hashValues ((k, o) :: os) = (hashValues os).map (a :: ·) := by
  cases o with
  | atom n => simp only [hashOf, Option.some.injEq] at h; subst h; rw [hashValues]
  | other n => simp [hashOf] at h
  | set es => simp [hashOf] at h
  | frozenset es => simp only [hashOf, Option.some.injEq] at h; subst h; rw [hashValues]
  | list es => simp [hashOf] at h
  | tuple es =>
    simp only [hashOf, Option.map_eq_some_iff] at h
    obtain ⟨b, hb, rfl⟩ := h
    rw [hashValues]
    simp [hb]
  | dict es => simp [hashOf] at h
  | hdict es =>
    simp only [hashOf, Option.map_eq_some_iff] at h
    obtain ⟨b, hb, rfl⟩ := h
    rw [hashValues]
    simp [hb]

theorem hashValues_some : (es : List (Nat × Obj)) → (∀ e ∈ es, ∃ h, hashOf e.2 = some h) → ∃ hs, hashValues es = some hs ∧ hs.length = es.length
  | [], _ => ⟨[], by simp [hashValues], rfl⟩
  | (k, o) :: os, h => by
    obtain ⟨a, ha⟩ := h (k, o) (by simp)
    obtain ⟨hs, h1, h2⟩ := hashValues_some os fun e he => h e (by simp [he])
    exact ⟨a :: hs, by rw [hashValues_cons k o os a ha, h1]; rfl, by simp [h2]⟩

/-- **C254.** The converted form of standard containers over hashable objects can be hashed, at all levels of nesting. -/
theorem C254_hashable (o : Obj) (h : Plain o) : ∃ a, hashOf (makeHashable o) = some a := by
  induction h with
  | atom n => exact ⟨_, rfl⟩
  | set es => exact ⟨_, rfl⟩
  | frozenset es => exact ⟨_, rfl⟩
  | list es hp ih =>
    obtain ⟨hs, h1, -⟩ := hashAll_some (makeAll es) (by
      rw [makeAll_eq]
      intro e he
      obtain ⟨x, hx, rfl⟩ := List.mem_map.1 he
      exact ih x hx)
    exact ⟨.seq hs, by rw [makeHashable, hashOf, h1]; rfl⟩
  | tuple es hp ih =>
    obtain ⟨hs, h1, -⟩ := hashAll_some (makeAll es) (by
      rw [makeAll_eq]
      intro e he
      obtain ⟨x, hx, rfl⟩ := List.mem_map.1 he
      exact ih x hx)
    exact ⟨.seq hs, by rw [makeHashable, hashOf, h1]; rfl⟩
  | dict es hp ih =>
    obtain ⟨hs, h1, -⟩ := hashValues_some (makeValues es) (by
      rw [makeValues_eq]
      intro e he
      obtain ⟨x, hx, rfl⟩ := List.mem_map.1 he
      exact ih x hx)
    exact ⟨.dict ((makeValues es).map Prod.fst) hs, by rw [makeHashable, hashOf, h1]; rfl⟩

/-- A dictionary with a list that contains a set. -/
def sampleObj : Obj := .dict [(1, .list [.atom 2, .set [3, 4]]), (5, .atom 6)]

/-- The hypotheses are met: the object itself cannot be hashed. -/
example : Plain sampleObj ∧ hashOf sampleObj = none ∧ hashOf (makeHashable sampleObj) = some (.dict [1, 5] [.seq [.atom 2, .frozenset [3, 4]], .atom 6]) := by
  refine ⟨.dict _ fun e he => ?_, by simp [sampleObj, hashOf], by simp [sampleObj, hashOf, makeHashable, makeValues, makeAll, hashValues, hashAll]⟩
  simp only [List.mem_cons, List.not_mem_nil, or_false] at he
  rcases he with rfl | rfl
  · refine .list _ fun e he => ?_
    simp only [List.mem_cons, List.not_mem_nil, or_false] at he
    rcases he with rfl | rfl
    · exact .atom 2
    · exact .set _
  · exact .atom 6

mutual
theorem make_make : (o : Obj) → makeHashable (makeHashable o) = makeHashable o
  | .atom n => by simp [makeHashable]
  | .other n => by simp [makeHashable]
  | .frozenset es => by simp [makeHashable]
  | .hdict es => by simp [makeHashable]
  | .set es => by simp [makeHashable]
  | .list es => by simp only [makeHashable]; rw [makeAll_make es]
  | .tuple es => by simp only [makeHashable]; rw [makeAll_make es]
  | .dict es => by simp [makeHashable]
theorem makeAll_make : (es : List Obj) → makeAll (makeAll es) = makeAll es
  | [] => rfl
  | o :: os => by simp only [makeAll]; rw [make_make o, makeAll_make os]
end

/-- **C254.** Converting twice is the same as converting once. -/
theorem C254_idempotent (o : Obj) : makeHashable (makeHashable o) = makeHashable o := make_make o

/-- **C254 (violated).** Equal dictionaries can have different hashes: the hash depends on the order in which the keys were added. -/
theorem C254_order_violated (k l : Nat) (o p : Obj) (h : k ≠ l) (ho : Plain o) (hp : Plain p) :
    ∃ a b, hashOf (makeHashable (.dict [(k, o), (l, p)])) = some a ∧ hashOf (makeHashable (.dict [(l, p), (k, o)])) = some b ∧ a ≠ b := by
  obtain ⟨a, ha⟩ := C254_hashable o ho
  obtain ⟨b, hb⟩ := C254_hashable p hp
  refine ⟨.dict [k, l] [a, b], .dict [l, k] [b, a], ?_, ?_, fun hc => ?_⟩
  · simp only [makeHashable, makeValues, hashOf]
    rw [hashValues_cons _ _ _ _ ha, hashValues_cons _ _ _ _ hb]
    simp [hashValues]
  · simp only [makeHashable, makeValues, hashOf]
    rw [hashValues_cons _ _ _ _ hb, hashValues_cons _ _ _ _ ha]
    simp [hashValues]
  · simp only [Hash.dict.injEq, List.cons.injEq] at hc
    exact h hc.1.1

/-- The hypotheses are met. -/
example : (1 : Nat) ≠ 2 ∧ Plain (.atom 0) ∧ Plain (.set [1]) := ⟨by decide, .atom 0, .set _⟩

/-- **C254 (violated).** Values that cannot be hashed are skipped: dictionaries with different values at these keys have the same hash. Elsewhere they are errors. -/
theorem C254_skipped_violated (k m n : Nat) (os : List Obj) (hm : m ≠ n) :
    hashOf (makeHashable (.dict [(k, .other m)])) = hashOf (makeHashable (.dict [(k, .other n)])) ∧ hashOf (makeHashable (.dict [(k, .other m)])) ≠ none ∧ hashOf (makeHashable (.list (.other m :: os))) = none := by
  simp [makeHashable, makeValues, makeAll, hashOf, hashValues, hashAll]

/-- What `simplify` has to return: the element of containers with a single element (key and value of dictionaries), otherwise the value itself. Other iterables are consumed and therefore returned as lists. -/
inductive Simple {T : Type} : Val T → Val T → Prop
  | text (s) : Simple (.text s) (.text s)
  | obj (t) : Simple (.obj t) (.obj t)
  | list1 (e) : Simple (.list [e]) e
  | tuple1 (e) : Simple (.tuple [e]) e
  | iter1 (e) : Simple (.iter [e]) e
  | dict1 (k v) : Simple (.dict [(k, v)]) (.tuple [k, v])
  | list (es) : es.length ≠ 1 → Simple (.list es) (.list es)
  | tuple (es) : es.length ≠ 1 → Simple (.tuple es) (.tuple es)
  | iter (es) : es.length ≠ 1 → Simple (.iter es) (.list es)
  | dict (es) : es.length ≠ 1 → Simple (.dict es) (.dict es)

theorem simple_iff {T : Type} (v w : Val T) : simplify v = w ↔ Simple v w := by
  constructor
  · rintro rfl
    rcases v with s | t | (_ | ⟨e, _ | ⟨f, es⟩⟩) | (_ | ⟨e, _ | ⟨f, es⟩⟩) | (_ | ⟨⟨k, e⟩, _ | ⟨f, es⟩⟩) | (_ | ⟨e, _ | ⟨f, es⟩⟩)
    · exact .text s
    · exact .obj t
    · exact .list _ (by simp)
    · exact .list1 e
    · exact .list _ (by simp)
    · exact .tuple _ (by simp)
    · exact .tuple1 e
    · exact .tuple _ (by simp)
    · exact .dict _ (by simp)
    · exact .dict1 k e
    · exact .dict _ (by simp)
    · exact .iter _ (by simp)
    · exact .iter1 e
    · exact .iter _ (by simp)
  · intro h
    cases h with
    | text | obj | list1 | tuple1 | iter1 | dict1 => rfl
    | list es h | tuple es h | iter es h | dict es h =>
      rcases es with _ | ⟨e, _ | ⟨f, es⟩⟩
      · rfl
      · simp at h
      · rfl

/-- **C255.** Containers with a single element are unwrapped, everything else is kept. -/
theorem C255_simplify {T : Type} (v w : Val T) : simplify v = w ↔ Simple v w := simple_iff v w

/-- Values that `enlist` wraps: everything that is no list, set or tuple, and tuples on request. -/
def Wrapped {T : Type} (enlistTuples : Bool) : Val T → Prop
  | .list _ => False
  | .tuple _ => enlistTuples = true
  | _ => True

/-- **C255 (partial).** Unwrapping is the inverse of `enlist`: for values that are wrapped into a list the original value is returned. Lists, sets and other tuples are not wrapped. (Missing: single elements in lists, see
`C255_inverse_violated`.) -/
theorem C255_inverse_partial {T : Type} (b : Bool) (v : Val T) : (Wrapped b v → enlist b v = .list [v] ∧ simplify (enlist b v) = v) ∧ (¬ Wrapped b v → enlist b v = v) := by
  cases v with
  | text s => exact ⟨fun _ => ⟨rfl, rfl⟩, fun h => absurd trivial h⟩
  | obj t => exact ⟨fun _ => ⟨rfl, rfl⟩, fun h => absurd trivial h⟩
  | list es => exact ⟨fun h => h.elim, fun _ => rfl⟩
  | tuple es =>
    cases b
    · exact ⟨fun h => by simp [Wrapped] at h, fun _ => rfl⟩
    · exact ⟨fun _ => ⟨rfl, rfl⟩, fun h => absurd rfl h⟩
  | dict es => exact ⟨fun _ => ⟨rfl, rfl⟩, fun h => absurd trivial h⟩
  | iter es => exact ⟨fun _ => ⟨rfl, rfl⟩, fun h => absurd trivial h⟩

/-- The hypotheses are met. -/
example : Wrapped true (.tuple [.text "a", .obj 1]) ∧ ¬ Wrapped false (.tuple [.text "a", .obj 1]) := ⟨rfl, by simp [Wrapped]⟩

/-- **C255 (violated).** A list with a single element is not restored: the element is returned. -/
theorem C255_inverse_violated {T : Type} (b : Bool) (e : Val T) : simplify (enlist b (.list [e])) = e ∧ simplify (enlist b (.list [e])) ≠ .list [e] := by
  refine ⟨rfl, fun h => ?_⟩
  have h : e = .list [e] := h
  have := congrArg sizeOf h
  simp at this
  omega

end PB.HashableProps
