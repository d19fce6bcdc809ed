import Verif.Model.Version
import Mathlib.Data.Nat.Digits.Lemmas
import Mathlib.Tactic.Linarith

set_option linter.unusedSimpArgs false
set_option linter.unusedVariables false

/-! Properties C11, C69 (versions). -/

namespace PB.VerProps
open PB.Ver

/-! ### C11 -/

/-- Specification: `a` comes before `b` if at the first difference its component is smaller, or `a` is a proper
prefix of `b`. -/
def Before (a b : Version) : Prop :=
  (∃ p x y xs ys, a = p ++ x :: xs ∧ b = p ++ y :: ys ∧ x < y) ∨ (∃ y ys, b = a ++ y :: ys)

theorem before_cons (x y : Int) (a b : Version) :
    Before (x :: a) (y :: b) ↔ x < y ∨ (x = y ∧ Before a b) := by
  unfold Before
  constructor
  · rintro (⟨p, u, w, us, ws, h1, h2, h3⟩ | ⟨w, ws, h⟩)
    · cases p with
      | nil => simp at h1 h2; obtain ⟨rfl, _⟩ := h1; obtain ⟨rfl, _⟩ := h2; exact Or.inl h3
      | cons z p =>
        simp at h1 h2
        exact Or.inr ⟨h1.1.trans h2.1.symm, Or.inl ⟨p, u, w, us, ws, h1.2, h2.2, h3⟩⟩
    · simp at h; exact Or.inr ⟨h.1.symm, Or.inr ⟨w, ws, h.2⟩⟩
  · rintro (h | ⟨rfl, ⟨p, u, w, us, ws, h1, h2, h3⟩ | ⟨w, ws, h⟩⟩)
    · exact Or.inl ⟨[], x, y, a, b, rfl, rfl, h⟩
    · exact Or.inl ⟨x :: p, u, w, us, ws, by simp [h1], by simp [h2], h3⟩
    · exact Or.inr ⟨w, ws, by simp [h]⟩

/-- C11: `<` is the order of the specification. -/
theorem C11_lt_spec (a b : Version) : lt a b = true ↔ Before a b := by
  induction a generalizing b with
  | nil =>
    cases b with
    | nil => simp [lt, ltLoop, Before]
    | cons y b => simp [lt, ltLoop, Before]
  | cons x a ih =>
    cases b with
    | nil => simp [lt, ltLoop, Before]
    | cons y b =>
      rw [before_cons, ← ih b]
      simp only [lt, ltLoop, List.length_cons, Nat.add_lt_add_iff_right]
      split
      · simp [*]
      · split
        · rename_i h1 h2
          simp; omega
        · have : x = y := by omega
          simp [this]

theorem eq_iff (a b : Version) : eq a b = true ↔ a = b := by
  unfold eq
  induction a generalizing b with
  | nil => cases b <;> simp
  | cons x a ih =>
    cases b with
    | nil => simp
    | cons y b =>
      have := ih b
      simp only [List.length_cons, ne_eq, Nat.add_right_cancel_iff, List.zip_cons_cons, List.all_cons,
        List.cons.injEq] at this ⊢
      by_cases hl : a.length = b.length
      · simp only [hl, not_true_eq_false, if_false] at this ⊢
        rw [Bool.and_eq_true, this]; simp
      · simp only [hl, not_false_eq_true, if_true] at this ⊢
        constructor
        · intro h; exact absurd h (by simp)
        · rintro ⟨_, rfl⟩; exact absurd rfl hl

/-- C11: `==` is equality of the component sequences. -/
theorem C11_eq_spec (a b : Version) : eq a b = true ↔ a = b := eq_iff a b

theorem le_iff (a b : Version) : le a b = true ↔ lt a b = true ∨ a = b := by
  induction a generalizing b with
  | nil =>
    cases b with
    | nil => simp [lt, le, ltLoop]
    | cons y b => simp [lt, le, ltLoop]
  | cons x a ih =>
    cases b with
    | nil => simp [lt, le, ltLoop]
    | cons y b =>
      have := ih b
      simp only [lt, le, ltLoop, List.length_cons, Nat.add_lt_add_iff_right, Nat.add_le_add_iff_right,
        List.cons.injEq] at this ⊢
      split
      · simp
      · split
        · rename_i h1 h2
          simp; omega
        · have hxy : x = y := by omega
          simp [hxy, this]

theorem before_irrefl (a : Version) : ¬ Before a a := by
  induction a with
  | nil => simp [Before]
  | cons x a ih => rw [before_cons]; simp [ih]

theorem before_trans {a b c : Version} (h1 : Before a b) (h2 : Before b c) : Before a c := by
  induction a generalizing b c with
  | nil =>
    cases c with
    | nil => cases b <;> simp [Before] at h2
    | cons z c => exact Or.inr ⟨z, c, rfl⟩
  | cons x a ih =>
    cases b with
    | nil => simp [Before] at h1
    | cons y b =>
      cases c with
      | nil => simp [Before] at h2
      | cons z c =>
        rw [before_cons] at *
        rcases h1 with h1 | ⟨rfl, h1⟩ <;> rcases h2 with h2 | ⟨rfl, h2⟩
        · left; omega
        · exact Or.inl h1
        · exact Or.inl h2
        · exact Or.inr ⟨rfl, ih h1 h2⟩

theorem before_total (a b : Version) : Before a b ∨ a = b ∨ Before b a := by
  induction a generalizing b with
  | nil =>
    cases b with
    | nil => simp
    | cons y b => exact Or.inl (Or.inr ⟨y, b, rfl⟩)
  | cons x a ih =>
    cases b with
    | nil => exact Or.inr (Or.inr (Or.inr ⟨x, a, rfl⟩))
    | cons y b =>
      simp only [before_cons, List.cons.injEq]
      rcases lt_trichotomy x y with h | h | h
      · exact Or.inl (Or.inl h)
      · subst h
        rcases ih b with h | h | h
        · exact Or.inl (Or.inr ⟨rfl, h⟩)
        · exact Or.inr (Or.inl ⟨rfl, h⟩)
        · exact Or.inr (Or.inr (Or.inr ⟨rfl, h⟩))
      · exact Or.inr (Or.inr (Or.inl h))

theorem gt_iff (a b : Version) : gt a b = true ↔ Before b a := by
  unfold gt
  rw [Bool.not_eq_true', ← Bool.not_eq_true, le_iff, C11_lt_spec]
  constructor
  · intro h
    rcases before_total a b with h1 | h1 | h1
    · exact absurd (Or.inl h1) h
    · exact absurd (Or.inr h1) h
    · exact h1
  · rintro h (h1 | rfl)
    · exact before_irrefl _ (before_trans h h1)
    · exact before_irrefl _ h

/-- C11: exactly one of `a < b`, `a == b`, `a > b` holds. -/
theorem C11_trichotomy (a b : Version) :
    (lt a b = true ∧ eq a b = false ∧ gt a b = false) ∨
    (lt a b = false ∧ eq a b = true ∧ gt a b = false) ∨
    (lt a b = false ∧ eq a b = false ∧ gt a b = true) := by
  have e1 := C11_lt_spec a b
  have e2 := eq_iff a b
  have e3 := gt_iff a b
  rcases before_total a b with h | h | h
  · left
    refine ⟨e1.2 h, ?_, ?_⟩
    · rw [← Bool.not_eq_true, e2]; rintro rfl; exact before_irrefl _ h
    · rw [← Bool.not_eq_true, e3]; exact fun h' => before_irrefl _ (before_trans h h')
  · right; left
    subst h
    refine ⟨?_, e2.2 rfl, ?_⟩
    · rw [← Bool.not_eq_true, e1]; exact before_irrefl _
    · rw [← Bool.not_eq_true, e3]; exact before_irrefl _
  · right; right
    refine ⟨?_, ?_, e3.2 h⟩
    · rw [← Bool.not_eq_true, e1]; exact fun h' => before_irrefl _ (before_trans h h')
    · rw [← Bool.not_eq_true, e2]; rintro rfl; exact before_irrefl _ h

/-- C11: `<` is transitive. -/
theorem C11_lt_trans (a b c : Version) (h1 : lt a b = true) (h2 : lt b c = true) : lt a c = true :=
  (C11_lt_spec a c).2 (before_trans ((C11_lt_spec a b).1 h1) ((C11_lt_spec b c).1 h2))

example : lt [15] [15, 1] = true ∧ lt [15, 1] [16] = true := by decide

/-- C11: `<=` and `>=` are the unions of the strict comparisons with equality, and `>` is the converse of `<`. -/
theorem C11_le_ge (a b : Version) :
    (le a b = true ↔ lt a b = true ∨ eq a b = true) ∧ (ge a b = true ↔ gt a b = true ∨ eq a b = true) ∧
    (gt a b = true ↔ lt b a = true) := by
  refine ⟨by rw [eq_iff]; exact le_iff a b, ?_, by rw [gt_iff, C11_lt_spec]⟩
  have := C11_trichotomy a b
  unfold ge
  rcases this with ⟨h1, h2, h3⟩ | ⟨h1, h2, h3⟩ | ⟨h1, h2, h3⟩ <;> simp [h1, h2, h3]

/-! ### C69 -/

/-- C69 violated: the textual (and JSON) form of a version is rejected by the constructor, for every version. -/
theorem C69_str_violated (v : Version) : parse (toStr v) = none := by
  unfold parse toStr
  simp only [split]
  rw [if_neg (by decide)]
  have key : ∀ p : List Char, pyInt ('v' :: p) = none := by
    intro p
    show (digitsVal ('v' :: p) 0).map (fun n => (n : Int)) = none
    rfl
  cases split '.' (join '.' (v.map intStr)) with
  | nil => simp [key]
  | cons p ps => simp [List.mapM_cons, key]

theorem split_noSep (sep : Char) (p : List Char) (h : sep ∉ p) : split sep p = [p] := by
  induction p with
  | nil => rfl
  | cons c p ih =>
    simp only [List.mem_cons, not_or] at h
    simp [split, Ne.symm h.1, ih h.2]

theorem split_append (sep : Char) (p q : List Char) (h : sep ∉ p) :
    split sep (p ++ sep :: q) = p :: split sep q := by
  induction p with
  | nil => simp [split]
  | cons c p ih =>
    simp only [List.mem_cons, not_or] at h
    simp [split, Ne.symm h.1, ih h.2]

theorem split_join (sep : Char) (ps : List (List Char)) (hne : ps ≠ []) (h : ∀ p ∈ ps, sep ∉ p) :
    split sep (join sep ps) = ps := by
  induction ps with
  | nil => exact absurd rfl hne
  | cons p ps ih =>
    cases ps with
    | nil => simp only [join]; exact split_noSep sep p (h p (by simp))
    | cons q ps =>
      simp only [join]
      rw [split_append sep _ _ (h p (by simp)), ih (by simp) (fun r hr => h r (List.mem_cons_of_mem _ hr))]

theorem digitChar_toNat {d : Nat} (h : d < 10) : (digitChar d).toNat = 48 + d := by
  interval_cases d <;> rfl

theorem digitVal_digitChar {d : Nat} (h : d < 10) : digitVal (digitChar d) = some d := by
  unfold digitVal
  rw [digitChar_toNat h]
  simp; omega

theorem digitsVal_append (cs ds : List Char) (acc : Nat) :
    digitsVal (cs ++ ds) acc = (digitsVal cs acc).bind (fun a => digitsVal ds a) := by
  induction cs generalizing acc with
  | nil => simp [digitsVal]
  | cons c cs ih =>
    simp only [List.cons_append, digitsVal]
    cases digitVal c with
    | none => simp
    | some d => exact ih _

theorem digitsVal_natStr (n : Nat) : digitsVal (natStr n) 0 = some n := by
  unfold natStr
  split
  · rename_i h; subst h; rfl
  · rename_i hn
    have gen : ∀ (l : List Nat), (∀ d ∈ l, d < 10) →
        digitsVal (l.reverse.map digitChar) 0 = some (Nat.ofDigits 10 l) := by
      intro l
      induction l with
      | nil => intro _; rfl
      | cons d l ih =>
        intro h
        rw [List.reverse_cons, List.map_append, digitsVal_append, ih (fun x hx => h x (List.mem_cons_of_mem _ hx))]
        simp only [Option.bind_some, List.map_cons, List.map_nil, digitsVal, digitVal_digitChar (h d (by simp)),
          Nat.ofDigits_cons]
        congr 1; omega
    rw [gen _ (fun d hd => Nat.digits_lt_base (by norm_num) hd), Nat.ofDigits_digits]

theorem natStr_chars (n : Nat) : natStr n ≠ [] ∧ ∀ c ∈ natStr n, 48 ≤ c.toNat ∧ c.toNat ≤ 57 := by
  unfold natStr
  split
  · refine ⟨by simp, ?_⟩; intro c hc; simp at hc; subst hc; decide
  · rename_i hn
    refine ⟨by simpa using Nat.digits_ne_nil_iff_ne_zero.2 hn, ?_⟩
    intro c hc
    simp only [List.mem_map, List.mem_reverse] at hc
    obtain ⟨d, hd, rfl⟩ := hc
    have := Nat.digits_lt_base (b := 10) (by norm_num) hd
    rw [digitChar_toNat this]; omega

theorem pyInt_intStr (i : Int) : pyInt (intStr i) = some i := by
  cases i with
  | ofNat n =>
    simp only [intStr]
    obtain ⟨hne, hc⟩ := natStr_chars n
    have hv := digitsVal_natStr n
    cases hs : natStr n with
    | nil => exact absurd hs hne
    | cons c cs =>
      have h1 := hc c (by simp [hs])
      have hc' : c ≠ '-' := by rintro rfl; simp at h1
      rw [hs] at hv
      unfold pyInt
      split
      · rename_i h; simp at h
      · rename_i h; simp at h; exact absurd h.1 hc'
      · rw [hv]; rfl
  | negSucc n =>
    simp only [intStr]
    obtain ⟨hne, hc⟩ := natStr_chars (n + 1)
    show (if natStr (n+1) = [] then none else (digitsVal (natStr (n+1)) 0).map (fun n => -(n : Int))) = _
    rw [if_neg hne, digitsVal_natStr]
    simp [Int.negSucc_eq]

theorem dot_notin_intStr (i : Int) : '.' ∉ intStr i := by
  intro h
  cases i with
  | ofNat n =>
    have := (natStr_chars n).2 _ h
    simp at this
  | negSucc n =>
    simp only [intStr, List.mem_cons] at h
    rcases h with h | h
    · exact absurd h (by decide)
    · have := (natStr_chars (n+1)).2 _ h
      simp at this

/-- C69 partial: the unprefixed form (`formatted()`) of every version is read back as the same version.
Missing: `str` and the JSON form, see `C69_str_violated`. -/
theorem C69_formatted_partial (v : Version) (hv : v ≠ []) : parse (formatted v) = some v := by
  unfold parse formatted
  rw [split_join '.' _ (by simpa using hv) (by
    intro p hp
    obtain ⟨i, _, rfl⟩ := List.mem_map.1 hp
    exact dot_notin_intStr i)]
  clear hv
  induction v with
  | nil => rfl
  | cons i v ih => simp [List.mapM_cons, pyInt_intStr, ih]

example : formatted [15, 0, -3] = "15.0.-3".toList := by decide

end PB.VerProps
