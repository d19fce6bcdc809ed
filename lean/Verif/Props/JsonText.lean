import Mathlib.Tactic.IntervalCases
import Verif.Model.JsonText

set_option linter.unusedSimpArgs false
set_option linter.unusedVariables false
set_option linter.unusedSectionVars false
set_option linter.unnecessarySimpa false
set_option linter.unnecessarySeqFocus false

/-! Property C216: JSON documents are written and read without changes. -/

namespace PB.JsonTextProps
open PB PB.JsonText

variable {F : Type}

/-! ### Specification -/

/-- Only ASCII digits, at least one. -/
def Digits (s : List Char) : Prop := s ≠ [] ∧ ∀ c ∈ s, 48 ≤ c.toNat ∧ c.toNat ≤ 57

/-- The shape of the text of finite floats in Python, e.g. `-1.5`, `1e+16` or `2.5e-07`: sign, digits without leading
zeros, fraction and exponent, with at least one of the last two. -/
def FloatShape (t : List Char) : Prop := ∃ sign int frac exp, t = sign ++ (int ++ (frac ++ exp)) ∧
  (sign = [] ∨ sign = ['-']) ∧ Digits int ∧ (int = ['0'] ∨ int.head? ≠ some '0') ∧
  (frac = [] ∨ ∃ ds, frac = '.' :: ds ∧ Digits ds) ∧
  (exp = [] ∨ ∃ sg ds, exp = 'e' :: (sg ++ ds) ∧ (sg = ['+'] ∨ sg = ['-']) ∧ Digits ds) ∧
  (frac ≠ [] ∨ exp ≠ [])

/-- What Python guarantees for the text of floats: it has the expected shape, and reading it yields the same float. -/
def FloatLaw (ft : FloatText F) : Prop := ∀ x, FloatShape (ft.repr x) ∧ ft.parse (ft.repr x) = some x

/-! ### Strings -/

theorem hexVal_hexDigit (n : Nat) (h : n < 16) : hexVal (hexDigit n) = some n := by
  have : ∀ n < 16, hexVal (hexDigit n) = some n := by decide +kernel
  exact this n h

theorem hex4_digits (n : Nat) (h : n < 65536) (s : List Char) :
    hex4 (hexDigit (n / 4096 % 16) :: hexDigit (n / 256 % 16) :: hexDigit (n / 16 % 16) :: hexDigit (n % 16) :: s) = some (n, s) := by
  simp only [hex4, hexVal_hexDigit _ (Nat.mod_lt _ (by decide : 16 > 0)), Option.bind_some, Option.map_some,
    Option.some.injEq, Prod.mk.injEq, and_true]
  omega

theorem chr_toNat (c : Char) : chr c.toNat = some c := by
  unfold chr
  have h : c.toNat.isValidChar := c.valid
  rw [if_pos h, Char.ofNat_toNat]

theorem char_range (c : Char) : c.toNat < 55296 ∨ 57343 < c.toNat ∧ c.toNat < 1114112 := by
  have := c.valid
  simp only [UInt32.isValidChar, Nat.isValidChar] at this
  exact this

theorem unescape_bmp (c : Char) (s : List Char)  (h : c.toNat < 65536) : unescape ('u' :: hexDigit (c.toNat / 4096 % 16) :: hexDigit (c.toNat / 256 % 16) :: hexDigit (c.toNat / 16 % 16) ::
        hexDigit (c.toNat % 16) :: s) = some (c, s) := by
      have hr := char_range c
      simp only [unescape, hex4_digits c.toNat h s, Option.bind_some]
      rw [if_neg (show ¬ (55296 ≤ c.toNat ∧ c.toNat ≤ 56319) by omega)]
      simp [chr_toNat]

theorem unescape_pair (a b : Nat) (c : Char) (s : List Char) (ha : 55296 ≤ a ∧ a ≤ 56319) (hb : 56320 ≤ b ∧ b ≤ 57343)
    (hc : chr (65536 + (a - 55296) * 1024 + (b - 56320)) = some c) :
    unescape ('u' :: hexDigit (a / 4096 % 16) :: hexDigit (a / 256 % 16) :: hexDigit (a / 16 % 16) :: hexDigit (a % 16) ::
      '\\' :: 'u' :: hexDigit (b / 4096 % 16) :: hexDigit (b / 256 % 16) :: hexDigit (b / 16 % 16) :: hexDigit (b % 16) :: s) =
      some (c, s) := by
  have h1 := hex4_digits a (by omega) ('\\' :: 'u' :: hexDigit (b / 4096 % 16) :: hexDigit (b / 256 % 16) ::
    hexDigit (b / 16 % 16) :: hexDigit (b % 16) :: s)
  have h2 := hex4_digits b (by omega) s
  have h3 : lowSurrogate ('\\' :: 'u' :: hexDigit (b / 4096 % 16) :: hexDigit (b / 256 % 16) ::
    hexDigit (b / 16 % 16) :: hexDigit (b % 16) :: s) = some (b, s) := by
    rw [lowSurrogate, h2, Option.bind_some, if_pos hb]
  rw [unescape, if_neg (by decide), if_neg (by decide), if_neg (by decide), if_neg (by decide), if_neg (by decide),
    if_neg (by decide), if_neg (by decide), if_neg (by decide), if_pos rfl, h1, Option.bind_some, if_pos ha, h3]
  simp only [hc, Option.map_some]
theorem chr_pair (c : Char) (h : 65536 ≤ c.toNat) :
    chr (65536 + (55296 + (c.toNat - 65536) / 1024 - 55296) * 1024 + (56320 + (c.toNat - 65536) % 1024 - 56320)) = some c := by
  rw [Nat.add_sub_cancel_left, Nat.add_sub_cancel_left]
  rw [show 65536 + (c.toNat - 65536) / 1024 * 1024 + (c.toNat - 65536) % 1024 = c.toNat by omega, chr_toNat]

theorem scanStr_esc (n : Nat) (c : Char) (s : List Char) :
    scanStr (n + 1) (escChar c ++ s) = (scanStr n s).map fun q => (c :: q.1, q.2) := by
  unfold escChar
  split
  · subst c; simp [scanStr, unescape]
  split
  · subst c; simp [scanStr, unescape]
  split
  · subst c; simp [scanStr, unescape]
  split
  · subst c; simp [scanStr, unescape]
  split
  · subst c; simp [scanStr, unescape]
  split
  · rename_i h
    have : c = Char.ofNat 12 := by rw [← Char.ofNat_toNat c, h]
    subst this; simp [scanStr, unescape]
  split
  · rename_i h
    have : c = Char.ofNat 8 := by rw [← Char.ofNat_toNat c, h]
    subst this; simp [scanStr, unescape]
  split
  · rename_i h1 h2 _ _ _ _ _ h
    simp only [List.cons_append, List.nil_append, scanStr, if_neg h1, if_neg h2]
    rw [if_neg (by omega)]
  split
  · rename_i h
    simp only [uEscape, List.cons_append, List.nil_append, scanStr]
    have e1 : ¬ ('\\' = '"') := by decide
    rw [if_neg e1, if_pos trivial, unescape_bmp c s h]
    rfl
  · rename_i h
    have hr := char_range c
    have h1 : (c.toNat - 65536) / 1024 ≤ 1023 := by omega
    have h2 : (c.toNat - 65536) % 1024 ≤ 1023 := by omega
    simp only [uEscape, List.cons_append, List.nil_append, List.append_assoc, scanStr]
    have e1 : ¬ ('\\' = '"') := by decide
    rw [if_neg e1, if_pos trivial, unescape_pair _ _ c s ⟨Nat.le_add_right _ _, Nat.add_le_add_left h1 55296⟩
      ⟨Nat.le_add_right _ _, Nat.add_le_add_left h2 56320⟩ (chr_pair c (by omega))]
    rfl

theorem scanStr_text (s r : List Char) (n : Nat) (h : s.length < n) :
    scanStr n (s.flatMap escChar ++ '"' :: r) = some (s, r) := by
  induction s generalizing n with
  | nil =>
    obtain ⟨m, rfl⟩ : ∃ m, n = m + 1 := ⟨n - 1, by simp at h; omega⟩
    simp [scanStr]
  | cons c s ih =>
    obtain ⟨m, rfl⟩ : ∃ m, n = m + 1 := ⟨n - 1, by simp at h; omega⟩
    rw [List.flatMap_cons, List.append_assoc, scanStr_esc, ih m (by simp at h; omega)]
    rfl

theorem escChar_length (c : Char) : 1 ≤ (escChar c).length := by
  unfold escChar
  repeat' split
  all_goals simp [uEscape]

theorem flatMap_esc_length (s : List Char) : s.length ≤ (s.flatMap escChar).length := by
  induction s with
  | nil => simp
  | cons c s ih =>
    have := escChar_length c
    simp only [List.flatMap_cons, List.length_append, List.length_cons]; omega

/-! ### Numbers -/

theorem digit_toNat (n : Nat) (h : n < 10) : (digit n).toNat = 48 + n := by
  have : ∀ n < 10, (digit n).toNat = 48 + n := by decide +kernel
  exact this n h

theorem natText_digits (n : Nat) : Digits (natText n) := by
  induction n using Nat.strongRecOn with
  | _ n ih =>
    rw [natText]
    split
    · rename_i h
      refine ⟨by simp, fun c hc => ?_⟩
      simp only [List.mem_singleton] at hc
      rw [hc, digit_toNat n h]; omega
    · rename_i h
      obtain ⟨h1, h2⟩ := ih (n / 10) (by omega)
      refine ⟨by simp, fun c hc => ?_⟩
      rcases List.mem_append.1 hc with hc | hc
      · exact h2 c hc
      · simp only [List.mem_singleton] at hc
        rw [hc, digit_toNat _ (by omega)]; omega

theorem natVal_append (s : List Char) (c : Char) : natVal (s ++ [c]) = natVal s * 10 + (c.toNat - 48) := by
  simp [natVal, List.foldl_append]

theorem natVal_natText (n : Nat) : natVal (natText n) = n := by
  induction n using Nat.strongRecOn with
  | _ n ih =>
    rw [natText]
    split
    · rename_i h
      simp [natVal, digit_toNat n h]
    · rename_i h
      rw [natVal_append, ih (n / 10) (by omega), digit_toNat _ (by omega)]; omega

theorem natText_head (n : Nat) : natText n = ['0'] ∨ (natText n).head? ≠ some '0' := by
  induction n using Nat.strongRecOn with
  | _ n ih =>
    rw [natText]
    split
    · rename_i h
      have : ∀ n < 10, [digit n] = ['0'] ∨ [digit n].head? ≠ some '0' := by decide +kernel
      exact this n h
    · rename_i h
      right
      have hd := natText_digits (n / 10)
      rcases ih (n / 10) (by omega) with h1 | h1
      · have := natVal_natText (n / 10)
        rw [h1] at this
        have h0 : natVal ['0'] = 0 := by decide
        omega
      · obtain ⟨c, s, hs⟩ := List.exists_cons_of_ne_nil hd.1
        rw [hs] at h1 ⊢
        simpa using h1

/-- What may follow a value within a document. -/
def Stop (r : List Char) : Prop := ∀ c, r.head? = some c → c = ',' ∨ c = ']' ∨ c = '}'

/-- A text that does not go on with a digit. -/
def NoDigit (r : List Char) : Prop := ∀ c, r.head? = some c → isDigit c = false

theorem isDigit_iff (c : Char) : isDigit c = true ↔ 48 ≤ c.toNat ∧ c.toNat ≤ 57 := by simp [isDigit]

theorem takeWhile_digits (s r : List Char) (hs : ∀ c ∈ s, 48 ≤ c.toNat ∧ c.toNat ≤ 57) (hr : NoDigit r) :
    (s ++ r).takeWhile isDigit = s ∧ (s ++ r).dropWhile isDigit = r := by
  induction s with
  | nil =>
    cases r with
    | nil => simp
    | cons c r => simp [hr c rfl]
  | cons c s ih =>
    have hc := (isDigit_iff c).2 (hs c (by simp))
    obtain ⟨h1, h2⟩ := ih fun d hd => hs d (by simp [hd])
    simp [hc, h1, h2]

theorem scanInt_digits (s r : List Char) (hs : Digits s) (h0 : s = ['0'] ∨ s.head? ≠ some '0') (hr : NoDigit r) :
    scanInt (s ++ r) = some (s, r) := by
  obtain ⟨c, t, rfl⟩ := List.exists_cons_of_ne_nil hs.1
  rw [List.cons_append, scanInt]
  by_cases hc : c = '0'
  · subst hc
    rcases h0 with h0 | h0
    · simp at h0; simp [h0]
    · simp at h0
  · have hd := (isDigit_iff c).2 (hs.2 c (by simp))
    obtain ⟨h1, h2⟩ := takeWhile_digits t r (fun d hd => hs.2 d (by simp [hd])) hr
    simp [hc, hd, h1, h2]

theorem Stop.noDigit {r : List Char} (h : Stop r) : NoDigit r := by
  intro c hc
  rcases h c hc with rfl | rfl | rfl <;> decide

theorem scanFrac_stop {r : List Char} (h : r.head? ≠ some '.') : scanFrac r = ([], r) := by
  unfold scanFrac
  split
  · simp at h
  · rfl

theorem scanExp_stop {r : List Char} (h : ∀ c, r.head? = some c → c ≠ 'e' ∧ c ≠ 'E') : scanExp r = ([], r) := by
  cases r with
  | nil => rfl
  | cons c r =>
    obtain ⟨h1, h2⟩ := h c rfl
    unfold scanExp
    split
    · rename_i heq
      cases heq
      rw [if_neg (by simp [h1, h2])]
    · rename_i heq
      cases heq

theorem stop_ne {r : List Char} (h : Stop r) (c : Char) (hc : c ≠ ',' ∧ c ≠ ']' ∧ c ≠ '}') : r.head? ≠ some c := by
  intro he
  rcases h c he with rfl | rfl | rfl
  · exact hc.1 rfl
  · exact hc.2.1 rfl
  · exact hc.2.2 rfl

theorem scanSign_none {s : List Char} (h : s.head? ≠ some '-') : scanSign s = ([], s) := by
  unfold scanSign
  split
  · simp at h
  · rfl

theorem digits_head {s r : List Char} (hs : Digits s) : ∃ c t, s ++ r = c :: t ∧ 48 ≤ c.toNat ∧ c.toNat ≤ 57 := by
  obtain ⟨c, t, rfl⟩ := List.exists_cons_of_ne_nil hs.1
  exact ⟨c, t ++ r, rfl, hs.2 c (by simp)⟩

theorem scanSign_text {sign s : List Char} (h : sign = [] ∨ sign = ['-']) (hs : ∃ c t, s = c :: t ∧ 48 ≤ c.toNat ∧ c.toNat ≤ 57) :
    scanSign (sign ++ s) = (sign, s) := by
  obtain ⟨c, t, rfl, hc⟩ := hs
  rcases h with rfl | rfl
  · refine scanSign_none ?_
    simp only [List.nil_append, List.head?_cons, ne_eq, Option.some.injEq]
    rintro rfl
    revert hc; decide
  · rfl

theorem scanNum_int (ft : FloatText F) (i : Int) (r : List Char) (hr : Stop r) :
    scanNum ft (intText i ++ r) = some (.int i, r) := by
  have key : ∀ n : Nat, scanInt (natText n ++ r) = some (natText n, r) := fun n =>
    scanInt_digits _ _ (natText_digits n) (natText_head n) hr.noDigit
  have hf : scanFrac r = ([], r) := scanFrac_stop (stop_ne hr _ (by decide))
  have he : scanExp r = ([], r) := scanExp_stop fun c hc => by rcases hr c hc with rfl | rfl | rfl <;> decide
  cases i with
  | ofNat n =>
    have hs := scanSign_text (sign := []) (s := natText n ++ r) (.inl rfl) (digits_head (natText_digits n))
    simp only [List.nil_append] at hs
    simp only [intText, scanNum, hs, key, Option.bind_some, hf, he, natVal_natText]
    simp
  | negSucc n =>
    have hs := scanSign_text (sign := ['-']) (s := natText (n + 1) ++ r) (.inr rfl) (digits_head (natText_digits _))
    simp only [List.cons_append, List.nil_append] at hs
    simp only [intText, List.cons_append, scanNum, hs, key, Option.bind_some, hf, he, natVal_natText]
    simp [Int.negSucc_eq]

theorem scanFrac_text {frac r : List Char} (h : frac = [] ∨ ∃ ds, frac = '.' :: ds ∧ Digits ds) (hr : NoDigit r)
    (hd : r.head? ≠ some '.') : scanFrac (frac ++ r) = (frac, r) := by
  rcases h with rfl | ⟨ds, rfl, hds⟩
  · exact scanFrac_stop hd
  · obtain ⟨c, t, rfl⟩ := List.exists_cons_of_ne_nil hds.1
    have hc := (isDigit_iff c).2 (hds.2 c (by simp))
    obtain ⟨h1, h2⟩ := takeWhile_digits t r (fun d hd => hds.2 d (by simp [hd])) hr
    simp [scanFrac, hc, h1, h2]

theorem expDigits_text (pre orig ds r : List Char) (hds : Digits ds) (hr : NoDigit r) :
    expDigits pre orig (ds ++ r) = (pre ++ ds, r) := by
  obtain ⟨c, t, rfl⟩ := List.exists_cons_of_ne_nil hds.1
  have hc := (isDigit_iff c).2 (hds.2 c (by simp))
  obtain ⟨h1, h2⟩ := takeWhile_digits t r (fun d hd => hds.2 d (by simp [hd])) hr
  simp [expDigits, hc, h1, h2]

theorem scanExp_text {exp r : List Char}
    (h : exp = [] ∨ ∃ sg ds, exp = 'e' :: (sg ++ ds) ∧ (sg = ['+'] ∨ sg = ['-']) ∧ Digits ds) (hr : Stop r) :
    scanExp (exp ++ r) = (exp, r) := by
  rcases h with rfl | ⟨sg, ds, rfl, hsg, hds⟩
  · exact scanExp_stop fun c hc => by rcases hr c hc with rfl | rfl | rfl <;> decide
  · rcases hsg with rfl | rfl <;>
    simp [scanExp, expDigits_text _ _ ds r hds hr.noDigit]

theorem scanNum_float (ft : FloatText F) (hft : FloatLaw ft) (x : F) (r : List Char) (hr : Stop r) :
    scanNum ft (ft.repr x ++ r) = some (.flt (.fin x), r) := by
  obtain ⟨⟨sign, int, frac, exp, ht, hsign, hint, h0, hfrac, hexp, hne⟩, hp⟩ := hft x
  have hexpr : NoDigit (exp ++ r) ∧ (exp ++ r).head? ≠ some '.' := by
    rcases hexp with rfl | ⟨sg, ds, rfl, _⟩
    · exact ⟨hr.noDigit, stop_ne hr _ (by decide)⟩
    · refine ⟨fun c hc => ?_, by simp⟩
      simp only [List.cons_append, List.head?_cons, Option.some.injEq] at hc
      rw [← hc]; decide
  have hfr : NoDigit (frac ++ (exp ++ r)) := by
    rcases hfrac with rfl | ⟨ds, rfl, _⟩
    · exact hexpr.1
    · intro c hc
      simp only [List.cons_append, List.head?_cons, Option.some.injEq] at hc
      rw [← hc]; decide
  have e : ft.repr x ++ r = sign ++ (int ++ (frac ++ (exp ++ r))) := by rw [ht]; simp [List.append_assoc]
  rw [e]
  simp only [scanNum, scanSign_text hsign (digits_head (r := frac ++ (exp ++ r)) hint), scanInt_digits _ _ hint h0 hfr,
    Option.bind_some, scanFrac_text hfrac hexpr.1 hexpr.2, scanExp_text hexp hr]
  rw [if_neg (by rintro ⟨h1, h2⟩; rcases hne with h | h <;> contradiction)]
  rw [show sign ++ int ++ frac ++ exp = ft.repr x by rw [ht]; simp [List.append_assoc], hp]
  rfl


/-! ### Documents -/

/-- The first character of the text of a value. -/
def Start (c : Char) : Prop := isWs c = false ∧ c ≠ ']' ∧ c ≠ '}' ∧ c ≠ ',' ∧ c ≠ ':'

theorem digit_start (c : Char) (h : 48 ≤ c.toNat ∧ c.toNat ≤ 57) : Start c ∧ c ≠ '"' ∧ c ≠ '{' ∧ c ≠ '[' ∧ c ≠ 'n' ∧ c ≠ 't' ∧
    c ≠ 'f' := by
  have key : ∀ n, 48 ≤ n → n ≤ 57 → ∀ c, c = Char.ofNat n → (isWs c = false ∧ c ≠ ']' ∧ c ≠ '}' ∧ c ≠ ',' ∧ c ≠ ':') ∧ c ≠ '"' ∧
      c ≠ '{' ∧ c ≠ '[' ∧ c ≠ 'n' ∧ c ≠ 't' ∧ c ≠ 'f' := by
    intro n h1 h2 c hc
    subst hc
    interval_cases n <;> decide
  exact key c.toNat h.1 h.2 c (Char.ofNat_toNat c).symm

theorem minus_start : Start '-' ∧ '-' ≠ '"' ∧ '-' ≠ '{' ∧ '-' ≠ '[' ∧ '-' ≠ 'n' ∧ '-' ≠ 't' ∧ '-' ≠ 'f' := by
  refine ⟨⟨?_, ?_, ?_, ?_, ?_⟩, ?_⟩ <;> decide

/-- The first character of a number. -/
theorem int_head (i : Int) : ∃ c t, intText i = c :: t ∧ Start c ∧ c ≠ '"' ∧ c ≠ '{' ∧ c ≠ '[' ∧ c ≠ 'n' ∧ c ≠ 't' ∧ c ≠ 'f' := by
  cases i with
  | ofNat n =>
    obtain ⟨c, t, h1, h2⟩ := digits_head (r := []) (natText_digits n)
    rw [List.append_nil] at h1
    exact ⟨c, t, h1, digit_start c h2⟩
  | negSucc n => exact ⟨'-', _, rfl, minus_start⟩

theorem float_head (ft : FloatText F) (hft : FloatLaw ft) (x : F) :
    ∃ c t, ft.repr x = c :: t ∧ Start c ∧ c ≠ '"' ∧ c ≠ '{' ∧ c ≠ '[' ∧ c ≠ 'n' ∧ c ≠ 't' ∧ c ≠ 'f' := by
  obtain ⟨⟨sign, int, frac, exp, ht, hsign, hint, _⟩, _⟩ := hft x
  rcases hsign with rfl | rfl
  · obtain ⟨c, t, h1, h2⟩ := digits_head (r := frac ++ exp) hint
    exact ⟨c, t, by rw [ht]; simpa using h1, digit_start c h2⟩
  · exact ⟨'-', _, ht, minus_start⟩

theorem dumps_head (ft : FloatText F) (hft : FloatLaw ft) (j : Json F) : ∃ c t, dumps ft j = c :: t ∧ Start c := by
  cases j with
  | null => exact ⟨'n', _, by rw [dumps]; rfl, by refine ⟨?_, ?_, ?_, ?_, ?_⟩ <;> decide⟩
  | bool b =>
    cases b
    · exact ⟨'f', _, by rw [dumps]; rfl, by refine ⟨?_, ?_, ?_, ?_, ?_⟩ <;> decide⟩
    · exact ⟨'t', _, by rw [dumps]; rfl, by refine ⟨?_, ?_, ?_, ?_, ?_⟩ <;> decide⟩
  | int i =>
    obtain ⟨c, t, h, hs, _⟩ := int_head i
    exact ⟨c, t, by rw [dumps, h], hs⟩
  | flt f =>
    cases f with
    | fin x =>
      obtain ⟨c, t, h, hs, _⟩ := float_head ft hft x
      exact ⟨c, t, by rw [dumps]; exact h, hs⟩
    | nan => exact ⟨'N', ['a', 'N'], by rw [dumps]; rfl, by refine ⟨?_, ?_, ?_, ?_, ?_⟩ <;> decide⟩
    | inf => exact ⟨'I', "nfinity".toList, by rw [dumps]; rfl, by refine ⟨?_, ?_, ?_, ?_, ?_⟩ <;> decide⟩
    | ninf => exact ⟨'-', "Infinity".toList, by rw [dumps]; rfl, by refine ⟨?_, ?_, ?_, ?_, ?_⟩ <;> decide⟩
  | str s => exact ⟨'"', _, by rw [dumps, strText]; rfl, by refine ⟨?_, ?_, ?_, ?_, ?_⟩ <;> decide⟩
  | arr l => exact ⟨'[', _, by rw [dumps]; rfl, by refine ⟨?_, ?_, ?_, ?_, ?_⟩ <;> decide⟩
  | obj l => exact ⟨'{', _, by rw [dumps]; rfl, by refine ⟨?_, ?_, ?_, ?_, ?_⟩ <;> decide⟩

theorem skipWs_start {c : Char} {s : List Char} (h : isWs c = false) : skipWs (c :: s) = c :: s := by
  simp [skipWs, h]

theorem skipWs_dumps (ft : FloatText F) (hft : FloatLaw ft) (j : Json F) (r : List Char) :
    skipWs (dumps ft j ++ r) = dumps ft j ++ r := by
  obtain ⟨c, t, h, hs⟩ := dumps_head ft hft j
  rw [h, List.cons_append, skipWs_start hs.1]

theorem strip_append (p r : List Char) : strip p (p ++ r) = some r := by
  induction p with
  | nil => rfl
  | cons c p ih => simp [strip, ih]

theorem strip_head {p c : Char} {ps s : List Char} (h : p ≠ c) : strip (p :: ps) (c :: s) = none := by simp [strip, h]

theorem scanWord_none {c : Char} {s : List Char} (h : c ≠ 'n' ∧ c ≠ 't' ∧ c ≠ 'f') : scanWord (F := F) (c :: s) = none := by
  have e1 : strip "null".toList (c :: s) = none := strip_head h.1.symm
  have e2 : strip "true".toList (c :: s) = none := strip_head h.2.1.symm
  have e3 : strip "false".toList (c :: s) = none := strip_head h.2.2.symm
  simp only [scanWord, e1, e2, e3]
  rfl

theorem scan_number (ft : FloatText F) (n : Nat) (c : Char) (s r : List Char) (v : Json F)
    (h : c ≠ '"' ∧ c ≠ '{' ∧ c ≠ '[' ∧ c ≠ 'n' ∧ c ≠ 't' ∧ c ≠ 'f') (hn : scanNum ft (c :: s) = some (v, r)) :
    scan ft (n + 1) (c :: s) = some (v, r) := by
  obtain ⟨h1, h2, h3, h4⟩ := h
  rw [scan, if_neg h1, if_neg h2, if_neg h3, scanWord_none h4, hn]
  rfl

mutual
/-- The document with the last value of each key (at the place of its first occurrence), at all levels. -/
def lastValues : Json F → Json F
  | .arr l => .arr (lastValuesL l)
  | .obj l => .obj (Dict.ofList (lastValuesE l))
  | j => j
def lastValuesL : List (Json F) → List (Json F)
  | [] => []
  | v :: l => lastValues v :: lastValuesL l
def lastValuesE : List (List Char × Json F) → List (List Char × Json F)
  | [] => []
  | (k, v) :: l => (k, lastValues v) :: lastValuesE l
end

theorem scanSpecial_ok (s : List Char) :
    scanSpecial (F := F) ("NaN".toList ++ s) = some (.flt .nan, s) ∧
    scanSpecial (F := F) ("Infinity".toList ++ s) = some (.flt .inf, s) ∧
    scanSpecial (F := F) ("-Infinity".toList ++ s) = some (.flt .ninf, s) := by
  have h1 := strip_append "NaN".toList s
  have h2 := strip_append "Infinity".toList s
  have h3 := strip_append "-Infinity".toList s
  have n1 : strip "NaN".toList ("Infinity".toList ++ s) = none := rfl
  have n2 : strip "NaN".toList ("-Infinity".toList ++ s) = none := rfl
  have n3 : strip "Infinity".toList ("-Infinity".toList ++ s) = none := rfl
  refine ⟨?_, ?_, ?_⟩
  · simp only [scanSpecial, h1]; rfl
  · simp only [scanSpecial, n1, h2]; rfl
  · simp only [scanSpecial, n2, n3, h3]; rfl

theorem scan_special (ft : FloatText F) (n : Nat) (t r : List Char) (f : Flt F)
    (ht : t = "NaN".toList ∧ f = .nan ∨ t = "Infinity".toList ∧ f = .inf ∨ t = "-Infinity".toList ∧ f = .ninf) :
    scan ft (n + 1) (t ++ r) = some (.flt f, r) := by
  obtain ⟨h1, h2, h3⟩ := scanSpecial_ok (F := F) r
  rcases ht with ⟨rfl, rfl⟩ | ⟨rfl, rfl⟩ | ⟨rfl, rfl⟩
  · have e : "NaN".toList ++ r = 'N' :: ("aN".toList ++ r) := rfl
    have e2 : scanNum ft ('N' :: ("aN".toList ++ r)) = none := rfl
    rw [e, scan, if_neg (by decide), if_neg (by decide), if_neg (by decide), scanWord_none (by decide), e2, ← e, h1]
    rfl
  · have e : "Infinity".toList ++ r = 'I' :: ("nfinity".toList ++ r) := rfl
    have e2 : scanNum ft ('I' :: ("nfinity".toList ++ r)) = none := rfl
    rw [e, scan, if_neg (by decide), if_neg (by decide), if_neg (by decide), scanWord_none (by decide), e2, ← e, h2]
    rfl
  · have e : "-Infinity".toList ++ r = '-' :: ("Infinity".toList ++ r) := rfl
    have e2 : scanNum ft ('-' :: ("Infinity".toList ++ r)) = none := rfl
    rw [e, scan, if_neg (by decide), if_neg (by decide), if_neg (by decide), scanWord_none (by decide), e2, ← e, h3]
    rfl

theorem strText_length (k : List Char) : k.length + 2 ≤ (strText k).length := by
  have := flatMap_esc_length k
  simp only [strText, List.cons_append, List.length_cons, List.length_append, List.length_nil]; omega

theorem stop_cons (c : Char) (h : c = ',' ∨ c = ']' ∨ c = '}') (r : List Char) : Stop (c :: r) := by
  intro d hd
  simp only [List.head?_cons, Option.some.injEq] at hd
  rw [← hd]; exact h

theorem dumpsArr_head (ft : FloatText F) (hft : FloatLaw ft) (v : Json F) (l : List (Json F)) :
    ∃ c t, dumpsArr ft (v :: l) = c :: t ∧ Start c := by
  obtain ⟨c, t, h, hs⟩ := dumps_head ft hft v
  cases l with
  | nil => exact ⟨c, t, by rw [dumpsArr, h], hs⟩
  | cons w l => exact ⟨c, _, by rw [dumpsArr, h, List.cons_append], hs⟩

mutual
theorem scan_dumps (ft : FloatText F) (hft : FloatLaw ft) (j : Json F) (n : Nat) (r : List Char) (hr : Stop r)
    (hn : (dumps ft j).length ≤ n) : scan ft n (dumps ft j ++ r) = some (lastValues j, r) := by
  obtain ⟨c0, t0, h0, _⟩ := dumps_head ft hft j
  obtain ⟨m, rfl⟩ : ∃ m, n = m + 1 := ⟨n - 1, by rw [h0] at hn; simp at hn; omega⟩
  clear h0
  match j with
  | .null =>
    have e : dumps ft .null ++ r = 'n' :: ("ull".toList ++ r) := by rw [dumps]; rfl
    have e1 := strip_append "null".toList r
    rw [e, scan, if_neg (by decide), if_neg (by decide), if_neg (by decide), ← e, lastValues]
    · simp only [dumps, scanWord, e1]; rfl
    · simp
    · simp
  | .bool true =>
    have e : dumps ft (.bool true) ++ r = 't' :: ("rue".toList ++ r) := by rw [dumps]; rfl
    have e1 := strip_append "true".toList r
    have e2 : strip "null".toList ("true".toList ++ r) = none := rfl
    rw [e, scan, if_neg (by decide), if_neg (by decide), if_neg (by decide), ← e, lastValues]
    · simp only [dumps, scanWord, e1, e2]; rfl
    · simp
    · simp
  | .bool false =>
    have e : dumps ft (.bool false) ++ r = 'f' :: ("alse".toList ++ r) := by rw [dumps]; rfl
    have e1 := strip_append "false".toList r
    have e2 : strip "null".toList ("false".toList ++ r) = none := rfl
    have e3 : strip "true".toList ("false".toList ++ r) = none := rfl
    rw [e, scan, if_neg (by decide), if_neg (by decide), if_neg (by decide), ← e, lastValues]
    · simp only [dumps, scanWord, e1, e2, e3]; rfl
    · simp
    · simp
  | .int i =>
    obtain ⟨c, t, h, _, hc⟩ := int_head i
    have hs := scanNum_int ft i r hr
    rw [h, List.cons_append] at hs
    rw [dumps, h, List.cons_append, lastValues]
    · exact scan_number ft m c _ r _ hc hs
    · simp
    · simp
  | .flt (.fin x) =>
    obtain ⟨c, t, h, _, hc⟩ := float_head ft hft x
    have hs := scanNum_float ft hft x r hr
    rw [h, List.cons_append] at hs
    rw [dumps, show fltText ft (.fin x) = c :: t from h, List.cons_append, lastValues]
    · exact scan_number ft m c _ r _ hc hs
    · simp
    · simp
  | .flt .nan =>
    rw [dumps, show fltText ft (.nan : Flt F) = "NaN".toList from rfl, lastValues]
    · exact scan_special ft m _ r .nan (.inl ⟨rfl, rfl⟩)
    · simp
    · simp
  | .flt .inf =>
    rw [dumps, show fltText ft (.inf : Flt F) = "Infinity".toList from rfl, lastValues]
    · exact scan_special ft m _ r .inf (.inr (.inl ⟨rfl, rfl⟩))
    · simp
    · simp
  | .flt .ninf =>
    rw [dumps, show fltText ft (.ninf : Flt F) = "-Infinity".toList from rfl, lastValues]
    · exact scan_special ft m _ r .ninf (.inr (.inr ⟨rfl, rfl⟩))
    · simp
    · simp
  | .str s =>
    rw [dumps, strText, lastValues]
    · rw [dumps] at hn
      have := strText_length s
      simp only [List.cons_append, List.append_assoc, List.nil_append]
      rw [scan, if_pos rfl, scanStr_text s r _ (by omega)]
      rfl
    · simp
    · simp
  | .arr [] =>
    rw [dumps, dumpsArr, lastValues, lastValuesL]
    simp only [List.cons_append, List.nil_append, List.append_nil]
    rw [scan, if_neg (by decide), if_neg (by decide), if_pos rfl, skipWs_start (by decide)]
    rfl
  | .arr (v :: l) =>
    have hi := scanItems_dumps ft hft v l m r (by rw [dumps] at hn; simp at hn; omega)
    obtain ⟨c, t, h, hs⟩ := dumpsArr_head ft hft v l
    rw [dumps, lastValues]
    simp only [List.cons_append, List.append_assoc, List.nil_append]
    rw [h, List.cons_append] at hi ⊢
    rw [scan, if_neg (by decide), if_neg (by decide), if_pos rfl, skipWs_start hs.1, if_neg (by simp [hs.2.1]), hi]
    rfl
  | .obj [] =>
    rw [dumps, dumpsObj, lastValues, lastValuesE]
    simp only [List.cons_append, List.nil_append, List.append_nil]
    rw [scan, if_neg (by decide), if_pos rfl, skipWs_start (by decide)]
    rfl
  | .obj ((k, v) :: l) =>
    have hi := scanEntries_dumps ft hft k v l m r (by rw [dumps] at hn; simp at hn; omega)
    have h : ∃ t, dumpsObj ft ((k, v) :: l) = '"' :: t := by cases l <;> exact ⟨_, by rw [dumpsObj, strText]; rfl⟩
    obtain ⟨t, h⟩ := h
    rw [dumps, lastValues]
    simp only [List.cons_append, List.append_assoc, List.nil_append]
    rw [h, List.cons_append] at hi ⊢
    rw [scan, if_neg (by decide), if_pos rfl, skipWs_start (by decide), if_neg (by simp), hi]
    rfl
termination_by n
decreasing_by all_goals omega

theorem scanItems_dumps (ft : FloatText F) (hft : FloatLaw ft) (v : Json F) (l : List (Json F)) (n : Nat) (r : List Char)
    (hn : (dumpsArr ft (v :: l)).length + 1 ≤ n) :
    scanItems ft n (dumpsArr ft (v :: l) ++ ']' :: r) = some (lastValuesL (v :: l), r) := by
  obtain ⟨m, rfl⟩ : ∃ m, n = m + 1 := ⟨n - 1, by omega⟩
  match l with
  | [] =>
    rw [dumpsArr] at hn ⊢
    rw [scanItems, scan_dumps ft hft v m (']' :: r) (stop_cons _ (by simp) r) (by omega), Option.bind_some]
    simp only [skipWs_start (c := ']') (s := r) (by decide), List.head?_cons, if_true, List.tail_cons, lastValuesL]
  | w :: l =>
    rw [dumpsArr] at hn ⊢
    simp only [List.length_append] at hn
    have h1 := scan_dumps ft hft v m (',' :: ' ' :: (dumpsArr ft (w :: l) ++ ']' :: r)) (stop_cons _ (by simp) _) (by omega)
    have h2 := scanItems_dumps ft hft w l m r (by have : (", ".toList).length = 2 := rfl; omega)
    have e : dumps ft v ++ (", ".toList ++ dumpsArr ft (w :: l)) ++ ']' :: r =
        dumps ft v ++ ',' :: ' ' :: (dumpsArr ft (w :: l) ++ ']' :: r) := by simp [List.append_assoc]
    obtain ⟨c, t, h, hs⟩ := dumpsArr_head ft hft w l
    have h3 : skipWs (' ' :: (dumpsArr ft (w :: l) ++ ']' :: r)) = dumpsArr ft (w :: l) ++ ']' :: r := by
      rw [h, List.cons_append]
      have := hs.1
      simp [isWs] at this
      simp [skipWs, isWs, this]
    rw [e, scanItems, h1, Option.bind_some]
    simp only [skipWs_start (c := ',') (by decide), List.head?_cons, List.tail_cons, h3, h2, lastValuesL, Option.map_some]
    simp
termination_by n
decreasing_by all_goals omega

theorem scanEntries_dumps (ft : FloatText F) (hft : FloatLaw ft) (k : List Char) (v : Json F) (l : List (List Char × Json F))
    (n : Nat) (r : List Char) (hn : (dumpsObj ft ((k, v) :: l)).length + 1 ≤ n) :
    scanEntries ft n (dumpsObj ft ((k, v) :: l) ++ '}' :: r) = some (lastValuesE ((k, v) :: l), r) := by
  obtain ⟨m, rfl⟩ : ∃ m, n = m + 1 := ⟨n - 1, by omega⟩
  have hk := strText_length k
  have hskip : ∀ r, skipWs (' ' :: (dumps ft v ++ r)) = dumps ft v ++ r := by
    intro r
    obtain ⟨c, t, h, hs⟩ := dumps_head ft hft v
    rw [h, List.cons_append]
    have := hs.1
    simp [isWs] at this
    simp [skipWs, isWs, this]
  match l with
  | [] =>
    rw [dumpsObj] at hn ⊢
    simp only [List.length_append] at hn
    have h1 := scan_dumps ft hft v m ('}' :: r) (stop_cons _ (by simp) r) (by omega)
    have e : strText k ++ (": ".toList ++ dumps ft v) ++ '}' :: r =
        '"' :: (k.flatMap escChar ++ '"' :: (':' :: ' ' :: (dumps ft v ++ '}' :: r))) := by
      simp [strText, List.append_assoc]
    rw [e, scanEntries, List.head?_cons, if_pos rfl, List.tail_cons, scanStr_text k _ _ (by omega), Option.bind_some]
    simp only [skipWs_start (c := ':') (by decide), List.head?_cons, List.tail_cons, hskip, h1, Option.bind_some,
      skipWs_start (c := '}') (s := r) (by decide), if_true, lastValuesE]
  | (k', v') :: l =>
    rw [dumpsObj] at hn ⊢
    simp only [List.length_append] at hn
    have h1 := scan_dumps ft hft v m (',' :: ' ' :: (dumpsObj ft ((k', v') :: l) ++ '}' :: r)) (stop_cons _ (by simp) _) (by omega)
    have h2 := scanEntries_dumps ft hft k' v' l m r (by have : (", ".toList).length = 2 := rfl; omega)
    have e : strText k ++ (": ".toList ++ (dumps ft v ++ (", ".toList ++ dumpsObj ft ((k', v') :: l)))) ++ '}' :: r =
        '"' :: (k.flatMap escChar ++ '"' :: (':' :: ' ' :: (dumps ft v ++ ',' :: ' ' :: (dumpsObj ft ((k', v') :: l) ++ '}' :: r)))) := by
      simp [strText, List.append_assoc]
    have h3 : skipWs (' ' :: (dumpsObj ft ((k', v') :: l) ++ '}' :: r)) = dumpsObj ft ((k', v') :: l) ++ '}' :: r := by
      have h : ∃ t, dumpsObj ft ((k', v') :: l) = '"' :: t := by cases l <;> exact ⟨_, by rw [dumpsObj, strText]; rfl⟩
      obtain ⟨t, h⟩ := h
      rw [h]; rfl
    rw [e, scanEntries, List.head?_cons, if_pos rfl, List.tail_cons, scanStr_text k _ _ (by omega), Option.bind_some]
    simp only [skipWs_start (c := ':') (by decide), List.head?_cons, List.tail_cons, hskip, h1, Option.bind_some,
      skipWs_start (c := ',') (by decide), h3, h2, Option.map_some, lastValuesE, if_true]
    rw [if_neg (by decide)]
termination_by n
decreasing_by all_goals omega
end

/-- C216: reading the text of any document yields the document, where an object with repeated keys keeps the last value of
each key. -/
theorem C216_loads (ft : FloatText F) (hft : FloatLaw ft) (j : Json F) : loads ft (dumps ft j) = some (lastValues j) := by
  have h1 := skipWs_dumps ft hft j []
  rw [List.append_nil] at h1
  have h2 := scan_dumps ft hft j (2 * (dumps ft j).length + 2) [] (by intro c hc; simp at hc) (by omega)
  rw [List.append_nil] at h2
  rw [loads, h1, h2]
  rfl

/-! ### Documents with distinct keys -/

mutual
/-- No object of the document, at any level, has the same key twice. -/
def Distinct : Json F → Prop
  | .arr l => DistinctL l
  | .obj l => (l.map Prod.fst).Nodup ∧ DistinctE l
  | _ => True
def DistinctL : List (Json F) → Prop
  | [] => True
  | v :: l => Distinct v ∧ DistinctL l
def DistinctE : List (List Char × Json F) → Prop
  | [] => True
  | (_, v) :: l => Distinct v ∧ DistinctE l
end

mutual
/-- The Python value that `json.loads` yields for a document: `None`, booleans, numbers, strings, lists and
dictionaries with string keys. -/
def value : Json F → Val F
  | .null => .none
  | .bool b => .bool b
  | .int i => .int i
  | .flt f => .flt f
  | .str s => .str s
  | .arr l => .list (valueL l)
  | .obj l => .dict (valueE l)
def valueL : List (Json F) → List (Val F)
  | [] => []
  | v :: l => value v :: valueL l
def valueE : List (List Char × Json F) → List (Key F × Val F)
  | [] => []
  | (k, v) :: l => (.str k, value v) :: valueE l
end

theorem set_append {K V : Type} [DecidableEq K] (d : Dict K V) (k : K) (v : V) (h : k ∉ d.map Prod.fst) :
    Dict.set d k v = d ++ [(k, v)] := by
  induction d with
  | nil => rfl
  | cons e d ih =>
    obtain ⟨k', v'⟩ := e
    simp only [List.map_cons, List.mem_cons, not_or] at h
    have hne : ¬ (k' = k) := fun e => h.1 e.symm
    simp only [Dict.set, if_neg hne, List.cons_append]
    rw [ih h.2]

theorem ofList_nodup {K V : Type} [DecidableEq K] (l : List (K × V)) (h : (l.map Prod.fst).Nodup) : Dict.ofList l = l := by
  have key : ∀ (l : List (K × V)) (d : Dict K V), ((d ++ l).map Prod.fst).Nodup →
      l.foldl (fun d e => Dict.set d e.1 e.2) d = d ++ l := by
    intro l
    induction l with
    | nil => intro d _; simp
    | cons e l ih =>
      intro d hd
      obtain ⟨k, v⟩ := e
      have h1 : k ∉ d.map Prod.fst := by
        intro hk
        rw [List.map_append, List.nodup_append] at hd
        exact hd.2.2 k hk k (by simp) rfl
      rw [List.foldl_cons, set_append d k v h1, ih _ (by simpa using hd)]
      simp
  have := key l [] (by simpa using h)
  simpa [Dict.ofList] using this

theorem lastValuesE_keys (l : List (List Char × Json F)) : (lastValuesE l).map Prod.fst = l.map Prod.fst := by
  induction l with
  | nil => simp [lastValuesE]
  | cons e l ih => obtain ⟨k, v⟩ := e; simp [lastValuesE, ih]

mutual
theorem lastValues_distinct (j : Json F) (h : Distinct j) : lastValues j = j := by
  match j with
  | .null => simp [lastValues]
  | .bool _ => simp [lastValues]
  | .int _ => simp [lastValues]
  | .flt _ => simp [lastValues]
  | .str _ => simp [lastValues]
  | .arr l => rw [Distinct] at h; rw [lastValues, lastValuesL_distinct l h]
  | .obj l =>
    rw [Distinct] at h
    rw [lastValues, lastValuesE_distinct l h.2, ofList_nodup l h.1]
theorem lastValuesL_distinct (l : List (Json F)) (h : DistinctL l) : lastValuesL l = l := by
  match l with
  | [] => rw [lastValuesL]
  | v :: l => rw [DistinctL] at h; rw [lastValuesL, lastValues_distinct v h.1, lastValuesL_distinct l h.2]
theorem lastValuesE_distinct (l : List (List Char × Json F)) (h : DistinctE l) : lastValuesE l = l := by
  match l with
  | [] => rw [lastValuesE]
  | (k, v) :: l => rw [DistinctE] at h; rw [lastValuesE, lastValues_distinct v h.1, lastValuesE_distinct l h.2]
end

mutual
theorem encode_value (ft : FloatText F) (b : Bool) (j : Json F) : encode ft b (value j) = some j := by
  match j with
  | .null => simp [value, encode]
  | .bool _ => simp [value, encode]
  | .int _ => simp [value, encode]
  | .flt _ => simp [value, encode]
  | .str _ => simp [value, encode]
  | .arr l => rw [value, encode, encodeList_value ft b l]; rfl
  | .obj l => rw [value, encode, encodeDict_value ft b l]; rfl
theorem encodeList_value (ft : FloatText F) (b : Bool) (l : List (Json F)) : encodeList ft b (valueL l) = some l := by
  match l with
  | [] => rw [valueL, encodeList]
  | v :: l => rw [valueL, encodeList, encode_value ft b v, encodeList_value ft b l]; rfl
theorem encodeDict_value (ft : FloatText F) (b : Bool) (l : List (List Char × Json F)) :
    encodeDict ft b (valueE l) = some l := by
  match l with
  | [] => rw [valueE, encodeDict]
  | (k, v) :: l => rw [valueE, encodeDict, encode_value ft b v, encodeDict_value ft b l]; rfl
end

theorem toJson_encode (ft : FloatText F) (v : Val F) (j : Json F) (h : encode ft false v = some j) (hv : v ≠ .none) :
    toJson ft v = some (some (dumps ft j)) := by
  cases v with
  | none => exact absurd rfl hv
  | _ => simp only [toJson, h]; rfl

/-- C216: every value made of booleans, numbers (also infinite and NaN), strings of any characters, lists and string-keyed
dictionaries, nested to any depth (`None` only inside), is written by `to_json`, and reading the text with `json.loads`
yields exactly the value. -/
theorem C216_roundtrip_partial (ft : FloatText F) (hft : FloatLaw ft) (j : Json F) (hd : Distinct j) (hn : j ≠ .null) :
    ∃ t, toJson ft (value j) = some (some t) ∧ loads ft t = some j := by
  have hv : value j ≠ .none := by cases j <;> simp_all [value]
  exact ⟨_, toJson_encode ft _ j (encode_value ft false j) hv, by rw [C216_loads ft hft, lastValues_distinct j hd]⟩

/-- C216: different values have different texts. -/
theorem C216_injective (ft : FloatText F) (hft : FloatLaw ft) (i j : Json F) (hi : Distinct i) (hj : Distinct j)
    (h : toJson ft (value i) = toJson ft (value j)) : i = j := by
  by_cases h1 : i = .null
  · by_cases h2 : j = .null
    · rw [h1, h2]
    · obtain ⟨t, ht, _⟩ := C216_roundtrip_partial ft hft j hj h2
      rw [ht, h1] at h
      simp [value, toJson] at h
  · obtain ⟨t, ht, ht'⟩ := C216_roundtrip_partial ft hft i hi h1
    by_cases h2 : j = .null
    · rw [ht, h2] at h
      simp [value, toJson] at h
    · obtain ⟨u, hu, hu'⟩ := C216_roundtrip_partial ft hft j hj h2
      rw [ht, hu] at h
      simp only [Option.some.injEq] at h
      rw [h, hu'] at ht'
      exact (Option.some.inj ht').symm

/-! ### The characters of the text -/

/-- Printable ASCII characters: no line breaks, nothing that depends on the encoding of a file. -/
def Printable (s : List Char) : Prop := ∀ c ∈ s, 32 ≤ c.toNat ∧ c.toNat ≤ 126

theorem Printable.append {s t : List Char} (hs : Printable s) (ht : Printable t) : Printable (s ++ t) := by
  intro c hc
  rcases List.mem_append.1 hc with h | h
  · exact hs c h
  · exact ht c h

theorem Printable.cons {c : Char} {t : List Char} (hc : 32 ≤ c.toNat ∧ c.toNat ≤ 126) (ht : Printable t) :
    Printable (c :: t) := by
  intro d hd
  rcases List.mem_cons.1 hd with h | h
  · rw [h]; exact hc
  · exact ht d h

theorem Digits.printable {s : List Char} (h : Digits s) : Printable s := by
  intro c hc
  have := h.2 c hc
  omega

theorem hexDigit_printable (n : Nat) (h : n < 16) : 32 ≤ (hexDigit n).toNat ∧ (hexDigit n).toNat ≤ 126 := by
  have : ∀ n < 16, 32 ≤ (hexDigit n).toNat ∧ (hexDigit n).toNat ≤ 126 := by decide +kernel
  exact this n h

theorem uEscape_printable (n : Nat) : Printable (uEscape n) := by
  have h : ∀ m, m % 16 < 16 := fun m => Nat.mod_lt _ (by decide)
  unfold uEscape
  refine .cons (by decide) (.cons (by decide) (.cons (hexDigit_printable _ (h _)) (.cons (hexDigit_printable _ (h _))
    (.cons (hexDigit_printable _ (h _)) (.cons (hexDigit_printable _ (h _)) ?_)))))
  intro c hc; simp at hc

theorem escChar_printable (c : Char) : Printable (escChar c) := by
  have nil : Printable [] := by intro c hc; simp at hc
  unfold escChar
  split
  · exact .cons (by decide) (.cons (by decide) nil)
  split
  · exact .cons (by decide) (.cons (by decide) nil)
  split
  · exact .cons (by decide) (.cons (by decide) nil)
  split
  · exact .cons (by decide) (.cons (by decide) nil)
  split
  · exact .cons (by decide) (.cons (by decide) nil)
  split
  · exact .cons (by decide) (.cons (by decide) nil)
  split
  · exact .cons (by decide) (.cons (by decide) nil)
  split
  · rename_i h; exact .cons h nil
  split
  · exact uEscape_printable _
  · exact .append (uEscape_printable _) (uEscape_printable _)

theorem strText_printable (s : List Char) : Printable (strText s) := by
  unfold strText
  refine .append (.cons (by decide) ?_) (.cons (by decide) (by intro c hc; simp at hc))
  intro c hc
  obtain ⟨d, _, hd⟩ := List.mem_flatMap.1 hc
  exact escChar_printable d c hd

theorem word_printable (w : String) (h : w.toList.all (fun c => 32 ≤ c.toNat && c.toNat ≤ 126) = true) : Printable w.toList := by
  intro c hc
  have := List.all_eq_true.1 h c hc
  simpa using this

theorem intText_printable (i : Int) : Printable (intText i) := by
  cases i with
  | ofNat n => exact (natText_digits n).printable
  | negSucc n => exact .cons (by decide) (natText_digits (n + 1)).printable

theorem repr_printable (ft : FloatText F) (hft : FloatLaw ft) (x : F) : Printable (ft.repr x) := by
  obtain ⟨⟨sign, int, frac, exp, ht, hsign, hint, _, hfrac, hexp, _⟩, _⟩ := hft x
  have nil : Printable [] := by intro c hc; simp at hc
  rw [ht]
  refine .append ?_ (.append hint.printable (.append ?_ ?_))
  · rcases hsign with rfl | rfl
    · exact nil
    · exact .cons (by decide) nil
  · rcases hfrac with rfl | ⟨ds, rfl, hds⟩
    · exact nil
    · exact .cons (by decide) hds.printable
  · rcases hexp with rfl | ⟨sg, ds, rfl, hsg, hds⟩
    · exact nil
    · refine .cons (by decide) (.append ?_ hds.printable)
      rcases hsg with rfl | rfl <;> exact .cons (by decide) nil

mutual
theorem dumps_printable (ft : FloatText F) (hft : FloatLaw ft) (j : Json F) : Printable (dumps ft j) := by
  match j with
  | .null => rw [dumps]; exact word_printable _ (by decide +kernel)
  | .bool true => rw [dumps]; exact word_printable _ (by decide +kernel)
  | .bool false => rw [dumps]; exact word_printable _ (by decide +kernel)
  | .int i => rw [dumps]; exact intText_printable i
  | .flt (.fin x) => rw [dumps]; exact repr_printable ft hft x
  | .flt .nan => rw [dumps]; exact word_printable "NaN" (by decide +kernel)
  | .flt .inf => rw [dumps]; exact word_printable "Infinity" (by decide +kernel)
  | .flt .ninf => rw [dumps]; exact word_printable "-Infinity" (by decide +kernel)
  | .str s => rw [dumps]; exact strText_printable s
  | .arr l =>
    rw [dumps]
    exact .append (.cons (by decide) (dumpsArr_printable ft hft l)) (.cons (by decide) (by intro c hc; simp at hc))
  | .obj l =>
    rw [dumps]
    exact .append (.cons (by decide) (dumpsObj_printable ft hft l)) (.cons (by decide) (by intro c hc; simp at hc))
theorem dumpsArr_printable (ft : FloatText F) (hft : FloatLaw ft) (l : List (Json F)) : Printable (dumpsArr ft l) := by
  match l with
  | [] => rw [dumpsArr]; intro c hc; simp at hc
  | [v] => rw [dumpsArr]; exact dumps_printable ft hft v
  | v :: w :: l =>
    rw [dumpsArr]
    exact .append (dumps_printable ft hft v) (.append (word_printable ", " (by decide +kernel)) (dumpsArr_printable ft hft (w :: l)))
theorem dumpsObj_printable (ft : FloatText F) (hft : FloatLaw ft) (l : List (List Char × Json F)) : Printable (dumpsObj ft l) := by
  match l with
  | [] => rw [dumpsObj]; intro c hc; simp at hc
  | [(k, v)] =>
    rw [dumpsObj]
    exact .append (strText_printable k) (.append (word_printable ": " (by decide +kernel)) (dumps_printable ft hft v))
  | (k, v) :: e :: l =>
    rw [dumpsObj]
    exact .append (strText_printable k) (.append (word_printable ": " (by decide +kernel)) (.append (dumps_printable ft hft v)
      (.append (word_printable ", " (by decide +kernel)) (dumpsObj_printable ft hft (e :: l)))))
end

/-- C216: whatever the value, the text consists of printable ASCII characters: it is a single line (as formats with one
document per line need) and does not depend on the encoding of the file it is written to. -/
theorem C216_ascii (ft : FloatText F) (hft : FloatLaw ft) (v : Val F) (t : List Char) (h : toJson ft v = some (some t)) :
    ∀ c ∈ t, 32 ≤ c.toNat ∧ c.toNat ≤ 126 := by
  have key : ∃ j, t = dumps ft j := by
    cases v with
    | none => simp [toJson] at h
    | _ =>
      simp only [toJson, Option.map_eq_some_iff, Option.some.injEq] at h
      obtain ⟨j, _, hj⟩ := h
      exact ⟨j, hj.symm⟩
  obtain ⟨j, rfl⟩ := key
  exact dumps_printable ft hft j

/-! ### Values that are not supported -/

/-- The value contains something that has no JSON representation: an object that is neither a data class nor has a
`__json__` method, or a dictionary key that is not a string, number, boolean or `None`. The flag says whether the value
is a field of a data class, where nested data classes are represented by their fields. -/
inductive Blocked : Bool → Val F → Prop
  | object (b : Bool) : Blocked b (.inst none none)
  | inList {b : Bool} {l : List (Val F)} {v : Val F} : v ∈ l → Blocked b v → Blocked b (.list l)
  | inTuple {b : Bool} {l : List (Val F)} {v : Val F} : v ∈ l → Blocked b v → Blocked b (.tuple l)
  | key {b : Bool} {l : List (Key F × Val F)} {v : Val F} : (Key.other, v) ∈ l → Blocked b (.dict l)
  | inDict {b : Bool} {l : List (Key F × Val F)} {k : Key F} {v : Val F} : (k, v) ∈ l → Blocked b v → Blocked b (.dict l)
  | inEnum {b : Bool} {v : Val F} : Blocked false v → Blocked b (.enum v)
  | inSet {b : Bool} {l : List (Val F)} {v : Val F} : v ∈ l → Blocked false v → Blocked b (.set l)
  | inJson {b : Bool} {j : Val F} : Blocked false j → Blocked b (.inst (some j) none)
  | inDataJson {j : Val F} {fs : List (List Char × Val F)} : Blocked false j → Blocked false (.inst (some j) (some fs))
  | inNested {j v : Val F} {fs : List (List Char × Val F)} {k : List Char} :
      (k, v) ∈ fs → Blocked true v → Blocked true (.inst (some j) (some fs))
  | inField {b : Bool} {v : Val F} {fs : List (List Char × Val F)} {k : List Char} :
      (k, v) ∈ fs → Blocked true v → Blocked b (.inst none (some fs))

mutual
theorem encode_blocked (ft : FloatText F) (b : Bool) (v : Val F) : encode ft b v = none ↔ Blocked b v := by
  match v with
  | .none => simp only [encode]; constructor <;> intro h <;> cases h
  | .bool _ => simp only [encode]; constructor <;> intro h <;> cases h
  | .int _ => simp only [encode]; constructor <;> intro h <;> cases h
  | .flt _ => simp only [encode]; constructor <;> intro h <;> cases h
  | .str _ => simp only [encode]; constructor <;> intro h <;> cases h
  | .path _ => simp only [encode]; constructor <;> intro h <;> cases h
  | .date _ => simp only [encode]; constructor <;> intro h <;> cases h
  | .delta _ => simp only [encode]; constructor <;> intro h <;> cases h
  | .list l =>
    rw [encode, Option.map_eq_none_iff, encodeList_blocked ft b l]
    exact ⟨fun ⟨v, hv, h⟩ => .inList hv h, fun h => by cases h with | inList hv h => exact ⟨_, hv, h⟩⟩
  | .tuple l =>
    rw [encode, Option.map_eq_none_iff, encodeList_blocked ft b l]
    exact ⟨fun ⟨v, hv, h⟩ => .inTuple hv h, fun h => by cases h with | inTuple hv h => exact ⟨_, hv, h⟩⟩
  | .set l =>
    rw [encode, Option.map_eq_none_iff, encodeList_blocked ft false l]
    exact ⟨fun ⟨v, hv, h⟩ => .inSet hv h, fun h => by cases h with | inSet hv h => exact ⟨_, hv, h⟩⟩
  | .dict l =>
    rw [encode, Option.map_eq_none_iff, encodeDict_blocked ft b l]
    constructor
    · rintro ⟨k, v, hv, rfl | h⟩
      · exact .key hv
      · exact .inDict hv h
    · intro h
      cases h with
      | key hv => exact ⟨_, _, hv, .inl rfl⟩
      | inDict hv h => exact ⟨_, _, hv, .inr h⟩
  | .enum v =>
    rw [encode, encode_blocked ft false v]
    exact ⟨.inEnum, fun h => by cases h with | inEnum h => exact h⟩
  | .inst (some j) none =>
    rw [encode, encode_blocked ft false j]
    exact ⟨.inJson, fun h => by cases h with | inJson h => exact h⟩
  | .inst (some j) (some fs) =>
    cases b with
    | true =>
      rw [encode, if_pos rfl, Option.map_eq_none_iff, encodeFields_blocked ft fs]
      exact ⟨fun ⟨k, v, hv, h⟩ => .inNested hv h, fun h => by cases h with | inNested hv h => exact ⟨_, _, hv, h⟩⟩
    | false =>
      rw [encode, if_neg (by simp), encode_blocked ft false j]
      exact ⟨.inDataJson, fun h => by cases h with | inDataJson h => exact h⟩
  | .inst none (some fs) =>
    rw [encode, Option.map_eq_none_iff, encodeFields_blocked ft fs]
    exact ⟨fun ⟨k, v, hv, h⟩ => .inField hv h, fun h => by cases h with | inField hv h => exact ⟨_, _, hv, h⟩⟩
  | .inst none none => simp only [encode]; exact ⟨fun _ => .object b, fun _ => trivial⟩
theorem encodeList_blocked (ft : FloatText F) (b : Bool) (l : List (Val F)) :
    encodeList ft b l = none ↔ ∃ v ∈ l, Blocked b v := by
  match l with
  | [] => simp [encodeList]
  | v :: l =>
    have h1 := encode_blocked ft b v
    have h2 := encodeList_blocked ft b l
    rw [encodeList, List.exists_mem_cons_iff, ← h1, ← h2]
    cases encode ft b v <;> simp
theorem encodeDict_blocked (ft : FloatText F) (b : Bool) (l : List (Key F × Val F)) :
    encodeDict ft b l = none ↔ ∃ k v, (k, v) ∈ l ∧ (k = Key.other ∨ Blocked b v) := by
  match l with
  | [] => simp [encodeDict]
  | (k, v) :: l =>
    have h1 := encode_blocked ft b v
    have h2 := encodeDict_blocked ft b l
    have h3 : keyText ft k = none ↔ k = Key.other := by
      cases k with
      | bool b => cases b <;> simp [keyText]
      | _ => simp [keyText]
    have h4 : (∃ k' v', (k', v') ∈ (k, v) :: l ∧ (k' = Key.other ∨ Blocked b v')) ↔
        (k = Key.other ∨ Blocked b v) ∨ ∃ k' v', (k', v') ∈ l ∧ (k' = Key.other ∨ Blocked b v') := by
      constructor
      · rintro ⟨k', v', hm, h⟩
        rcases List.mem_cons.1 hm with e | hm
        · simp only [Prod.mk.injEq] at e
          obtain ⟨rfl, rfl⟩ := e
          exact .inl h
        · exact .inr ⟨k', v', hm, h⟩
      · rintro (h | ⟨k', v', hm, h⟩)
        · exact ⟨k, v, List.mem_cons_self, h⟩
        · exact ⟨k', v', List.mem_cons_of_mem _ hm, h⟩
    rw [encodeDict, h4, ← h2, ← h1, ← h3]
    cases keyText ft k <;> cases encode ft b v <;> simp
theorem encodeFields_blocked (ft : FloatText F) (l : List (List Char × Val F)) :
    encodeFields ft l = none ↔ ∃ k v, (k, v) ∈ l ∧ Blocked true v := by
  match l with
  | [] => simp [encodeFields]
  | (k, v) :: l =>
    have h1 := encode_blocked ft true v
    have h2 := encodeFields_blocked ft l
    have h4 : (∃ k' v', (k', v') ∈ (k, v) :: l ∧ Blocked true v') ↔
        Blocked true v ∨ ∃ k' v', (k', v') ∈ l ∧ Blocked true v' := by
      constructor
      · rintro ⟨k', v', hm, h⟩
        rcases List.mem_cons.1 hm with e | hm
        · simp only [Prod.mk.injEq] at e
          obtain ⟨rfl, rfl⟩ := e
          exact .inl h
        · exact .inr ⟨k', v', hm, h⟩
      · rintro (h | ⟨k', v', hm, h⟩)
        · exact ⟨k, v, List.mem_cons_self, h⟩
        · exact ⟨k', v', List.mem_cons_of_mem _ hm, h⟩
    rw [encodeFields, h4, ← h2, ← h1]
    cases encode ft true v <;> simp
end

/-- C216: `to_json` raises exactly for values that contain an unsupported object or key. -/
theorem C216_errors (ft : FloatText F) (v : Val F) : toJson ft v = none ↔ Blocked false v := by
  rw [← encode_blocked ft false v]
  cases v with
  | none => simp [toJson, encode]
  | _ => simp only [toJson, Option.map_eq_none_iff]

/-! ### Violations -/

/-- C216 (violated): `to_json(None)` is no text at all. -/
theorem C216_none_violated (ft : FloatText F) : ¬ ∃ t, toJson ft .none = some (some t) ∧ loads ft t = some .null := by
  simp [toJson]

/-- C216 (violated): for every number, a dictionary with this number and its text as keys loses the first value. -/
theorem C216_keys_violated (ft : FloatText F) (hft : FloatLaw ft) (i x y : Int) :
    ∃ t, toJson ft (.dict [(.int i, .int x), (.str (intText i), .int y)]) = some (some t) ∧
      loads ft t = some (.obj [(intText i, .int y)]) := by
  refine ⟨dumps ft (.obj [(intText i, .int x), (intText i, .int y)]), ?_, ?_⟩
  · simp [toJson, encode, encodeDict, keyText]
  · rw [C216_loads ft hft]
    simp [lastValues, lastValuesE, Dict.ofList, Dict.set]

/-- C216 (violated): the `__json__` method of a data class is not used if the object is a field of another data class
without such a method. -/
theorem C216_nested_violated (ft : FloatText F) (own : Val F) (fs : List (List Char × Val F)) (k : List Char) :
    toJson ft (.inst none (some [(k, .inst (some own) (some fs))])) =
      toJson ft (.inst none (some [(k, .inst none (some fs))])) := by
  simp [toJson, encode, encodeFields]

/-! ### Examples -/

/-- Floats with integer values. -/
def wholeFloats : FloatText Nat where
  repr n := natText n ++ ['.', '0']
  parse s := some (natVal (s.take (s.length - 2)))

theorem wholeFloats_law : FloatLaw wholeFloats := by
  intro n
  refine ⟨⟨[], natText n, ['.', '0'], [], by simp [wholeFloats], .inl rfl, natText_digits n, natText_head n,
    .inr ⟨['0'], rfl, ⟨by simp, by decide⟩⟩, .inl rfl, .inl (by simp)⟩, ?_⟩
  simp [wholeFloats, natVal_natText]

/-- A nested document that satisfies the hypotheses of `C216_roundtrip_partial`. -/
example : ∃ t, toJson wholeFloats (value (.obj [("rows".toList, .arr [.int (-12), .flt (.fin 3), .flt .nan, .null]),
    ("text \"ü\"\n".toList, .obj [("𝄞".toList, .bool true)])])) = some (some t) ∧
    loads wholeFloats t = some (.obj [("rows".toList, .arr [.int (-12), .flt (.fin 3), .flt .nan, .null]),
    ("text \"ü\"\n".toList, .obj [("𝄞".toList, .bool true)])]) :=
  C216_roundtrip_partial _ wholeFloats_law _ (by
    simp only [Distinct, DistinctL, DistinctE, List.map_cons, List.map_nil]
    refine ⟨by decide +kernel, ?_⟩
    simp) (by simp)

/-- A data class with a plan object inside a tuple: the object has neither fields nor a `__json__` method. -/
example : toJson wholeFloats (.inst none (some [("plan".toList, .tuple [.int 1, .inst none none])])) = none :=
  (C216_errors _ _).2 (.inField (List.mem_singleton.2 rfl) (.inTuple (v := .inst none none) (by simp) (.object _)))

end PB.JsonTextProps
