import Verif.Model.NumOps
import Verif.Props.Num

set_option linter.unusedSimpArgs false
set_option linter.unusedVariables false

namespace PB.NumOpsProps
open PB.Num PB.NumProps PB.NumOps

/-! ## Specification -/

/-- The number that a result stands for; nothing for exceptions and threads that wait forever. -/
def number : Res → Option Int
  | .int n => some n
  | .atomic v => some v
  | .bounded b => some b.value
  | _ => none

/-- What `int` computes for an operator. -/
def exact : Op → Int → Int → Option Int
  | .add, a, b => some (a + b)
  | .mul, a, b => some (a * b)
  | .floordiv, a, b => if b = 0 then none else some (Int.fdiv a b)
  | .mod, a, b => if b = 0 then none else some (Int.fmod a b)
  | .and, a, b => some (Int.land a b)
  | .or, a, b => some (Int.lor a b)
  | .xor, a, b => some (Int.xor a b)
  | .lshift, a, b => if b < 0 then none else some (a * 2 ^ b.toNat)
  | .rshift, a, b => if b < 0 then none else some (Int.fdiv a (2 ^ b.toNat))

/-- The value of an operand. -/
def val : Val → Int
  | .int n => n
  | .atomic _ v => v
  | .bounded b => b.value

def Bnd (x : Val) : Prop := ∃ b, x = .bounded b
def Atom (x : Val) : Prop := ∃ i v, x = .atomic i v
def IsInt (x : Val) : Prop := ∃ n, x = .int n

/-- The bounded integer is the nearest one to `n` that respects the bounds of `b`. -/
def Snapped (b : Bounded) (n : Int) (r : Res) : Prop :=
  ∃ c, r = .bounded c ∧ c.lo = b.lo ∧ c.hi = b.hi ∧ Within c ∧ Nearest b.lo b.hi n c.value

/-! ## C235: arithmetic -/

theorem number_ofInt (o : Option Int) : number (ofInt o) = o := by cases o <;> rfl

theorem prim_exact (op : Op) (a b : Int) : prim op a b = exact op a b := by cases op <;> rfl

theorem ofInt_cases (o : Option Int) : (∃ n, o = some n ∧ ofInt o = .int n) ∨ (o = none ∧ ofInt o = .arithError) := by
  cases o with
  | none => exact Or.inr ⟨rfl, rfl⟩
  | some n => exact Or.inl ⟨n, rfl, rfl⟩

theorem intOp_exact (op : Op) (n : Int) (y : Val) (h : ¬ (op = .and ∧ Atom y)) :
    intOp op n y = ofInt (exact op n (val y)) := by
  cases y with
  | int m => simp [intOp, val, prim_exact]
  | bounded b => simp [intOp, val, prim_exact, rbounded]
  | atomic i v =>
    cases op <;> simp [intOp, val, prim_exact, ratomic]
    exact absurd ⟨rfl, i, v, rfl⟩ h

theorem val_unwrapAtomic (y : Val) : val (unwrapAtomic y) = val y := by cases y <;> rfl
theorem val_unwrapBounded (y : Val) : val (unwrapBounded y) = val y := by cases y <;> rfl

theorem not_atom_unwrap (y : Val) : ¬ Atom (unwrapAtomic y) := by
  rintro ⟨i, v, h⟩; cases y <;> simp [unwrapAtomic] at h

/-- C235: an operator gives what `int` gives for the values, also if it fails, unless the result has bounds or the operator
is `&` with an atomic integer as the second operand only. -/
theorem C235_binary_partial (op : Op) (x y : Val) (hand : ¬ (op = .and ∧ Atom y ∧ ¬ Atom x))
    (hb : ¬ (Bnd x ∧ (op = .add ∨ op = .mul))) : number (binary op x y) = exact op (val x) (val y) := by
  cases x with
  | int n =>
    have h' : ¬ (op = .and ∧ Atom y) := fun h => hand ⟨h.1, h.2, by rintro ⟨i, v, h⟩; cases h⟩
    show number (intOp op n y) = exact op n (val y)
    rw [intOp_exact op n y h', number_ofInt]
  | atomic i v =>
    show _ = exact op v (val y)
    simp only [binary, atomicOp]
    rw [intOp_exact op v _ (fun h => not_atom_unwrap y h.2), val_unwrapAtomic]
    rcases ofInt_cases (exact op v (val y)) with ⟨n, h1, h2⟩ | ⟨h1, h2⟩
    · rw [h1]; simp only [ofInt]; split <;> rfl
    · rw [h1]; rfl
  | bounded b =>
    have h' : ¬ (op = .and ∧ Atom (unwrapBounded y)) := by
      rintro ⟨h1, i, v, h2⟩
      refine hand ⟨h1, ⟨i, v, ?_⟩, by rintro ⟨i, v, h⟩; cases h⟩
      cases y <;> simp [unwrapBounded] at h2 ⊢
      exact h2
    have hop : op ≠ .add ∧ op ≠ .mul :=
      ⟨fun h => hb ⟨⟨b, rfl⟩, Or.inl h⟩, fun h => hb ⟨⟨b, rfl⟩, Or.inr h⟩⟩
    show _ = exact op b.value (val y)
    simp only [binary, boundedOp]
    rw [intOp_exact op b.value _ h', val_unwrapBounded]
    rcases ofInt_cases (exact op b.value (val y)) with ⟨n, h1, h2⟩ | ⟨h1, h2⟩
    · rw [h1]; simp only [ofInt]
      cases op <;> simp_all [number]
    · rw [h1]; rfl

example : ¬ (Op.and = .and ∧ Atom (.bounded ⟨6, some 0, none⟩) ∧ ¬ Atom (.atomic 1 12)) ∧
    number (binary .and (.atomic 1 12) (.bounded ⟨6, some 0, none⟩)) = some 4 := by
  refine ⟨?_, by decide⟩
  rintro ⟨_, ⟨i, v, h⟩, _⟩; cases h

theorem rebound_snapped {b : Bounded} (hs : Sane b.lo b.hi) (n : Int) : Snapped b n (rebound n b) := by
  unfold rebound
  cases h : mk? n b.lo b.hi with
  | none => exact absurd hs ((mk?_spec n b.lo b.hi).1.1 h)
  | some c =>
    obtain ⟨h1, h2, h3, h4⟩ := (C13_init n b.lo b.hi).2 c h
    exact ⟨c, rfl, h3, h4, h1, h2⟩

/-- C235: sums and products of bounded integers with anything are the nearest numbers within the bounds of the first. -/
theorem C235_bounded (op : Op) (b : Bounded) (hs : Sane b.lo b.hi) (y : Val) (h : op = .add ∨ op = .mul) :
    ∃ n, exact op b.value (val y) = some n ∧ Snapped b n (binary op (.bounded b) y) := by
  have h' : ¬ (op = .and ∧ Atom (unwrapBounded y)) := by rintro ⟨h1, _⟩; rcases h with h | h <;> rw [h] at h1 <;> cases h1
  simp only [binary, boundedOp]
  rw [intOp_exact op b.value _ h', val_unwrapBounded]
  rcases h with rfl | rfl
  · exact ⟨_, rfl, rebound_snapped hs _⟩
  · exact ⟨_, rfl, rebound_snapped hs _⟩

example : Sane (some 0) (some 10) ∧ binary .add (.bounded ⟨7, some 0, some 10⟩) (.atomic 1 5) = .bounded ⟨10, some 0, some 10⟩ := by
  refine ⟨?_, by decide⟩
  simp [Sane]

/-- C235 is violated: an int `&` an atomic integer is their sum, for all numbers. -/
theorem C235_and_violated (n v : Int) (i : Nat) : binary .and (.int n) (.atomic i v) = .int (n + v) := rfl

example : binary .and (.int 4) (.atomic 0 2) ≠ .int (Int.land 4 2) := by decide

/-- C235: differences without bounded integers are exact. -/
theorem C235_sub_partial (x y : Val) (hx : ¬ Bnd x) (hy : ¬ Bnd y) : number (sub x y) = some (val x - val y) := by
  cases x with
  | bounded b => exact absurd ⟨b, rfl⟩ hx
  | int n => cases y with
    | bounded b => exact absurd ⟨b, rfl⟩ hy
    | int m => rfl
    | atomic j w =>
      simp only [sub, neg, Res.toVal, binary, atomicOp, unwrapAtomic, intOp, prim, ofInt, wrapsAtomic, number, val]
      simp; omega
  | atomic i v => cases y with
    | bounded b => exact absurd ⟨b, rfl⟩ hy
    | int m =>
      simp only [sub, neg, Res.toVal, binary, atomicOp, unwrapAtomic, intOp, prim, ofInt, wrapsAtomic, number, val]
      simp; omega
    | atomic j w =>
      simp only [sub, neg, Res.toVal, binary, atomicOp, unwrapAtomic, intOp, prim, ofInt, wrapsAtomic, number, val]
      simp; omega

/-- C235: subtracting a number without bounds from a bounded integer gives the nearest number within the bounds. -/
theorem C235_sub_bounded_partial (b : Bounded) (hs : Sane b.lo b.hi) (y : Val) (hy : ¬ Bnd y) :
    Snapped b (b.value - val y) (sub (.bounded b) y) := by
  cases y with
  | bounded b => exact absurd ⟨b, rfl⟩ hy
  | int m => 
    have := rebound_snapped hs (b.value + -m)
    rwa [← Int.sub_eq_add_neg] at this
  | atomic j w =>
    have := rebound_snapped hs (b.value + -w)
    rwa [← Int.sub_eq_add_neg] at this

/-- C235 is violated: subtracting a non-negative bounded integer changes nothing, for all numbers. -/
theorem C235_sub_violated (v w : Int) (hv : 0 ≤ v) (hw : 0 ≤ w) :
    sub (.bounded ⟨v, some 0, none⟩) (.bounded ⟨w, some 0, none⟩) = .bounded ⟨v, some 0, none⟩ ∧
    sub (.int v) (.bounded ⟨w, some 0, none⟩) = .bounded ⟨v, some 0, none⟩ := by
  have h1 : neg (.bounded ⟨w, some 0, none⟩) = .bounded ⟨0, some 0, none⟩ := by
    simp only [neg, rebound, mk?, snap]
    by_cases h : -w < 0
    · simp [h]; omega
    · have : w = 0 := by omega
      subst this; rfl
  have h2 : ¬ v < 0 := by omega
  constructor
  · simp only [sub, h1, Res.toVal, binary, boundedOp, unwrapBounded, intOp, prim, ofInt, rebound, mk?, snap, Int.add_zero,
      if_neg h2]
  · simp only [sub, h1, Res.toVal, binary, boundedOp, unwrapBounded, intOp, prim, ofInt, rebound, mk?, snap, Int.zero_add,
      if_neg h2]

/-- C235: powers. -/
theorem C235_pow_partial (x y : Val) (hx : ¬ Bnd x) (h : ∀ i v w, ¬ (x = .atomic i v ∧ y = .atomic i w)) :
    number (pow x y) = some (val x ^ (val y).toNat) := by
  cases x with
  | bounded b => exact absurd ⟨b, rfl⟩ hx
  | int n => cases y <;> rfl
  | atomic i v =>
    cases y with
    | int m => rfl
    | bounded b => rfl
    | atomic j w =>
      have : i ≠ j := fun e => h i v w ⟨rfl, by rw [e]⟩
      simp [pow, this, number, val]

/-- C235: powers of bounded integers are the nearest numbers within the bounds. -/
theorem C235_pow_bounded (b : Bounded) (hs : Sane b.lo b.hi) (y : Val) :
    Snapped b (b.value ^ (val y).toNat) (pow (.bounded b) y) := by
  cases y <;> exact rebound_snapped hs _

/-- C235 is violated: an atomic integer to the power of itself waits for its own lock. -/
theorem C235_pow_violated (i : Nat) (v : Int) : pow (.atomic i v) (.atomic i v) = .deadlock := by simp [pow]

/-- C235 is violated: the third argument of `pow` is ignored. -/
theorem C235_modulus_violated (i : Nat) (v : Int) (e : Nat) (m m' : Int) :
    powMod (.atomic i v) e m = powMod (.atomic i v) e m' ∧ number (powMod (.atomic i v) e m) = some (v ^ e) := by
  simp [powMod, pow, number]

example : number (powMod (.atomic 0 3) 2 5) ≠ number (powMod (.int 3) 2 5) := by decide

/-! ## C236: comparisons -/

/-- The operands are compared by a method that exists: `<` and `<=` need the number object on the left, `>` and `>=` on the
right, and the other operand has to be an int or of the same class. -/
def Comparable (c : Cmp) (x y : Val) : Prop :=
  (IsInt x ∧ IsInt y) ∨
  ((c = .lt ∨ c = .le) ∧ ((Atom x ∧ ¬ Bnd y) ∨ (Bnd x ∧ ¬ Atom y))) ∨
  ((c = .gt ∨ c = .ge) ∧ ((Atom y ∧ ¬ Bnd x) ∨ (Bnd y ∧ ¬ Atom x)))

def holds : Cmp → Int → Int → Prop
  | .lt, a, b => a < b
  | .le, a, b => a ≤ b
  | .gt, a, b => a > b
  | .ge, a, b => a ≥ b

/-- C236: comparable operands are compared by their values, all others raise a `TypeError`. -/
theorem C236_compare_partial (c : Cmp) (x y : Val) :
    (Comparable c x y → ∃ r, NumOps.cmp c x y = .bool r ∧ (r = true ↔ holds c (val x) (val y))) ∧
    (¬ Comparable c x y → NumOps.cmp c x y = .typeError) := by
  cases x <;> cases y <;> cases c <;>
    simp [Comparable, IsInt, Atom, Bnd, NumOps.cmp, method, isInt, defines, mirror, asInt, cmpInt, Val.value, val, holds]
  all_goals exact decide_eq_true_iff

example : Comparable .lt (.atomic 0 3) (.int 5) ∧ ¬ Comparable .gt (.atomic 0 3) (.int 5) := by
  simp [Comparable, IsInt, Atom, Bnd]

/-- C236 is violated: a number object cannot be compared by `>` or `>=` with an int, and an int not by `<` or `<=` with a
number object. -/
theorem C236_greater_violated (x : Val) (hx : ¬ IsInt x) (n : Int) :
    NumOps.cmp .gt x (.int n) = .typeError ∧ NumOps.cmp .ge x (.int n) = .typeError ∧
    NumOps.cmp .lt (.int n) x = .typeError ∧ NumOps.cmp .le (.int n) x = .typeError := by
  cases x with
  | int m => exact absurd ⟨m, rfl⟩ hx
  | atomic i v => simp [NumOps.cmp, method, isInt, defines, mirror, asInt]
  | bounded b => simp [NumOps.cmp, method, isInt, defines, mirror, asInt]

/-- C236: equality is equality of the values, it is compatible with hash values, with each other and with ints. -/
theorem C236_equal (h : Int → Nat) (x y : Val) :
    (eq x y = true ↔ val x = val y) ∧ (eq x y = true → NumOps.hash h x = NumOps.hash h y) := by
  have hv : ∀ z : Val, z.value = val z := by intro z; cases z <;> rfl
  simp only [eq, NumOps.hash, hv, decide_eq_true_eq]
  exact ⟨trivial, fun e => by rw [e]⟩

end PB.NumOpsProps
