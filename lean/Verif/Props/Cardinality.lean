import Verif.Model.Cardinality
import Mathlib.Tactic.Linarith
import Mathlib.Tactic.NormNum

set_option linter.unusedSimpArgs false

/-! Properties C01 and C02 (`Cardinality`). -/

namespace PB.CardProps
open PB

/-! ### Specification: what a cardinality *is* for a user -/

/-- A cardinality is unknown, infinite or an integer. -/
inductive ECard where
  | unknown
  | infinite
  | finite (n : Int)
  deriving DecidableEq

/-- The constructor call producing a given cardinality. -/
def mk : ECard → Card
  | .unknown => Card.unknown
  | .infinite => Card.infinite
  | .finite n => Card.ofInt n

/-- The intended strict order: integers in their order, below infinity; unknown is incomparable. -/
def SpecLt : ECard → ECard → Prop
  | .finite m, .finite n => m < n
  | .finite _, .infinite => True
  | _, _ => False

/-! ### Helper lemmas -/

theorem round_int (n : Int) : roundHalfEven (n : Rat) = n := by
  unfold roundHalfEven
  have h : (n : Rat).floor = n := Rat.floor_intCast n
  simp only [h]
  norm_num

theorem ofInt_eq (n : Int) : Card.ofInt n = ⟨false, false, true, n⟩ := by
  simp [Card.ofInt, Card.ofFlt, round_int]

theorem unknown_eq : Card.unknown = ⟨true, false, false, -1⟩ := by rfl
theorem infinite_eq : Card.infinite = ⟨false, true, false, -1⟩ := by rfl

/-- Every object the constructor can build is one of the three kinds. -/
theorem constructor_cases (f : Flt) : ∃ e, Card.ofFlt f = mk e := by
  cases f with
  | nan => exact ⟨.unknown, rfl⟩
  | pinf => exact ⟨.infinite, rfl⟩
  | ninf => exact ⟨.infinite, rfl⟩
  | fin q => exact ⟨.finite (roundHalfEven q), by
      rw [mk, ofInt_eq]; rfl⟩

theorem mk_injective {a b : ECard} (h : mk a = mk b) : a = b := by
  cases a <;> cases b <;> simp_all [mk, ofInt_eq, unknown_eq, infinite_eq]

/-! ### C01 -/

/-- C01 (part): `<` is exactly the intended order, for every pair of cardinalities. -/
theorem C01_lt_is_intended_order (a b : ECard) : Card.lt (mk a) (mk b) = true ↔ SpecLt a b := by
  cases a <;> cases b <;>
    simp [mk, ofInt_eq, unknown_eq, infinite_eq, Card.lt, SpecLt]

/-- C01 (part): `<` is irreflexive and transitive. -/
theorem C01_lt_strict_order (a b c : ECard) :
    Card.lt (mk a) (mk a) = false ∧
    (Card.lt (mk a) (mk b) = true → Card.lt (mk b) (mk c) = true → Card.lt (mk a) (mk c) = true) := by
  constructor
  · cases a <;> simp [mk, ofInt_eq, unknown_eq, infinite_eq, Card.lt]
  · simp only [C01_lt_is_intended_order]
    cases a <;> cases b <;> cases c <;> simp [SpecLt]
    omega

example : Card.lt (mk (.finite 3)) (mk (.finite 4)) = true ∧
    Card.lt (mk (.finite 4)) (mk .infinite) = true := by
  simp [C01_lt_is_intended_order, SpecLt]

/-- C01 violated: a finite cardinality is reported greater than the infinite one
(and at the same time smaller). -/
theorem C01_gt_violated :
    Card.gt (Card.ofInt 5) Card.infinite = true ∧ Card.lt (Card.ofInt 5) Card.infinite = true := by
  simp [ofInt_eq, infinite_eq, Card.gt, Card.lt]

/-- C01 violated: `a < b` does not imply `b > a`. -/
theorem C01_mirror_violated : ¬ ∀ a b : ECard, (Card.lt (mk a) (mk b) = Card.gt (mk b) (mk a)) := by
  intro h
  have := h (.finite 5) .infinite
  simp [mk, ofInt_eq, infinite_eq, Card.gt, Card.lt] at this

/-- C01 violated: comparing a known with an unknown cardinality by `==` raises `StateError`. -/
theorem C01_eq_total_violated :
    ¬ ∀ a b : ECard, ∃ r, Card.eq (mk a) (mk b) = .ok r := by
  intro h
  obtain ⟨r, hr⟩ := h (.finite 5) .unknown
  simp [mk, ofInt_eq, unknown_eq, Card.eq, Card.valueProp, bind, Except.bind] at hr

/-- C01 (exact extent of the failure): `==` raises iff the two operands are of different kinds. -/
theorem C01_eq_raises_iff (a b : ECard) :
    (∃ e, Card.eq (mk a) (mk b) = .error e) ↔
      ¬ ((a = .unknown ∧ b = .unknown) ∨ (a = .infinite ∧ b = .infinite) ∨
         (∃ m n, a = .finite m ∧ b = .finite n)) := by
  have : Nonempty Card.StateError := ⟨.notValid⟩
  cases a <;> cases b <;>
    simp [mk, ofInt_eq, unknown_eq, infinite_eq, Card.eq, Card.valueProp, bind, Except.bind,
      pure, Except.pure, this]

/-- C01 partial: whenever `==` returns, it decides equality of the represented cardinalities, it is
reflexive, it is symmetric (including whether it raises), and equal cardinalities hash alike.
Missing: `==` raising for operands of different kinds. -/
theorem C01_eq_partial (a b : ECard) :
    (∀ r, Card.eq (mk a) (mk b) = .ok r → (r = true ↔ a = b)) ∧
    Card.eq (mk a) (mk a) = .ok true ∧
    Card.eq (mk a) (mk b) = Card.eq (mk b) (mk a) ∧
    (Card.eq (mk a) (mk b) = .ok true → (mk a).hashKey = (mk b).hashKey) := by
  refine ⟨?_, ?_, ?_, ?_⟩
  · intro r hr
    cases a <;> cases b <;>
      simp [mk, ofInt_eq, unknown_eq, infinite_eq, Card.eq, Card.valueProp, bind, Except.bind,
        pure, Except.pure] at hr ⊢ <;> subst hr <;> simp
  · cases a <;> simp [mk, ofInt_eq, unknown_eq, infinite_eq, Card.eq, Card.valueProp, bind,
      Except.bind, pure, Except.pure]
  · cases a <;> cases b <;>
      simp [mk, ofInt_eq, unknown_eq, infinite_eq, Card.eq, Card.valueProp, bind, Except.bind,
        pure, Except.pure, eq_comm]
  · cases a <;> cases b <;>
      simp [mk, ofInt_eq, unknown_eq, infinite_eq, Card.eq, Card.valueProp, bind, Except.bind,
        pure, Except.pure, Card.hashKey]

/-- C01 partial: on finite cardinalities all six comparisons agree with the integers.
Missing: `>`/`>=`/`<=` against the infinite cardinality. -/
theorem C01_finite_partial (m n : Int) :
    (Card.lt (Card.ofInt m) (Card.ofInt n) = true ↔ m < n) ∧
    (Card.le (Card.ofInt m) (Card.ofInt n) = true ↔ m ≤ n) ∧
    (Card.gt (Card.ofInt m) (Card.ofInt n) = true ↔ m > n) ∧
    (Card.ge (Card.ofInt m) (Card.ofInt n) = true ↔ m ≥ n) ∧
    (Card.eq (Card.ofInt m) (Card.ofInt n) = .ok true ↔ m = n) := by
  simp [ofInt_eq, Card.lt, Card.le, Card.gt, Card.ge, Card.eq, Card.valueProp, bind, Except.bind,
    pure, Except.pure]

/-- C01 violated: `inf <= inf` is false although `inf == inf`. -/
theorem C01_le_refl_violated :
    Card.eq Card.infinite Card.infinite = .ok true ∧ Card.le Card.infinite Card.infinite = false := by
  decide

/-- C01 (part): comparing with a Python integer never raises and is exact. -/
theorem C01_eqInt_spec (a : ECard) (n : Int) : Card.eqInt (mk a) n = true ↔ a = .finite n := by
  cases a <;> simp [mk, ofInt_eq, unknown_eq, infinite_eq, Card.eqInt]

/-! ### C02 -/

/-- Intended result of an operation when an operand is not an integer, following IEEE rules. -/
def specAdd : ECard → ECard → ECard
  | .finite m, .finite n => .finite (m + n)
  | .unknown, _ => .unknown
  | _, .unknown => .unknown
  | _, _ => .infinite

/-- C02: addition is integer addition, unknown absorbs, infinite absorbs everything but unknown. -/
theorem C02_add (a b : ECard) : Card.add (mk a) (mk b) = mk (specAdd a b) := by
  cases a <;> cases b <;>
    simp [mk, ofInt_eq, unknown_eq, infinite_eq, Card.add, Card.get, Flt.add, specAdd, Card.ofFlt]
  rw [← Int.cast_add, round_int]

/-- Intended product: `0 * inf` is unknown. -/
def specMul : ECard → ECard → ECard
  | .finite m, .finite n => .finite (m * n)
  | .unknown, _ => .unknown
  | _, .unknown => .unknown
  | .finite m, .infinite => if m = 0 then .unknown else .infinite
  | .infinite, .finite m => if m = 0 then .unknown else .infinite
  | .infinite, .infinite => .infinite

/-- C02: multiplication is integer multiplication, unknown absorbs, infinite absorbs non-zero values. -/
theorem C02_mul (a b : ECard) : Card.mul (mk a) (mk b) = mk (specMul a b) := by
  cases a <;> cases b <;>
    simp [mk, ofInt_eq, unknown_eq, infinite_eq, Card.mul, Card.get, Flt.mul, specMul, Card.ofFlt,
      Flt.infMul]
  all_goals first
    | (rw [← Int.cast_mul, round_int])
    | (rename_i n
       by_cases h0 : n = 0
       · simp [h0, mk, unknown_eq]
       · by_cases hp : 0 < n <;> simp [h0, hp, mk, infinite_eq])

/-- Intended difference: `inf - inf` is unknown. -/
def specSub : ECard → ECard → ECard
  | .finite m, .finite n => .finite (m - n)
  | .unknown, _ => .unknown
  | _, .unknown => .unknown
  | .infinite, .infinite => .unknown
  | _, _ => .infinite

/-- C02: subtraction is integer subtraction, unknown absorbs. -/
theorem C02_sub (a b : ECard) : Card.sub (mk a) (mk b) = mk (specSub a b) := by
  cases a <;> cases b <;>
    simp [mk, ofInt_eq, unknown_eq, infinite_eq, Card.sub, Card.get, Flt.sub, Flt.add, Flt.neg,
      specSub, Card.ofFlt]
  rename_i m n
  have : ((m : Rat) + -(n : Rat)) = ((m - n : Int) : Rat) := by push_cast; ring
  rw [this, round_int]

theorem round_close (q : Rat) : |(roundHalfEven q : Rat) - q| ≤ 1/2 := by
  have h1 : ((q.floor : Int) : Rat) ≤ q := Rat.floor_le q
  have h2 : q < (q.floor : Rat) + 1 := by exact_mod_cast Rat.lt_floor_add_one q
  unfold roundHalfEven
  simp only
  split
  · rw [abs_le]; constructor <;> linarith
  · split
    · push_cast; rw [abs_le]; constructor <;> linarith
    · split
      · rw [abs_le]; constructor <;> linarith
      · push_cast; rw [abs_le]; constructor <;> linarith

/-- C02: dividing finite cardinalities raises iff the divisor is zero, and otherwise yields an integer
within 1/2 of the exact quotient. -/
theorem C02_div (m n : Int) :
    (Card.truediv (Card.ofInt m) (Card.ofInt n) = none ↔ n = 0) ∧
    (n ≠ 0 → ∃ r : Int, Card.truediv (Card.ofInt m) (Card.ofInt n) = some (Card.ofInt r) ∧
      |(r : Rat) - (m : Rat) / n| ≤ 1/2) := by
  have key : n ≠ 0 → Card.truediv (Card.ofInt m) (Card.ofInt n)
      = some (Card.ofInt (roundHalfEven ((m : Rat) / n))) := by
    intro hn
    have hn' : (n : Rat) ≠ 0 := by exact_mod_cast hn
    rw [ofInt_eq, ofInt_eq, ofInt_eq]
    simp only [Card.truediv, Card.get]
    simp [Flt.div, hn, Card.ofFlt]
  constructor
  · constructor
    · intro h
      by_contra hn
      rw [key hn] at h
      cases h
    · rintro rfl
      rw [ofInt_eq, ofInt_eq]
      simp [Card.truediv, Card.get, Flt.div]
  · intro hn
    exact ⟨_, key hn, round_close _⟩

/-- C02: an unknown operand makes every arithmetic result unknown (or raises for division by zero);
no operation turns an unknown operand into a finite cardinality. -/
theorem C02_unknown_absorbs (a : ECard) :
    Card.add (mk a) Card.unknown = Card.unknown ∧ Card.add Card.unknown (mk a) = Card.unknown ∧
    Card.sub (mk a) Card.unknown = Card.unknown ∧ Card.sub Card.unknown (mk a) = Card.unknown ∧
    Card.mul (mk a) Card.unknown = Card.unknown ∧ Card.mul Card.unknown (mk a) = Card.unknown ∧
    Card.truediv (mk a) Card.unknown = some Card.unknown ∧
    (∀ c, Card.truediv Card.unknown (mk a) = some c → c = Card.unknown) ∧
    Card.mod (mk a) Card.unknown = some Card.unknown ∧
    Card.mod Card.unknown (mk a) = some Card.unknown := by
  refine ⟨?_, ?_, ?_, ?_, ?_, ?_, ?_, ?_, ?_, ?_⟩
  · have := C02_add a .unknown; cases a <;> simpa [specAdd, mk] using this
  · have := C02_add .unknown a; cases a <;> simpa [specAdd, mk] using this
  · have := C02_sub a .unknown; cases a <;> simpa [specSub, mk] using this
  · have := C02_sub .unknown a; cases a <;> simpa [specSub, mk] using this
  · have := C02_mul a .unknown; cases a <;> simpa [specMul, mk] using this
  · have := C02_mul .unknown a; cases a <;> simpa [specMul, mk] using this
  · cases a <;> simp [mk, ofInt_eq, unknown_eq, infinite_eq, Card.truediv, Card.get, Flt.div,
      Card.ofFlt]
  · intro c
    cases a with
    | unknown => simp [mk, unknown_eq, Card.truediv, Card.get, Flt.div, Card.ofFlt, eq_comm]
    | infinite => simp [mk, unknown_eq, infinite_eq, Card.truediv, Card.get, Flt.div, Card.ofFlt,
        eq_comm]
    | finite n =>
      simp only [mk, ofInt_eq, unknown_eq, Card.truediv, Card.get]
      by_cases hn : n = 0 <;> simp [Flt.div, hn, Card.ofFlt, eq_comm]
  · cases a <;> simp [mk, ofInt_eq, unknown_eq, infinite_eq, Card.mod]
  · cases a <;> simp [mk, ofInt_eq, unknown_eq, infinite_eq, Card.mod]

/-- C02 violated: "a valid cardinality is a non-negative integer" is not preserved by subtraction. -/
theorem C02_nonneg_violated :
    Card.sub (Card.ofInt 3) (Card.ofInt 5) = Card.ofInt (-2) := by
  exact C02_sub (.finite 3) (.finite 5)

/-- Non-negativity of a finite cardinality. -/
def NonNeg : ECard → Prop
  | .finite n => 0 ≤ n
  | _ => True

/-- C02 partial: addition and multiplication keep cardinalities non-negative.
Missing: subtraction (see `C02_nonneg_violated`). -/
theorem C02_nonneg_partial (a b : ECard) (ha : NonNeg a) (hb : NonNeg b) :
    (∃ c, NonNeg c ∧ Card.add (mk a) (mk b) = mk c) ∧
    (∃ c, NonNeg c ∧ Card.mul (mk a) (mk b) = mk c) := by
  refine ⟨⟨_, ?_, C02_add a b⟩, ⟨_, ?_, C02_mul a b⟩⟩
  · cases a <;> cases b <;> simp_all [specAdd, NonNeg]
    omega
  · cases a <;> cases b <;> simp_all [specMul, NonNeg]
    · rename_i n; by_cases h0 : n = 0 <;> simp [h0]
    · rename_i n; by_cases h0 : n = 0 <;> simp [h0]
    · exact mul_nonneg ha hb

example : NonNeg (.finite 3) ∧ NonNeg .infinite := by simp [NonNeg]

end PB.CardProps
